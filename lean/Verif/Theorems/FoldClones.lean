import Verif.Spec.FoldClones
import Verif.Theorems.CloneCounts
import Verif.Theorems.CallsMore
import Verif.Theorems.Foldable

/-! # C95: how many elements the folding helpers clone -/

namespace Rustica
open Act (ret mapList foldList)
open Spec
namespace Clones
variable {σ A B E M U : Type}

/-! ## The folds -/

/-- `Vec`, `Choice` and `PersistentVector` clone the starting value. -/
theorem c95_folds_cloning :
    (∀ x : List A, FoldsCloning σ x x ∧ FoldsRightCloning σ x x) ∧
    (∀ x : Choice A, FoldsCloning σ x x.values ∧ FoldsRightCloning σ x x.values) ∧
    ∀ v : PVec.PV A, FoldsCloning σ v v.items := by
  refine ⟨fun x => ⟨fun u f => ?_, fun u f => ?_⟩, fun x => ⟨fun u f => ?_, fun u f => ?_⟩, fun x => @fun _ _ u f => ?_⟩ <;>
    simp only [show ∀ (g : _ → _ → Act σ _) (xs : List A) u', (fun w => passes g xs u' w) = foldList g xs u' from
      fun g xs u' => passes_eq g xs u'] <;> rfl

/-- `Option`, `Result`, `Validated` and `Id` clone it only if they hold nothing. -/
theorem c95_folds_sparing :
    (∀ x : Option A, FoldsSparing σ x x.toList ∧ FoldsRightSparing σ x x.toList) ∧
    (∀ x : Except E A, FoldsSparing σ x (elems x) ∧ FoldsRightSparing σ x (elems x)) ∧
    (∀ x : Validated E A, FoldsSparing σ x (elems x) ∧ FoldsRightSparing σ x (elems x)) ∧
    ∀ x : RId A, FoldsSparing σ x [x.value] ∧ FoldsRightSparing σ x [x.value] := by
  refine ⟨fun x => ?_, fun x => ?_, fun x => ?_, fun x => ?_⟩ <;> cases x <;>
    refine ⟨⟨by simp [elems], fun u f => ⟨fun h => ?_, fun a h => ?_⟩⟩,
      ⟨by simp [elems], fun u f => ⟨fun h => ?_, fun a h => ?_⟩⟩⟩ <;>
    first
      | rfl
      | (simp [elems] at h; done)
      | (simp [elems] at h; subst h; rfl)

/-- `fold_right` of `PersistentVector` visits the indices from the last to the first and skips those that `get` does not
find (which happens in damaged vectors only). -/
theorem c95_pvec_fold_right_any (v : PVec.PV A) : FoldsRightCloning σ v ((List.range v.len).filterMap v.get) := by
  intro U _ u f
  show (clone u).seq (fun acc => v.foldRightLoopC f v.len acc) = _
  congr 1
  funext u'
  refine Eq.trans ?_ (passes_eq (fun u a => f a u) _ u').symm
  generalize v.len = n
  induction n generalizing u' with
  | zero => rfl
  | succ n ih =>
    rw [List.range_succ, List.filterMap_append, List.reverse_append, PVec.PV.foldRightLoopC]
    cases h : v.get n with
    | none => simp [h, ih]
    | some a =>
      simp only [List.filterMap_cons, h, List.filterMap_nil, List.reverse_cons, List.reverse_nil, List.nil_append,
        List.cons_append, foldList]
      congr 1
      funext acc'
      exact ih acc'

/-- … which are the elements, for intact vectors. -/
theorem c95_pvec_fold_right {v : PVec.PV A} (h : PVec.Intact v) : FoldsRightCloning σ v v.toVec := by
  have s := h.shows
  have key : (List.range v.len).filterMap v.get = v.toVec := by
    rw [show v.get = fun i => v.toVec[i]? from funext s.get, s.len]
    generalize v.toVec = l
    induction l with
    | nil => rfl
    | cons a as ih =>
      rw [List.length_cons, List.range_succ_eq_map, List.filterMap_cons, List.filterMap_map]
      simpa [Function.comp_def] using ih
  intro U _ u f
  rw [← key]
  exact c95_pvec_fold_right_any v u f

example : FoldsRightCloning Nat PVec.PV.sample PVec.PV.sample.toVec := c95_pvec_fold_right PVec.PV.sample_sound.intact

/-- `fold_left` visits `xs`, and is of one of the two kinds. -/
abbrev Folds {F : Type → Type} (σ : Type) [RFoldableC σ F] (x : F A) (xs : List A) : Prop :=
  FoldsCloning σ x xs ∨ FoldsSparing σ x xs

section
variable {F : Type → Type} [RFoldableC σ F] {x : F A} {xs : List A}

theorem folds_plain (hx : Folds σ x xs) [RClone σ U] (u : U) (hu : (clone u : Act σ U) = ret u)
    (f : U → A → Act σ U) : foldLeftC x u f = foldList f xs u := by
  rcases hx with hx | ⟨hl, hx⟩
  · rw [hx, hu, Act.ret_seq]; exact passes_eq f xs u
  · obtain ⟨h0, h1⟩ := hx u f
    match xs, hl with
    | [], _ => rw [h0 rfl, hu]; rfl
    | [a], _ => rw [h1 a (by simp)]; simp [foldList]

/-! ## Helpers that clone nothing, and `reduce` -/

/-- `length`, `is_empty`, `all`, `any` and `contains` clone nothing, whatever `Clone` does. -/
theorem c95_no_clones (hx : Folds σ x xs) :
    (lengthC x : Act σ Nat) = ret xs.length ∧ (isEmptyC x : Act σ Bool) = ret xs.isEmpty ∧
    (∀ pred : A → Act σ Bool, allC x pred = allE xs pred ∧ anyC x pred = anyE xs pred) ∧
    ∀ (eq : A → A → Bool) (value : A), (containsC eq x value : Act σ Bool) = ret (xs.any fun a => eq a value) := by
  have hl : (lengthC x : Act σ Nat) = ret xs.length := by
    unfold lengthC
    letI : RClone σ Nat := copied
    rw [folds_plain hx 0 rfl, Act.foldList_pure (fun acc _ => acc + 1), len_fold]; simp
  refine ⟨hl, ?_, fun pred => ⟨?_, ?_⟩, fun eq value => ?_⟩
  · rw [isEmptyC, hl, Act.ret_seq]; cases xs <;> rfl
  · unfold allC
    letI : RClone σ Bool := copied
    rw [folds_plain hx true rfl]; rfl
  · unfold anyC
    letI : RClone σ Bool := copied
    rw [folds_plain hx false rfl]; rfl
  · unfold containsC anyC
    letI : RClone σ Bool := copied
    rw [folds_plain hx false rfl]
    have : (fun (acc : Bool) a => if acc = true then (ret true : Act σ Bool) else ret (eq a value)) =
        fun acc a => ret (acc || eq a value) := by
      funext acc a; cases acc <;> rfl
    rw [this, Act.foldList_pure (fun acc a => acc || eq a value), any_fold]; simp

example : (allC (some 3) fun a => (ret (a == 3) : Act Nat Bool)) = allE [3] fun a => ret (a == 3) :=
  ((c95_no_clones (.inr (c95_folds_sparing (E := Nat).1 (some 3)).1)).2.2.1 _).1

/-- `reduce` clones the first element and nothing else, whatever `Clone` and the closure do. -/
theorem c95_reduce [RClone σ A] (hx : Folds σ x xs) (f : A → A → Act σ A) :
    reduceC x f = match xs with
      | [] => ret none
      | a :: as => (clone a).seq fun a' => (foldLeftE as a' f).seq fun r => ret (some r) := by
  unfold reduceC
  rw [folds_plain hx none rfl]
  cases xs with
  | nil => rfl
  | cons a as =>
    simp only [foldList, Act.seq_assoc, Act.ret_seq]
    congr 1
    funext a'
    show _ = (foldList f as a').seq _
    clear hx
    induction as generalizing a' with
    | nil => simp [foldList]
    | cons b bs ih => simp only [foldList, Act.seq_assoc, Act.ret_seq, ih]

example [RClone σ String] (f : String → String → Act σ String) :
    reduceC ["a", "b"] f = (clone "a").seq fun a' => (foldLeftE ["b"] a' f).seq fun r => ret (some r) :=
  c95_reduce (.inl (c95_folds_cloning.1 ["a", "b"]).1) f

/-- With a `clone` that returns an equal value and does nothing else, the helpers are those of the other models, whatever
the closures do. -/
theorem c95_plain [RClone σ A] (hA : PlainClone σ A) (hx : Folds σ x xs) :
    (∀ pred : A → Act σ Bool, findC x pred = findE xs pred) ∧ (toVecC x : Act σ (List A)) = ret xs ∧
    (∀ le, (isSortedC le x : Act σ Bool) = ret (fisSorted le xs)) ∧
    (∀ lt, (maximumC lt x : Act σ (Option A)) = ret (fmaximum lt xs) ∧
      (minimumC lt x : Act σ (Option A)) = ret (fminimum lt xs)) ∧
    (∀ add zero, (sumValuesC add zero x : Act σ A) = ret (xs.foldl add zero)) ∧
    ∀ f : A → A → Act σ A, reduceC x f = reduceE xs f := by
  have hl : ∀ l : List A, (clone l : Act σ (List A)) = ret l := by
    intro l
    show mapList clone l = _
    rw [show (clone : A → Act σ A) = fun a => ret a from funext hA, Act.mapList_pure]; simp
  refine ⟨fun pred => ?_, ?_, fun le => ?_, fun lt => ⟨?_, ?_⟩, fun add zero => ?_, fun f => ?_⟩
  · unfold findC
    rw [folds_plain hx none rfl]
    show foldList _ xs none = foldList _ xs none
    congr 1
    funext acc a
    cases acc with
    | none => simp [hA a]
    | some r => show (clone r).seq _ = _; rw [hA r]; rfl
  · unfold toVecC
    rw [folds_plain hx [] rfl]
    simp only [hl, hA _, Act.ret_seq]
    rw [Act.foldList_pure (fun acc a => acc ++ [a])]
    have := foldl_push (fun a : A => a) xs []
    simpa using congrArg (ret (σ := σ)) this
  · unfold isSortedC
    letI : RClone σ Bool := copied
    rw [folds_plain hx (true, none) rfl]
    refine Eq.trans (congrArg (fun m => Act.seq m fun st => ret st.1) ((congrArg (fun s => foldList s xs _) ?_).trans
      (Act.foldList_pure (fun (st : Bool × Option A) curr => if !st.1 then (false, some curr)
        else match st.2 with
          | none => (true, some curr)
          | some p => (le p curr, some curr)) xs _))) rfl
    funext st curr
    rcases st with ⟨_ | _, _ | q⟩ <;> simp [hA curr]
  · unfold maximumC
    rw [folds_plain hx none rfl]
    refine (congrArg (fun s => foldList s xs _) ?_).trans (Act.foldList_pure (fun (m : Option A) a => match m with
      | none => some a
      | some c => some (if lt c a then a else c)) xs none)
    funext m a
    cases m with
    | none => simp [hA a]
    | some c => by_cases h : lt c a = true <;> simp [h, hA _]
  · unfold minimumC
    rw [folds_plain hx none rfl]
    refine (congrArg (fun s => foldList s xs _) ?_).trans (Act.foldList_pure (fun (m : Option A) a => match m with
      | none => some a
      | some c => some (if lt a c then a else c)) xs none)
    funext m a
    cases m with
    | none => simp [hA a]
    | some c => by_cases h : lt a c = true <;> simp [h, hA _]
  · unfold sumValuesC
    rw [folds_plain hx zero (hA zero)]
    simp only [hA _, Act.ret_seq]
    exact Act.foldList_pure add xs zero
  · unfold reduceC
    rw [folds_plain hx none rfl]
    show foldList _ xs none = foldList _ xs none
    congr 1
    funext acc a
    cases acc with
    | none => simp [hA a]
    | some r => rfl

example (pred : Nat → Act σ Bool) : letI : RClone σ Nat := copied; findC [1, 2, 3] pred = findE [1, 2, 3] pred :=
  (@c95_plain σ Nat List _ [1, 2, 3] _ copied (fun _ => rfl) (.inl (c95_folds_cloning.1 _).1)).1 pred

/-! ## Counting -/

/-- The clones made on the way, where the step from `u` at `a` makes `c u a`. -/
def total (g : U → A → U) (c : U → A → Nat) : List A → U → Nat
  | [], _ => 0
  | a :: as, u => c u a + total g c as (g u a)

theorem clones_seq {m : Act Nat A} {k : A → Act Nat B} {a : A} {b : B} {i j : Nat} (hm : Spec.Clones m a i)
    (hk : Spec.Clones (k a) b j) : Spec.Clones (m.seq k) b (i + j) := by
  intro n
  simp only [Act.seq, hm n]
  rw [hk, Nat.add_assoc]

theorem clones_eq {m : Act Nat A} {a b : A} {i j : Nat} (h : Spec.Clones m a i) (hab : a = b) (hij : i = j) :
    Spec.Clones m b j := hab ▸ hij ▸ h

theorem clones_ret (a : A) : Spec.Clones (ret a : Act Nat A) a 0 := fun _ => rfl

theorem clones_fold {step : U → A → Act Nat U} {g : U → A → U} {c : U → A → Nat}
    (h : ∀ u a, Spec.Clones (step u a) (g u a) (c u a)) (xs : List A) (u : U) :
    Spec.Clones (foldList step xs u) (xs.foldl g u) (total g c xs u) := by
  induction xs generalizing u with
  | nil => exact clones_ret u
  | cons a as ih => exact clones_seq (h u a) (ih (g u a))

theorem total_one (g : U → A → U) (xs : List A) (u : U) : total g (fun _ _ => 1) xs u = xs.length := by
  induction xs generalizing u with
  | nil => rfl
  | cons a as ih => simp [total, ih]; omega

theorem clones_list [RClone Nat A] (hA : CountsClones A) (xs : List A) :
    Spec.Clones (clone xs : Act Nat (List A)) xs xs.length := by
  show Spec.Clones (mapList clone xs) _ _
  induction xs with
  | nil => exact clones_ret []
  | cons a as ih =>
    exact clones_eq (clones_seq (a := a) (i := 1) (hA a) (clones_seq ih (clones_ret (a :: as)))) rfl
      (by rw [List.length_cons]; omega)

theorem clones_one [RClone Nat A] (hA : CountsClones A) (a : A) (f : A → B) :
    Spec.Clones ((clone a : Act Nat A).seq fun a' => ret (f a')) (f a) 1 := by
  intro n
  simp only [Act.seq, hA a n]
  rfl

theorem clones_option [RClone Nat A] (hA : CountsClones A) (x : Option A) :
    Spec.Clones (clone x : Act Nat (Option A)) x x.toList.length := by
  cases x with
  | none => exact clones_ret none
  | some a => exact clones_one hA a some
end

section
variable {F : Type → Type} [RFoldableC Nat F] {x : F A} {xs : List A} [RClone Nat A]

/-- `to_vec` clones quadratically many elements: all elements so far, once per element. -/
theorem c95_to_vec (hA : CountsClones A) (hx : Folds Nat x xs) :
    Spec.Clones (toVecC x) xs (xs.length * (xs.length + 1) / 2) := by
  unfold toVecC
  rw [folds_plain hx [] rfl]
  have h := clones_fold (step := fun (acc : List A) a => (clone acc).seq fun newAcc => (clone a).seq fun a' =>
    ret (newAcc ++ [a'])) (g := fun acc a => acc ++ [a]) (c := fun acc _ => acc.length + (1 + 0))
    (fun u a => clones_seq (clones_list hA u) (clones_seq (hA a) (clones_ret _))) xs []
  have hr := foldl_push (fun a : A => a) xs []
  have ht : ∀ (xs u : List A), 2 * total (fun (acc : List A) a => acc ++ [a]) (fun acc _ => acc.length + (1 + 0)) xs u =
      xs.length * (xs.length + 1) + 2 * (xs.length * u.length) := by
    intro xs
    induction xs with
    | nil => intro u; simp [total]
    | cons a as ih =>
      intro u
      have := ih (u ++ [a])
      simp only [total, Nat.mul_add, this, List.length_append, List.length_cons, List.length_nil, Nat.add_mul]
      omega
  have h2 := ht xs []
  simp only [List.nil_append, List.map_id'] at hr
  exact clones_eq h hr (by simp only [List.length_nil] at h2; omega)

example : letI : RClone Nat String := counting
    Spec.Clones (toVecC ["a", "b", "c"]) ["a", "b", "c"] 6 :=
  @c95_to_vec String List _ ["a", "b", "c"] _ counting (fun _ _ => rfl) (.inl (c95_folds_cloning.1 _).1)

/-- C95 fails for `to_vec`: no number of clones per element, and no number of further clones, is enough. -/
theorem c95_to_vec_false (hA : CountsClones A) (a : A) (k c : Nat) :
    ∃ (xs ys : List A) (n : Nat), Spec.Clones (toVecC xs) ys n ∧ k * xs.length + c < n := by
  have h := c95_to_vec hA (.inl (c95_folds_cloning.1 (List.replicate (2 * k + 2 * c + 1) a)).1)
  refine ⟨_, _, _, h, ?_⟩
  rw [List.length_replicate]
  generalize hm : 2 * k + 2 * c + 1 = m
  have : (2 * k + 2 * c + 2) * m = m * (m + 1) := by rw [← hm]; exact Nat.mul_comm _ _
  have h2 : 2 * c ≤ 2 * c * m := Nat.le_mul_of_pos_right _ (by omega)
  have h3 : (2 * k + 2 * c + 2) * m = 2 * (k * m) + 2 * c * m + 2 * m := by
    rw [Nat.add_mul, Nat.add_mul, Nat.mul_assoc]
  omega

example : letI : RClone Nat Nat := counting
    ∃ (xs ys : List Nat) (n : Nat), Spec.Clones (toVecC xs) ys n ∧ 100 * xs.length + 1000 < n :=
  @c95_to_vec_false Nat counting (fun _ _ => rfl) 7 100 1000

/-- `find` clones the hit, and clones it again for every element after it. -/
theorem c95_find (hA : CountsClones A) (hx : Folds Nat x xs) (p : A → Bool) :
    Spec.Clones (findC x fun a => ret (p a)) (xs.find? p) (xs.dropWhile fun a => !p a).length := by
  unfold findC
  rw [folds_plain hx none rfl]
  have h := clones_fold (step := fun (acc : Option A) a => if acc.isSome then clone acc
      else (ret (p a) : Act Nat Bool).seq fun b => if b then (clone a).seq fun a' => ret (some a') else ret none)
    (g := fun acc a => if acc.isSome then acc else if p a then some a else none)
    (c := fun acc a => if acc.isSome then 1 else if p a then 1 else 0)
    (fun u a => by
      cases u with
      | some r => exact clones_option hA (some r)
      | none =>
        simp only [Option.isSome_none, Bool.false_eq_true, if_false, Act.ret_seq]
        by_cases hp : p a = true
        · rw [if_pos hp, if_pos hp, if_pos hp]
          exact clones_one hA a some
        · rw [if_neg hp, if_neg hp, if_neg hp]
          exact clones_ret none) xs none
  have hs : ∀ (xs : List A) r, total (fun (acc : Option A) a => if acc.isSome then acc else if p a then some a else none)
      (fun acc a => if acc.isSome then 1 else if p a then 1 else 0) xs (some r) = xs.length := by
    intro xs
    induction xs with
    | nil => intro _; rfl
    | cons a as ih => intro r; simp [total, ih]; omega
  refine clones_eq h (by rw [find_fold]; rfl) ?_
  clear h hx
  induction xs with
  | nil => rfl
  | cons a as ih =>
    by_cases hp : p a = true
    · simp [total, hp, hs]; omega
    · simp [total, hp, ih]

example : letI : RClone Nat Nat := counting
    Spec.Clones (findC (some 4) fun a => ret (a == 4)) (some 4) 1 :=
  @c95_find Nat Option _ (some 4) _ counting (fun _ _ => rfl) (.inr (c95_folds_sparing (E := Nat).1 _).1) fun a => a == 4
example : letI : RClone Nat Nat := counting
    Spec.Clones (findC [1, 4, 6, 9] fun a => ret (a % 2 == 0)) (some 4) 3 :=
  @c95_find Nat List _ [1, 4, 6, 9] _ counting (fun _ _ => rfl) (.inl (c95_folds_cloning.1 _).1) fun a => a % 2 == 0

/-- `is_sorted` clones every element, though it returns none. -/
theorem c95_is_sorted (hA : CountsClones A) (hx : Folds Nat x xs) (le : A → A → Bool) :
    ∃ b, Spec.Clones (isSortedC le x) b xs.length ∧
      (b = true ↔ ∀ i (h : i + 1 < xs.length), le xs[i] xs[i + 1] = true) := by
  refine ⟨fisSorted le xs, ?_, (c22_queries (c22_vec xs).1).2.2.2.2.2.2.2.1 le⟩
  unfold isSortedC
  letI : RClone Nat Bool := copied
  rw [folds_plain hx (true, none) rfl]
  have h := clones_fold (step := fun (st : Bool × Option A) curr =>
      if !st.1 then (clone curr).seq fun c => (ret (false, some c) : Act Nat (Bool × Option A))
      else match st.2 with
        | none => (clone curr).seq fun c => ret (true, some c)
        | some p => (clone curr).seq fun c => ret (le p curr, some c))
    (g := fun st curr => if !st.1 then (false, some curr)
      else match st.2 with
        | none => (true, some curr)
        | some p => (le p curr, some curr)) (c := fun _ _ => 1)
    (fun u a => by
      rcases u with ⟨_ | _, _ | q⟩
      · exact clones_one hA a fun c => (false, some c)
      · exact clones_one hA a fun c => (false, some c)
      · exact clones_one hA a fun c => (true, some c)
      · exact clones_one hA a fun c => (le q a, some c)) xs (true, none)
  exact clones_eq (clones_seq h (clones_ret _)) rfl (by rw [total_one]; rfl)

example : letI : RClone Nat Nat := counting
    ∃ b, Spec.Clones (isSortedC (fun a b : Nat => a ≤ b) [3, 1, 2]) b 3 :=
  (@c95_is_sorted Nat List _ [3, 1, 2] _ counting (fun _ _ => rfl) (.inl (c95_folds_cloning.1 _).1) _).imp
    fun _ h => h.1

/-- `maximum` and `minimum` clone one element per element. -/
theorem c95_extrema (hA : CountsClones A) (hx : Folds Nat x xs) (lt : A → A → Bool) :
    Spec.Clones (maximumC lt x) (fmaximum lt xs) xs.length ∧ Spec.Clones (minimumC lt x) (fminimum lt xs) xs.length := by
  have key : ∀ lt : A → A → Bool, Spec.Clones (maximumC lt x) (fmaximum lt xs) xs.length := by
    intro lt
    unfold maximumC
    rw [folds_plain hx none rfl]
    refine clones_eq (clones_fold (g := fun (m : Option A) a => match m with
      | none => some a
      | some c => some (if lt c a then a else c)) (c := fun _ _ => 1) (fun u a => ?_) xs none) rfl (total_one _ _ _)
    cases u with
    | none => exact clones_one hA a some
    | some c =>
      by_cases h : lt c a = true
      · simp only [if_pos h]; exact clones_one hA a some
      · simp only [if_neg h]; exact clones_one hA c some
  refine ⟨key lt, ?_⟩
  unfold minimumC
  rw [folds_plain hx none rfl]
  refine clones_eq (clones_fold (g := fun (m : Option A) a => match m with
    | none => some a
    | some c => some (if lt a c then a else c)) (c := fun _ _ => 1) (fun u a => ?_) xs none) rfl (total_one _ _ _)
  cases u with
  | none => exact clones_one hA a some
  | some c =>
    by_cases h : lt a c = true
    · simp only [if_pos h]; exact clones_one hA a some
    · simp only [if_neg h]; exact clones_one hA c some

example : letI : RClone Nat Nat := counting
    Spec.Clones (maximumC (fun a b : Nat => a < b) [3, 1, 2]) (some 3) 3 :=
  (@c95_extrema Nat List _ [3, 1, 2] _ counting (fun _ _ => rfl) (.inl (c95_folds_cloning.1 _).1) _).1

theorem clones_sum (hA : CountsClones A) (add : A → A → A) (xs : List A) (u : A) :
    Spec.Clones (foldList (fun acc a => (clone acc : Act Nat A).seq fun acc' => (clone a).seq fun a' => ret (add acc' a'))
      xs u) (xs.foldl add u) (2 * xs.length) := by
  refine clones_eq (clones_fold (g := add) (c := fun _ _ => 1 + 1)
    (fun u a => clones_seq (a := u) (i := 1) (hA u) (clones_one hA a fun a' => add u a')) xs u) rfl ?_
  induction xs generalizing u with
  | nil => rfl
  | cons a as ih => simp only [total, ih, List.length_cons]; omega

/-- `sum_values` and `product_values` clone every element and every partial sum, and the starting value except when the
container is an `Option`, `Result`, `Validated` or `Id` that holds something. -/
theorem c95_sum (hA : CountsClones A) (add : A → A → A) (zero : A) :
    (FoldsCloning Nat x xs → Spec.Clones (sumValuesC add zero x) (xs.foldl add zero) (2 * xs.length + 1)) ∧
    (FoldsSparing Nat x xs → Spec.Clones (sumValuesC add zero x) (xs.foldl add zero) (if xs = [] then 1 else 2)) := by
  refine ⟨fun hx => ?_, fun hx => ?_⟩
  · unfold sumValuesC
    rw [hx]
    refine clones_eq (clones_seq (a := zero) (i := 1) (hA zero) ?_) rfl (Nat.add_comm _ _)
    have := clones_sum hA add xs zero
    rw [← passes_eq] at this
    exact this
  · obtain ⟨hl, hx⟩ := hx
    unfold sumValuesC
    obtain ⟨h0, h1⟩ := hx zero fun acc a => (clone acc : Act Nat A).seq fun acc' => (clone a).seq fun a' =>
      ret (add acc' a')
    match xs, hl with
    | [], _ => rw [h0 rfl]; exact hA zero
    | [a], _ =>
      rw [h1 a (by simp)]
      exact clones_seq (k := fun acc' => (clone a).seq fun a' => ret (add acc' a')) (a := zero) (i := 1) (hA zero)
        (clones_one hA a fun a' => add zero a')

example : letI : RClone Nat Nat := counting
    Spec.Clones (sumValuesC (· + ·) 0 [3, 1, 2]) 6 7 ∧ Spec.Clones (sumValuesC (· + ·) 0 (some 3)) 3 2 :=
  ⟨(@c95_sum Nat List _ [3, 1, 2] _ counting (fun _ _ => rfl) _ _).1 (c95_folds_cloning.1 _).1,
   (@c95_sum Nat Option _ (some 3) _ counting (fun _ _ => rfl) _ _).2 (c95_folds_sparing (E := Nat).1 _).1⟩

/-- `reduce` clones one element at most. -/
theorem c95_reduce_count (hA : CountsClones A) (hx : Folds Nat x xs) (f : A → A → A) :
    Spec.Clones (reduceC x fun a b => ret (f a b)) (freduce xs f) (min xs.length 1) := by
  rw [c95_reduce hx]
  cases xs with
  | nil => exact clones_ret none
  | cons a as =>
    refine clones_eq (clones_seq (a := a) (i := 1) (hA a) (b := some (as.foldl f a)) (j := 0) ?_) ?_ (by simp)
    · show Spec.Clones ((foldList (fun a b => ret (f a b)) as a).seq _) _ _
      rw [Act.foldList_pure, Act.ret_seq]
      exact clones_ret _
    · exact (reduce_fold f as a).symm

example : letI : RClone Nat Nat := counting
    Spec.Clones (reduceC [3, 1, 2] fun a b => ret (a - b)) (some 0) 1 :=
  @c95_reduce_count Nat List _ [3, 1, 2] _ counting (fun _ _ => rfl) (.inl (c95_folds_cloning.1 _).1) (· - ·)

/-- `fold_monoid` clones every element once, besides what `combine` and the starting value cost. -/
theorem c95_fold_monoid [RMonoid M] [RClone Nat M] [RSemigroupC Nat M] (hA : CountsClones A)
    (hM : ∀ u : M, Spec.Clones (clone u) u 0) (hC : ∀ u v : M, Spec.Clones (combineC u v) (RSemigroup.combine u v) 0)
    (hx : Folds Nat x xs) (into : A → M) :
    Spec.Clones (foldMonoidC into x) ((xs.map into).foldl RSemigroup.combine RMonoid.empty) xs.length := by
  unfold foldMonoidC
  rw [folds_plain hx _ (funext fun n => hM _ n)]
  refine clones_eq (clones_fold (g := fun u a => RSemigroup.combine u (into a)) (c := fun _ _ => 1)
    (fun u a => ?_) xs _) (by rw [List.foldl_map]) (total_one _ _ _)
  exact clones_seq (k := fun a' => combineC u (into a')) (a := a) (i := 1) (hA a) (hC u (into a))

example : letI : RClone Nat Nat := counting
    letI : RClone Nat (Sum Int) := copied
    letI : RSemigroupC Nat (Sum Int) := ⟨fun u v => ret (RSemigroup.combine u v), fun u v => ret (RSemigroup.combine u v)⟩
    Spec.Clones (foldMonoidC (fun a : Nat => (⟨a⟩ : Sum Int)) [3, 1, 2]) ⟨6⟩ 3 :=
  @c95_fold_monoid Nat (Sum Int) List _ [3, 1, 2] _ counting _ copied ⟨_, fun u _ => ret u⟩ (fun _ _ => rfl)
    (fun _ _ => rfl) (fun _ _ _ => rfl) (.inl (c95_folds_cloning.1 _).1) _
end

section
variable {F : Type → Type} [RFoldableC Nat F] {x : F A} {xs : List A} [RClone Nat B]

/-- `fold_map` and `fold_option` clone nothing besides what `combine` and the starting value cost. -/
theorem c95_fold_map [RMonoid B] [RSemigroupC Nat B] (hM : ∀ u : B, Spec.Clones (clone u) u 0)
    (hC : ∀ u v : B, Spec.Clones (combineC u v) (RSemigroup.combine u v) 0) (hx : Folds Nat x xs) :
    (∀ f : A → B, Spec.Clones (foldMapC x fun a => ret (f a))
      ((xs.map f).foldl RSemigroup.combine RMonoid.empty) 0) ∧
    ∀ f : A → Option B, Spec.Clones (foldOptionC x fun a => ret (f a)) (foldOption xs f) 0 := by
  have h0 : ∀ {U : Type} (g : U → A → U) (xs : List A) (u : U), total g (fun _ _ => 0) xs u = 0 := by
    intro U g xs
    induction xs with
    | nil => intro u; rfl
    | cons a as ih => intro u; simp [total, ih]
  refine ⟨fun f => ?_, fun f => ?_⟩
  · unfold foldMapC
    rw [folds_plain hx _ (funext fun n => hM _ n)]
    refine clones_eq (clones_fold (g := fun u a => RSemigroup.combine u (f a)) (c := fun _ _ => 0)
      (fun u a => ?_) xs _) (by rw [List.foldl_map]) (h0 _ _ _)
    rw [Act.ret_seq]
    exact hC u (f a)
  · unfold foldOptionC
    rw [folds_plain hx _ (by
      show (clone RMonoid.empty : Act Nat B).seq _ = _
      rw [show (clone RMonoid.empty : Act Nat B) = ret RMonoid.empty from funext fun n => hM _ n]
      rfl)]
    refine clones_eq (clones_fold (g := fun (acc : Option B) a => match acc, f a with
      | some u, some v => some (RSemigroup.combine u v)
      | _, _ => none) (c := fun _ _ => 0) (fun u a => ?_) xs _) rfl (h0 _ _ _)
    rw [Act.ret_seq]
    cases u with
    | none => exact clones_ret none
    | some u =>
      cases f a with
      | none => exact clones_ret none
      | some v => exact clones_seq (k := fun c => ret (some c)) (hC u v) (clones_ret _)

example : letI : RClone Nat (Sum Int) := copied
    letI : RSemigroupC Nat (Sum Int) := ⟨fun u v => ret (RSemigroup.combine u v), fun u v => ret (RSemigroup.combine u v)⟩
    Spec.Clones (foldMapC [3, 1, 2] fun a : Nat => ret (⟨a⟩ : Sum Int)) ⟨6⟩ 0 :=
  (@c95_fold_map Nat (Sum Int) List _ [3, 1, 2] _ copied _ ⟨_, fun u _ => ret u⟩
    (fun _ _ => rfl) (fun _ _ _ => rfl) (.inl (c95_folds_cloning.1 _).1)).1 _

/-- `fold_map` into `Vec` clones, for every element, everything collected so far. -/
theorem c95_fold_map_vec (hB : CountsClones B) (hx : Folds Nat x xs) (f : A → List B) :
    Spec.Clones (foldMapC x fun a => ret (f a)) (xs.flatMap f)
      ((List.range xs.length).map fun i => ((xs.take (i + 1)).flatMap f).length).sum := by
  unfold foldMapC
  rw [folds_plain hx _ rfl]
  have h := clones_fold (step := fun (acc : List B) a => (ret (f a) : Act Nat (List B)).seq fun b => combineC acc b)
    (g := fun acc a => acc ++ f a) (c := fun acc a => acc.length + (f a).length)
    (fun u a => by
      rw [Act.ret_seq]
      exact clones_seq (k := fun result => (mapList clone (f a)).seq fun ys => ret (result ++ ys)) (clones_list hB u)
        (clones_seq (k := fun ys => ret (u ++ ys)) (clones_list hB (f a)) (clones_ret _))) xs []
  have hr : ∀ (xs : List A) (u : List B), xs.foldl (fun acc a => acc ++ f a) u = u ++ xs.flatMap f := by
    intro xs
    induction xs with
    | nil => intro u; simp
    | cons a as ih => intro u; simp [ih]
  have ht : ∀ (xs : List A) (u : List B), total (fun acc a => acc ++ f a) (fun acc a => acc.length + (f a).length) xs u =
      ((List.range xs.length).map fun i => u.length + ((xs.take (i + 1)).flatMap f).length).sum := by
    intro xs
    induction xs with
    | nil => intro u; rfl
    | cons a as ih =>
      intro u
      rw [total, ih, List.length_cons, List.range_succ_eq_map]
      simp [Function.comp_def, Nat.add_assoc]
  refine clones_eq h (by rw [hr]; rfl) ?_
  rw [ht]
  simp

example : letI : RClone Nat String := counting
    Spec.Clones (foldMapC [1, 2] fun a => ret (List.replicate a "x")) ["x", "x", "x"] 4 :=
  @c95_fold_map_vec Nat String List _ [1, 2] _ counting (fun _ _ => rfl) (.inl (c95_folds_cloning.1 _).1)
    fun a => List.replicate a "x"

/-- … so C95 fails for `fold_map` too: already with one value per element the clones are quadratic. -/
theorem c95_fold_map_false (hB : CountsClones B) (hx : Folds Nat x xs) (f : A → B) :
    Spec.Clones (foldMapC x fun a => ret [f a]) (xs.map f) (xs.length * (xs.length + 1) / 2) := by
  refine clones_eq (c95_fold_map_vec hB hx fun a => [f a]) (by simp [List.map_eq_flatMap]) ?_
  have h1 : (List.range xs.length).map (fun i => ((xs.take (i + 1)).flatMap fun a => [f a]).length) =
      (List.range xs.length).map fun i => i + 1 := by
    apply List.map_congr_left
    intro i hi
    rw [List.mem_range] at hi
    rw [← List.map_eq_flatMap, List.length_map, List.length_take]; omega
  rw [h1]
  have h2 : ∀ n, 2 * ((List.range n).map fun i => i + 1).sum = n * (n + 1) := by
    intro n
    induction n with
    | zero => rfl
    | succ n ih =>
      rw [List.range_succ, List.map_append, List.sum_append, Nat.mul_add, ih]
      simp only [List.map_cons, List.map_nil, List.sum_cons, List.sum_nil, Nat.add_mul, Nat.mul_add]; omega
  have := h2 xs.length
  omega

example : letI : RClone Nat String := counting
    Spec.Clones (foldMapC [1, 2, 3] fun a => ret [toString a]) ["1", "2", "3"] 6 :=
  @c95_fold_map_false Nat String List _ [1, 2, 3] _ counting (fun _ _ => rfl) (.inl (c95_folds_cloning.1 _).1) toString
end

end Clones
end Rustica
