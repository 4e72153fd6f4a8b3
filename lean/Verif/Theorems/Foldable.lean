import Verif.PVec.Theorems.Iter
import Verif.Theorems.Monad

/-!
# C22: `Foldable` / `FoldableExt`

The crate implements `Foldable` for `Vec`, `Option`, `Result`, `Id`, `Choice`, `Validated` and
`PersistentVector` (not for `Maybe` and `Either`).  All `FoldableExt` queries are written with `fold_left`
only, so they are proved once for anything whose `fold_left` visits a list `xs`.
-/

namespace Rustica

/-- `fold_left` of `x` visits exactly the elements of `xs`, in order. -/
def FoldsLeft {F : Type → Type} [RFoldable F] {A : Type} (x : F A) (xs : List A) : Prop :=
  ∀ {U : Type} (init : U) (f : U → A → U), RFoldable.foldLeft x init f = xs.foldl f init

/-- `fold_right` of `x` visits exactly the elements of `xs`, from the back. -/
def FoldsRight {F : Type → Type} [RFoldable F] {A : Type} (x : F A) (xs : List A) : Prop :=
  ∀ {U : Type} (init : U) (f : A → U → U), RFoldable.foldRight x init f = xs.foldr f init

/-- `m` is the first of the greatest elements of `xs`, for the strict order `lt`. -/
def IsFirstMax {A : Type} (lt : A → A → Bool) (xs : List A) (m : A) : Prop :=
  (∃ pre post, xs = pre ++ m :: post ∧ ∀ a ∈ pre, lt a m = true) ∧ ∀ a ∈ xs, lt m a = false

/-- `m` is the first of the least elements. -/
def IsFirstMin {A : Type} (lt : A → A → Bool) (xs : List A) (m : A) : Prop :=
  (∃ pre post, xs = pre ++ m :: post ∧ ∀ a ∈ pre, lt m a = true) ∧ ∀ a ∈ xs, lt a m = false

/-- `lt` is a strict weak order (`PartialOrd::lt` of a totally ordered type). -/
structure StrictWeak {A : Type} (lt : A → A → Bool) : Prop where
  asymm : ∀ a b, lt a b = true → lt b a = false
  negTrans : ∀ a b c, lt a b = false → lt b c = false → lt a c = false

section
variable {A : Type}

theorem StrictWeak.flip {lt : A → A → Bool} (h : StrictWeak lt) : StrictWeak (fun a b => lt b a) :=
  ⟨fun a b => h.asymm b a, fun a b c h1 h2 => h.negTrans c b a h2 h1⟩

theorem max_fold (lt : A → A → Bool) (h : StrictWeak lt) (ys xs : List A) (c : A)
    (hc : IsFirstMax lt xs c) :
    ∃ m, ys.foldl (fun m a => match m with
      | none => some a
      | some c => some (if lt c a then a else c)) (some c) = some m ∧ IsFirstMax lt (xs ++ ys) m := by
  induction ys generalizing xs c with
  | nil => exact ⟨c, rfl, by simpa using hc⟩
  | cons y ys ih =>
    rw [List.foldl_cons]
    have hstep : IsFirstMax lt (xs ++ [y]) (if lt c y then y else c) := by
      obtain ⟨⟨pre, post, hx, hpre⟩, hall⟩ := hc
      by_cases hlt : lt c y = true
      · rw [if_pos hlt]
        have hyy : ∀ a ∈ xs, lt y a = false := fun a ha => h.negTrans y c a (h.asymm _ _ hlt) (hall a ha)
        refine ⟨⟨xs, [], rfl, fun a ha => ?_⟩, fun a ha => ?_⟩
        · rcases hb : lt a y with _ | _
          · have := h.negTrans c a y (hall a ha) hb
            rw [hlt] at this; cases this
          · rfl
        · rcases List.mem_append.1 ha with ha | ha
          · exact hyy a ha
          · rw [List.mem_singleton.1 ha]
            rcases hb : lt y y with _ | _
            · rfl
            · exact (h.asymm _ _ hb).symm.trans hb |> fun hh => by cases hh
      · rw [if_neg hlt]
        refine ⟨⟨pre, post ++ [y], by rw [hx]; simp, hpre⟩, fun a ha => ?_⟩
        rcases List.mem_append.1 ha with ha | ha
        · exact hall a ha
        · rw [List.mem_singleton.1 ha]; simpa using hlt
    obtain ⟨m, hm, hmax⟩ := ih (xs ++ [y]) _ hstep
    exact ⟨m, hm, by simpa using hmax⟩

theorem max_list (lt : A → A → Bool) (h : StrictWeak lt) (x : A) (xs : List A) :
    ∃ m, (x :: xs).foldl (fun m a => match m with
      | none => some a
      | some c => some (if lt c a then a else c)) none = some m ∧ IsFirstMax lt (x :: xs) m := by
  have hx : lt x x = false := by
    rcases hb : lt x x with _ | _
    · rfl
    · exact (h.asymm _ _ hb).symm.trans hb |> fun hh => by cases hh
  exact max_fold lt h xs [x] x ⟨⟨[], [], rfl, by simp⟩, by simpa using hx⟩

theorem sorted_fold (le : A → A → Bool) (xs : List A) (b : Bool) (p : Option A) :
    (xs.foldl (fun (st : Bool × Option A) curr =>
      if !st.1 then (false, some curr)
      else match st.2 with
        | none => (true, some curr)
        | some p => (le p curr, some curr)) (b, p)).1 = true ↔
    b = true ∧ (∀ q, p = some q → ∀ h : 0 < xs.length, le q xs[0] = true) ∧
      ∀ i (h : i + 1 < xs.length), le xs[i] xs[i + 1] = true := by
  induction xs generalizing b p with
  | nil => simp
  | cons x xs ih =>
    rw [List.foldl_cons]
    have hnext : ∀ y : A, y = x →
        (((∀ q, some y = some q → ∀ h : 0 < xs.length, le q xs[0] = true) ∧
          ∀ i (h : i + 1 < xs.length), le xs[i] xs[i + 1] = true) ↔
        ∀ i (h : i + 1 < (x :: xs).length), le (x :: xs)[i] (x :: xs)[i + 1] = true) := by
      rintro y rfl
      constructor
      · rintro ⟨h1, h2⟩ i hi
        cases i with
        | zero => exact h1 y rfl (by simpa using hi)
        | succ i => exact h2 i (by simpa using hi)
      · intro hh
        refine ⟨?_, ?_⟩
        · rintro q ⟨⟩ hl
          exact hh 0 (by simpa using hl)
        · intro i hi
          exact hh (i + 1) (by simpa using hi)
    cases b with
    | false => exact (ih false (some x)).trans (by simp)
    | true =>
      cases p with
      | none =>
        simp only [Bool.not_true, Bool.false_eq_true, if_false]
        rw [ih, hnext x rfl]
        simp
      | some q =>
        simp only [Bool.not_true, Bool.false_eq_true, if_false]
        rw [ih, hnext x rfl]
        constructor
        · rintro ⟨h1, h2⟩
          refine ⟨trivial, ?_, h2⟩
          rintro q' ⟨⟩ _
          exact h1
        · rintro ⟨_, h1, h2⟩
          exact ⟨h1 q rfl (by simp), h2⟩

theorem find_fold (xs : List A) (p : A → Bool) (acc : Option A) :
    xs.foldl (fun acc a => if acc.isSome then acc else if p a then some a else none) acc
      = acc.or (xs.find? p) := by
  induction xs generalizing acc with
  | nil => simp
  | cons x xs ih =>
    rw [List.foldl_cons, ih]
    cases acc with
    | some a => simp
    | none => cases hp : p x <;> simp [hp]

theorem all_fold (xs : List A) (p : A → Bool) (b : Bool) :
    xs.foldl (fun acc a => acc && p a) b = (b && xs.all p) := by
  induction xs generalizing b with
  | nil => simp
  | cons x xs ih => rw [List.foldl_cons, ih]; simp [Bool.and_assoc]

theorem any_fold (xs : List A) (p : A → Bool) (b : Bool) :
    xs.foldl (fun acc a => acc || p a) b = (b || xs.any p) := by
  induction xs generalizing b with
  | nil => simp
  | cons x xs ih => rw [List.foldl_cons, ih]; simp [Bool.or_assoc]

theorem len_fold (xs : List A) (n : Nat) : xs.foldl (fun acc _ => acc + 1) n = n + xs.length := by
  induction xs generalizing n with
  | nil => rfl
  | cons x xs ih => rw [List.foldl_cons, ih, List.length_cons]; omega

theorem reduce_fold (f : A → A → A) (xs : List A) (a : A) :
    xs.foldl (fun acc a => match acc with | none => some a | some u => some (f u a)) (some a)
      = some (xs.foldl f a) := by
  induction xs generalizing a with
  | nil => rfl
  | cons x xs ih => rw [List.foldl_cons]; exact ih _

theorem option_fold_none {B : Type} [RMonoid B] (f : A → Option B) (xs : List A) :
    xs.foldl (fun acc a => match acc, f a with
      | some u, some v => some (combine u v)
      | _, _ => none) none = none := by
  induction xs with
  | nil => rfl
  | cons x xs ih => rw [List.foldl_cons]; exact ih

theorem option_fold {B : Type} [RMonoid B] (f : A → Option B) (xs : List A) (u : B) :
    xs.foldl (fun acc a => match acc, f a with
      | some u, some v => some (combine u v)
      | _, _ => none) (some u) =
    if (∀ a ∈ xs, (f a).isSome) then some ((xs.filterMap f).foldl combine u) else none := by
  induction xs generalizing u with
  | nil => simp
  | cons x xs ih =>
    rw [List.foldl_cons]
    rcases hx : f x with _ | v
    · rw [show (match some u, (none : Option B) with
        | some u, some v => some (combine u v)
        | _, _ => none) = none from rfl, option_fold_none]
      simp [hx]
    · rw [show (match some u, some v with
        | some u, some v => some (combine u v)
        | _, _ => none) = some (combine u v) from rfl, ih]
      simp [hx]
end

/-- C22: every query, for anything whose `fold_left` visits `xs`. -/
theorem c22_queries {F : Type → Type} [RFoldable F] {A : Type} {x : F A} {xs : List A}
    (hx : FoldsLeft x xs) :
    ftoVec x = xs ∧ flength x = xs.length ∧ (fisEmpty x = true ↔ xs = []) ∧
    (∀ p, ffind x p = xs.find? p) ∧
    (∀ p, fall x p = true ↔ ∀ a ∈ xs, p a = true) ∧
    (∀ p, fany x p = true ↔ ∃ a ∈ xs, p a = true) ∧
    (∀ [DecidableEq A] (v : A), fcontains x v = true ↔ v ∈ xs) ∧
    (∀ le : A → A → Bool, fisSorted le x = true ↔
      ∀ i (h : i + 1 < xs.length), le xs[i] xs[i + 1] = true) ∧
    (∀ f : A → A → A, freduce x f = match xs with | [] => none | y :: ys => some (ys.foldl f y)) := by
  have hlen : flength x = xs.length := by
    rw [flength, hx, len_fold]; omega
  refine ⟨?_, hlen, ?_, ?_, ?_, ?_, ?_, ?_, ?_⟩
  · rw [ftoVec, hx]
    have := foldl_push (fun a : A => a) xs []
    simpa using this
  · rw [fisEmpty, hlen]; simp
  · intro p; rw [ffind, hx, find_fold]; simp
  · intro p; rw [fall, hx, all_fold]; simp
  · intro p; rw [fany, hx, any_fold]; simp
  · intro _ v; rw [fcontains, fany, hx, any_fold]; simp
  · intro le
    rw [fisSorted, hx]
    exact (sorted_fold le xs true none).trans (by simp)
  · intro f
    rw [freduce, hx]
    cases xs with
    | nil => rfl
    | cons y ys => exact reduce_fold f ys y

/-- `find` spelled out: the first satisfying element. -/
theorem c22_find_first {F : Type → Type} [RFoldable F] {A : Type} {x : F A} {xs : List A}
    (hx : FoldsLeft x xs) (p : A → Bool) (a : A) :
    ffind x p = some a ↔ p a = true ∧ ∃ pre post, xs = pre ++ a :: post ∧ ∀ b ∈ pre, p b = false := by
  rw [(c22_queries hx).2.2.2.1, List.find?_eq_some_iff_append]
  simp

/-- C22: `maximum`/`minimum` for every strict weak order. -/
theorem c22_extrema {F : Type → Type} [RFoldable F] {A : Type} {x : F A} {xs : List A}
    (hx : FoldsLeft x xs) (lt : A → A → Bool) (hlt : StrictWeak lt) :
    (fmaximum lt x = none ↔ xs = []) ∧ (fminimum lt x = none ↔ xs = []) ∧
    (∀ m, fmaximum lt x = some m → IsFirstMax lt xs m) ∧
    (∀ m, fminimum lt x = some m → IsFirstMin lt xs m) := by
  cases xs with
  | nil => rw [fmaximum, fminimum, hx, hx]; simp
  | cons y ys =>
    obtain ⟨m, hm, hmax⟩ := max_list lt hlt y ys
    obtain ⟨m', hm', hmin⟩ := max_list _ hlt.flip y ys
    have hm : fmaximum lt x = some m := by rw [fmaximum, hx]; exact hm
    have hm' : fminimum lt x = some m' := by rw [fminimum, hx]; exact hm'
    refine ⟨by rw [hm]; simp, by rw [hm']; simp, ?_, ?_⟩
    · rintro k hk
      rw [hm] at hk; cases hk; exact hmax
    · rintro k hk
      rw [hm'] at hk; cases hk; exact hmin

/-- C22: `sum_values`, `product_values`, `fold_option`. -/
theorem c22_totals {F : Type → Type} [RFoldable F] {A : Type} {x : F A} {xs : List A} (hx : FoldsLeft x xs) :
    (∀ [Add A] [Inhabited A], sumValues x = xs.foldl (· + ·) default) ∧
    (∀ [Mul A] (one : A), productValues one x = xs.foldl (· * ·) one) ∧
    (∀ {B : Type} [RMonoid B] (f : A → Option B), foldOption x f =
      if (∀ a ∈ xs, (f a).isSome) then some ((xs.filterMap f).foldl combine RMonoid.empty) else none) := by
  refine ⟨?_, ?_, ?_⟩
  · intro _ _; rw [sumValues, hx]
  · intro _ one; rw [productValues, hx]
  · intro B _ f
    rw [foldOption, hx]
    exact option_fold f xs RMonoid.empty

/-- For integers the totals are the mathematical sum and product. -/
theorem c22_totals_int {F : Type → Type} [RFoldable F] {x : F Int} {xs : List Int} (hx : FoldsLeft x xs) :
    sumValues x = xs.sum ∧ productValues 1 x = xs.foldr (· * ·) 1 := by
  have hs : ∀ (xs : List Int) (a : Int), xs.foldl (· + ·) a = a + xs.sum := by
    intro xs
    induction xs with
    | nil => intro a; simp
    | cons y ys ih => intro a; rw [List.foldl_cons, ih, List.sum_cons, Int.add_assoc]
  have hp : ∀ (xs : List Int) (a : Int), xs.foldl (· * ·) a = a * xs.foldr (· * ·) 1 := by
    intro xs
    induction xs with
    | nil => intro a; simp
    | cons y ys ih => intro a; rw [List.foldl_cons, ih, List.foldr_cons, Int.mul_assoc]
  rw [(c22_totals hx).1, (c22_totals hx).2.1, hs, hp]
  constructor
  · exact Int.zero_add _
  · exact Int.one_mul _

/-! The containers. -/

theorem c22_vec {A : Type} (x : List A) : FoldsLeft x x ∧ FoldsRight x x := by
  refine ⟨fun _ _ => rfl, fun init f => ?_⟩
  show x.reverse.foldl (fun acc a => f a acc) init = _
  rw [List.foldl_reverse]

theorem c22_option {A : Type} (x : Option A) : FoldsLeft x x.toList ∧ FoldsRight x x.toList := by
  cases x <;> exact ⟨fun _ _ => rfl, fun _ _ => rfl⟩

theorem c22_result {E A : Type} (x : Except E A) :
    FoldsLeft x (match x with | .ok a => [a] | .error _ => []) ∧
    FoldsRight x (match x with | .ok a => [a] | .error _ => []) := by
  cases x <;> exact ⟨fun _ _ => rfl, fun _ _ => rfl⟩

theorem c22_id {A : Type} (x : RId A) : FoldsLeft x [x.value] ∧ FoldsRight x [x.value] :=
  ⟨fun _ _ => rfl, fun _ _ => rfl⟩

theorem c22_validated {E A : Type} (x : Validated E A) :
    FoldsLeft x (match x with | .Valid a => [a] | .Invalid _ => []) ∧
    FoldsRight x (match x with | .Valid a => [a] | .Invalid _ => []) := by
  cases x <;> exact ⟨fun _ _ => rfl, fun _ _ => rfl⟩

theorem c22_choice {A : Type} (x : Choice A) : FoldsLeft x x.values ∧ FoldsRight x x.values := by
  refine ⟨fun _ _ => rfl, fun init f => ?_⟩
  show x.values.reverse.foldl (fun acc a => f a acc) init = _
  rw [List.foldl_reverse]

/-- `Foldable for PersistentVector` (`src/pvec/traits.rs` 62-92). -/
instance : RFoldable PVec.PV where
  foldLeft x init f := x.foldLeft init f
  foldRight x init f := x.foldRight init f

/-- `PersistentVector`: `fold_left`, hence every `FoldableExt` query, visits the items of the iterator — for
every vector, even a damaged one.  (`length` is overridden; it and `fold_right` are C12.) -/
theorem c22_pvec {A : Type} (v : PVec.PV A) : FoldsLeft v v.items := fun _ _ => rfl

/-- … and these items are the contents `to_vec`, as is `fold_right`, for every sound vector. -/
theorem c22_pvec_contents {A : Type} (v : PVec.PV A) (h : PVec.Intact v) :
    FoldsLeft v v.toVec ∧ FoldsRight v v.toVec :=
  ⟨fun init f => (PVec.PV.c12_fold_left_partial h init f).2,
   fun init f => PVec.PV.c12_fold_right_partial h init f⟩

example : StrictWeak (fun a b : Nat => decide (a < b)) :=
  ⟨by intro a b; simp; omega, by intro a b c; simp; omega⟩
example : fmaximum (fun a b : Nat × Nat => decide (a.1 < b.1)) [(1, 0), (3, 1), (3, 2)] = some (3, 1) := by
  decide
example : fisSorted (fun a b : Nat => decide (a ≤ b)) [1, 3, 2] = false ∧
    ffind [1, 4, 6] (fun n => n % 2 == 0) = some 4 := by decide

/-- The hypotheses of the theorems above are met by a vector and by `Choice`. -/
example : ftoVec (Choice.mk [4, 1, 6]) = [4, 1, 6] ∧ flength (Choice.mk [4, 1, 6]) = 3 :=
  have h := c22_queries (c22_choice (Choice.mk [4, 1, 6])).1
  ⟨h.1, h.2.1⟩

example : ∃ pre post, [1, 4, 6] = pre ++ 4 :: post ∧ ∀ b ∈ pre, (b % 2 == 0) = false :=
  ((c22_find_first (c22_vec [1, 4, 6]).1 (fun n => n % 2 == 0) 4).1 (by decide)).2

example : IsFirstMax (fun a b : Nat => decide (a < b)) [1, 3, 2] 3 :=
  (c22_extrema (c22_vec [1, 3, 2]).1 _ ⟨by intro a b; simp; omega, by intro a b c; simp; omega⟩).2.2.1 3 (by decide)

example : sumValues (Choice.mk [4, 1, 6]) = [4, 1, 6].foldl (· + ·) 0 := (c22_totals (c22_choice (Choice.mk [4, 1, 6])).1).1

example : sumValues [(4 : Int), -1, 6] = 9 ∧ productValues 1 [(4 : Int), -1, 6] = -24 := by
  have h := c22_totals_int (c22_vec [(4 : Int), -1, 6]).1
  exact ⟨h.1, h.2⟩

end Rustica
