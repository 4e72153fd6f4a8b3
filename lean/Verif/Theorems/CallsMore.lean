import Verif.Theorems.Calls
import Verif.PVec.Theorems.Derived
import Verif.PVec.Theorems.Damaged
import Verif.Optics.Optics
import Verif.Theorems.Validated

/-!
# C70–C73: which calls folds, predicates, optics, `Validated` and `PersistentVector` make
-/

namespace Rustica
open Act Spec
variable {σ A B C D E G S U : Type}

/-! ## C70: folds -/

theorem c70_fold_vec : FoldCalls List where
  left x u f w := by rw [passes_eq]; rfl
  right x u f w := by rw [passes_eq]; rfl

theorem c70_fold_choice : FoldCalls Choice where
  left x u f w := by rw [passes_eq]; rfl
  right x u f w := by rw [passes_eq]; rfl

theorem c70_fold_option : FoldCalls Option where
  left x u f w := by cases x <;> rfl
  right x u f w := by cases x <;> rfl

theorem c70_fold_result : FoldCalls (Except E) where
  left x u f w := by cases x <;> rfl
  right x u f w := by cases x <;> rfl

theorem c70_fold_validated : FoldCalls (Validated E) where
  left x u f w := by cases x <;> rfl
  right x u f w := by cases x <;> rfl

theorem c70_fold_id : FoldCalls RId where
  left _ _ _ _ := rfl
  right _ _ _ _ := rfl

section
variable {F : Type → Type} [RFoldableE F] [HasElems F]

theorem foldLeftE_eq (h : FoldCalls F) (x : F A) (u : U) (f : U → A → Act σ U) :
    foldLeftE x u f = foldList f (elems x) u := by
  funext w; rw [h.left, passes_eq]

theorem foldList_find (pred : A → Act σ Bool) (step : Option A → A → Act σ (Option A))
    (hsome : ∀ r a, step (some r) a = ret (some r))
    (hnone : ∀ a, step none a = (pred a).seq fun b => if b then ret (some a) else ret none) (xs : List A) (w : σ) :
    foldList step xs none w = (match callsUntil (fun b => b) pred xs w with
      | (.error p, w') => (.error p, w')
      | (.ok asked, w') => (.ok ((asked.find? fun q => q.2).map Prod.fst), w')) := by
  have hs : ∀ (xs : List A) (r : A) (w : σ), foldList step xs (some r) w = (.ok (some r), w) := by
    intro xs
    induction xs with
    | nil => intros; rfl
    | cons a as ih => intro r w; simp only [foldList, hsome, ret_seq, ih]
  induction xs generalizing w with
  | nil => rfl
  | cons a as ih =>
    simp only [foldList, callsUntil, seq, hnone]
    rcases hp : pred a w with ⟨p | b, w'⟩
    · rfl
    · cases b
      · simp only [Bool.false_eq_true, if_false, ret, ih]
        rcases callsUntil (fun b => b) pred as w' with ⟨p | r, w''⟩ <;> simp
      · simp [ret, hs]

/-- `find` asks the predicate element by element until it says yes; the answer is that element. -/
theorem c70_find (h : FoldCalls F) (x : F A) (pred : A → Act σ Bool) (w : σ) :
    findE x pred w = (match callsUntil (fun b => b) pred (elems x) w with
      | (.error p, w') => (.error p, w')
      | (.ok asked, w') => (.ok ((asked.find? fun q => q.2).map Prod.fst), w')) := by
  unfold findE
  rw [foldLeftE_eq h]
  exact foldList_find pred _ (fun _ _ => rfl) (fun _ => rfl) (elems x) w

/-- `all` asks until the predicate says no. -/
theorem c70_all (h : FoldCalls F) (x : F A) (pred : A → Act σ Bool) (w : σ) :
    allE x pred w = (match callsUntil (fun b => !b) pred (elems x) w with
      | (.error p, w') => (.error p, w')
      | (.ok asked, w') => (.ok (asked.all fun q => q.2), w')) := by
  unfold allE
  rw [foldLeftE_eq h]
  generalize elems x = xs
  have hs : ∀ (xs : List A) (w : σ),
      foldList (fun (acc : Bool) a => if acc then pred a else ret false) xs false w = (.ok false, w) := by
    intro xs
    induction xs with
    | nil => intros; rfl
    | cons a as ih => intro w; simpa [foldList] using ih w
  induction xs generalizing w with
  | nil => rfl
  | cons a as ih =>
    simp only [foldList, callsUntil, seq, if_true]
    rcases hp : pred a w with ⟨p | b, w'⟩
    · rfl
    · cases b
      · simp [hs]
      · simp only [ih, Bool.not_true, Bool.false_eq_true, if_false]
        rcases callsUntil (fun b => !b) pred as w' with ⟨p | r, w''⟩ <;> simp

/-- `any` asks until the predicate says yes. -/
theorem c70_any (h : FoldCalls F) (x : F A) (pred : A → Act σ Bool) (w : σ) :
    anyE x pred w = (match callsUntil (fun b => b) pred (elems x) w with
      | (.error p, w') => (.error p, w')
      | (.ok asked, w') => (.ok (asked.any fun q => q.2), w')) := by
  unfold anyE
  rw [foldLeftE_eq h]
  generalize elems x = xs
  have hs : ∀ (xs : List A) (w : σ),
      foldList (fun (acc : Bool) a => if acc then ret true else pred a) xs true w = (.ok true, w) := by
    intro xs
    induction xs with
    | nil => intros; rfl
    | cons a as ih => intro w; simpa [foldList] using ih w
  induction xs generalizing w with
  | nil => rfl
  | cons a as ih =>
    simp only [foldList, callsUntil, seq, Bool.false_eq_true, if_false]
    rcases hp : pred a w with ⟨p | b, w'⟩
    · rfl
    · cases b
      · simp only [ih, Bool.false_eq_true, if_false]
        rcases callsUntil (fun b => b) pred as w' with ⟨p | r, w''⟩ <;> simp
      · simp [hs]

/-- `fold_map` calls its function once per element. -/
theorem c70_fold_map [RMonoid B] (h : FoldCalls F) (x : F A) (f : A → Act σ B) (w : σ) :
    foldMapE x f w = (match calls f (elems x) w with
      | (.error p, w') => (.error p, w')
      | (.ok bs, w') => (.ok (bs.foldl combine RMonoid.empty), w')) := by
  unfold foldMapE
  rw [foldLeftE_eq h, calls_eq]
  generalize elems x = xs
  generalize (RMonoid.empty : B) = u
  induction xs generalizing w u with
  | nil => rfl
  | cons a as ih =>
    simp only [foldList, mapList, seq]
    rcases hp : f a w with ⟨p | b, w'⟩
    · rfl
    · simp only [ret, ih]
      rcases mapList f as w' with ⟨p | r, w''⟩ <;> simp

theorem foldList_reduce (f : A → A → Act σ A) (step : Option A → A → Act σ (Option A))
    (hsome : ∀ b a, step (some b) a = (f b a).seq fun c => ret (some c)) (xs : List A) (r : A) :
    foldList step xs (some r) = (foldList f xs r).seq fun c => ret (some c) := by
  induction xs generalizing r with
  | nil => simp [foldList]
  | cons a as ih => simp only [foldList, hsome, Act.seq_assoc, ret_seq, ih]

/-- `reduce`: no call on nothing; otherwise the first element goes through the function with every later one. -/
theorem c70_reduce (h : FoldCalls F) (x : F A) (f : A → A → Act σ A) (w : σ) :
    reduceE x f w = (match elems x with
      | [] => (.ok none, w)
      | a :: as => match passes f as a w with
        | (.error p, w') => (.error p, w')
        | (.ok r, w') => (.ok (some r), w')) := by
  unfold reduceE
  rw [foldLeftE_eq h]
  rcases elems x with _ | ⟨a, as⟩
  · rfl
  · simp only [foldList, ret_seq, passes_eq]
    rw [foldList_reduce f _ (fun _ _ => rfl)]
    simp only [seq]
    rcases foldList f as a w with ⟨p | r, w'⟩ <;> rfl

theorem foldList_option [RMonoid B] (f : A → Act σ (Option B)) (step : Option B → A → Act σ (Option B))
    (hnone : ∀ a, step none a = (f a).seq fun _ => ret none)
    (hsome : ∀ u a, step (some u) a = (f a).seq fun r => ret (r.map (combine u))) (xs : List A) (u : B) :
    foldList step xs (some u) = (mapList f xs).seq fun bs =>
      ret (if bs.any Option.isNone then none else some ((bs.filterMap fun b => b).foldl combine u)) := by
  have hn : ∀ (xs : List A), foldList step xs none = (mapList f xs).seq fun _ => ret none := by
    intro xs
    induction xs with
    | nil => rfl
    | cons a as ih => simp only [foldList, mapList, hnone, Act.seq_assoc, ret_seq, ih]
  induction xs generalizing u with
  | nil => simp [foldList, mapList]
  | cons a as ih =>
    simp only [foldList, mapList, hsome, Act.seq_assoc, ret_seq]
    congr 1
    funext r
    cases r with
    | none => simp [hn]
    | some b => simp only [Option.map, ih, List.any_cons, Option.isNone, Bool.false_or, List.filterMap_cons, List.foldl_cons]

/-- `fold_option` as it is: the function is called on every element, also after a `None`; the result is `None` if any
answer was. Missing from the documentation's claim: it does not short-circuit. -/
theorem c70_fold_option_partial [RMonoid B] (h : FoldCalls F) (x : F A) (f : A → Act σ (Option B)) (w : σ) :
    foldOptionE x f w = (match calls f (elems x) w with
      | (.error p, w') => (.error p, w')
      | (.ok bs, w') =>
        (.ok (if bs.any Option.isNone then none else some ((bs.filterMap fun b => b).foldl combine RMonoid.empty)), w')) := by
  unfold foldOptionE
  rw [foldLeftE_eq h, calls_eq, foldList_option f _ (fun a => ?_) (fun u a => ?_)]
  · simp only [seq]
    rcases mapList f (elems x) w with ⟨p | r, w'⟩ <;> rfl
  · rfl
  · congr 1
    funext r
    cases r <;> rfl

/-- The theorems above for vectors (`Vec`), with a predicate and a function that write. -/
example : findE [1, 2, 3] (fun a (log : List Nat) => (.ok (a == 2), log ++ [a])) [] = (.ok (some 2), [1, 2]) :=
  c70_find c70_fold_vec _ _ _
example : allE [1, 2, 3] (fun a (log : List Nat) => (.ok (a != 2), log ++ [a])) [] = (.ok false, [1, 2]) :=
  c70_all c70_fold_vec _ _ _
example : anyE [1, 2, 3] (fun a (log : List Nat) => (.ok (a == 1), log ++ [a])) [] = (.ok true, [1]) :=
  c70_any c70_fold_vec _ _ _
example : foldMapE [1, 2, 3] (fun a (log : List Nat) => (.ok [a, a], log ++ [a])) [] = (.ok [1, 1, 2, 2, 3, 3], [1, 2, 3]) :=
  c70_fold_map c70_fold_vec _ _ _
example : reduceE [1, 2, 3] (fun a b (log : List (Nat × Nat)) => (.ok (a + b), log ++ [(a, b)])) [] =
    (.ok (some 6), [(1, 2), (3, 3)]) := c70_reduce c70_fold_vec _ _ _
example : foldOptionE [1, 2, 3] (fun a (log : List Nat) => (.ok (if a == 2 then none else some [a]), log ++ [a])) [] =
    (.ok none, [1, 2, 3]) := c70_fold_option_partial c70_fold_vec _ _ _

end

/-- The claim of the documentation: on a `Vec`, `fold_option` stops calling the function after a `None`. -/
def FoldOptionShortCircuits : Prop :=
  ∀ (σ A B : Type) (_ : RMonoid B) (xs : List A) (f : A → Act σ (Option B)) (w : σ),
    (foldOptionE xs f w).2 = (callsUntil Option.isNone f xs w).2

/-- It does not: on `[1, 2]` with a logging function that always answers `None`, both elements are asked. -/
theorem c70_fold_option_false : ¬ FoldOptionShortCircuits := by
  intro h
  have := h (List Nat) Nat (List Nat) inferInstance [1, 2] (fun a log => (.ok none, log ++ [a])) []
  exact absurd this (by decide)

example : findE [1, 2, 3] (fun a (log : List Nat) => (.ok (a == 2), log ++ [a])) [] = (.ok (some 2), [1, 2]) := rfl
example : allE [1, 2, 3] (fun a (log : List Nat) => (.ok (a != 2), log ++ [a])) [] = (.ok false, [1, 2]) := rfl
example : anyE (Choice.mk [1, 2, 3]) (fun a (log : List Nat) => (.ok (a == 1), log ++ [a])) [] = (.ok true, [1]) := rfl
/-- `any` that has its answer does not reach the element whose predicate panics. -/
example : anyE [1, 2] (fun a (w : Nat) => (if a == 2 then .error .other else .ok true, w + 1)) 0 = (.ok true, 1) := rfl
example : reduceE [1, 2, 3] (fun a b (log : List (Nat × Nat)) => (.ok (a + b), log ++ [(a, b)])) [] =
    (.ok (some 6), [(1, 2), (3, 3)]) := rfl
example : foldRightE [1, 2, 3] 0 (fun a u (log : List Nat) => (.ok (a + u), log ++ [a])) [] = (.ok 6, [3, 2, 1]) := rfl

/-! ## C71: predicates -/

namespace PredicateE

/-- The second predicate is asked only where the first one answers `go`; elsewhere the answer is `dflt`. -/
def Cond (p q r : PredicateE σ A) (go : Bool) (flip : Bool) : Prop := ∀ a w,
  r.contains a w = match p.contains a w with
    | (.error e, w') => (.error e, w')
    | (.ok b, w') => if b = go then (match q.contains a w' with
        | (.error e, w'') => (.error e, w'')
        | (.ok c, w'') => (.ok (if flip then !c else c), w''))
      else (.ok b, w')

/-- `union` (also `|`, `combine`, `combine_owned`) asks the second predicate only after a no. -/
theorem c71_union (p q : PredicateE σ A) :
    Cond p q (p.union q) false false ∧ Cond p q (p.combineOwned q) false false := by
  constructor <;> intro a w <;> simp only [contains, union, combineOwned, orElse, seq] <;>
  · rcases p.func a w with ⟨e | b, w'⟩
    · rfl
    · cases b
      · simp only [if_true, Bool.false_eq_true, if_false]
        rcases q.func a w' with ⟨e | c, w''⟩ <;> rfl
      · rfl

/-- `intersection` (also `&`) asks the second predicate only after a yes. -/
theorem c71_intersection (p q : PredicateE σ A) : Cond p q (p.intersection q) true false := by
  intro a w
  simp only [contains, intersection, andAlso, seq]
  rcases p.func a w with ⟨e | b, w'⟩
  · rfl
  · cases b
    · rfl
    · simp only [if_true, Bool.false_eq_true, if_false]
      rcases q.func a w' with ⟨e | c, w''⟩ <;> rfl

/-- `diff` (also `-`) asks the second predicate only after a yes, and negates its answer. -/
theorem c71_diff (p q : PredicateE σ A) : Cond p q (p.diff q) true true := by
  intro a w
  simp only [contains, diff, andAlso, seq]
  rcases p.func a w with ⟨e | b, w'⟩
  · rfl
  · cases b
    · rfl
    · simp only [if_true, seq]
      rcases q.func a w' with ⟨e | c, w''⟩ <;> rfl

/-- `negate` (also `!`) asks once; `empty` asks nothing. -/
theorem c71_negate (p : PredicateE σ A) (a : A) (w : σ) :
    p.negate.contains a w = (match p.contains a w with
      | (.error e, w') => (.error e, w')
      | (.ok b, w') => (.ok (!b), w')) ∧
    (empty : PredicateE σ A).contains a w = (.ok false, w) := by
  refine ⟨?_, rfl⟩
  simp only [contains, negate, seq]
  rcases p.func a w with ⟨e | b, w'⟩ <;> rfl

/-- Where the first predicate decides, the second one is irrelevant: it may have any effect or panic. -/
theorem c71_second_not_asked {p q r : PredicateE σ A} {go flip : Bool} (h : Cond p q r go flip) (a : A) (w w' : σ)
    (hp : p.contains a w = (.ok (!go), w')) : r.contains a w = (.ok (!go), w') := by
  rw [h a w, hp]
  cases go <;> simp

example : (union ⟨fun a w => (.ok (a == 1), w + 1)⟩ ⟨fun _ w => (.error .other, w + 10)⟩ : PredicateE Nat Nat).contains 1 0 =
    (.ok true, 1) := c71_second_not_asked (go := false) (c71_union _ _).1 1 0 1 rfl

/-- With effect-free predicates all this is the pure model. -/
theorem c71_pure (p q : Predicate A) (a : A) (w : σ) :
    let lift (p : Predicate A) : PredicateE σ A := ⟨fun a => ret (p.func a)⟩
    ((lift p).union (lift q)).contains a w = (.ok ((p.union q).contains a), w) ∧
    ((lift p).intersection (lift q)).contains a w = (.ok ((p.intersection q).contains a), w) ∧
    ((lift p).diff (lift q)).contains a w = (.ok ((p.diff q).contains a), w) ∧
    (lift p).negate.contains a w = (.ok (p.negate.contains a), w) := by
  simp only [contains, union, intersection, diff, negate, orElse, andAlso, Predicate.contains, Predicate.union,
    Predicate.intersection, Predicate.diff, Predicate.negate, ret_seq]
  cases p.func a <;> cases q.func a <;> simp [ret]

/-- A second predicate that panics is harmless where the first one says yes, and fatal elsewhere. -/
example : let p : PredicateE Nat Nat := ⟨fun a w => (.ok (a == 1), w + 1)⟩
    let q : PredicateE Nat Nat := ⟨fun _ w => (.error .other, w + 10)⟩
    (p.union q).contains 1 0 = (.ok true, 1) ∧ (p.union q).contains 2 0 = (.error .other, 11) ∧
    (p.intersection q).contains 2 0 = (.ok false, 1) ∧ (p.diff q).contains 1 0 = (.error .other, 11) :=
  ⟨rfl, rfl, rfl, rfl⟩

end PredicateE

/-! ## C72: optics -/

/-- What happened to an optic. -/
inductive OpticEvent (S A : Type)
  | get (s : S)
  | set (s : S) (a : A)
  | preview (s : S)
  | review (a : A)
  | call (a : A)
deriving DecidableEq

/-- A lens whose functions keep a log. -/
def LensE.logged (l : RLens S A) : LensE (List (OpticEvent S A)) S A :=
  ⟨fun s log => (.ok (l.getFn s), log ++ [.get s]), fun s a log => (.ok (l.setFn s a), log ++ [.set s a])⟩

/-- A prism whose functions keep a log. -/
def PrismE.logged (p : RPrism S A) : PrismE (List (OpticEvent S A)) S A :=
  ⟨fun s log => (.ok (p.previewFn s), log ++ [.preview s]), fun a log => (.ok (p.reviewFn a), log ++ [.review a])⟩

/-- A transformation that keeps a log. -/
def loggedCall (S : Type) (f : A → A) : A → Act (List (OpticEvent S A)) A := fun a log =>
  (.ok (f a), log ++ [.call a])

/-- `Lens::set` reads the focus once and writes only if the value differs; `set_always` only writes. -/
theorem c72_lens_set [DecidableEq A] (l : RLens S A) (s : S) (a : A) (log : List (OpticEvent S A)) :
    (LensE.logged l).set s a log = (.ok (l.set s a),
      log ++ (if l.get s = a then [.get s] else [.get s, .set s a])) ∧
    (LensE.logged l).setAlways s a log = (.ok (l.setAlways s a), log ++ [.set s a]) ∧
    (LensE.logged l).get s log = (.ok (l.get s), log ++ [.get s]) := by
  refine ⟨?_, rfl, rfl⟩
  by_cases h : l.getFn s = a
  · simp [LensE.set, LensE.get, LensE.logged, seq, RLens.set, RLens.get, h, ret]
  · simp [LensE.set, LensE.get, LensE.setAlways, LensE.logged, seq, RLens.set, RLens.setAlways, RLens.get, h]

/-- `Lens::modify` calls the transformation once, with the focus; reads the focus twice; writes at most once, and only
if the value changes.  `modify_always` reads once and always writes. -/
theorem c72_lens_modify [DecidableEq A] (l : RLens S A) (s : S) (f : A → A) (log : List (OpticEvent S A)) :
    (LensE.logged l).modify s (loggedCall S f) log = (.ok (l.modify s f),
      log ++ [.get s, .call (l.get s), .get s] ++ (if f (l.get s) = l.get s then [] else [.set s (f (l.get s))])) ∧
    (LensE.logged l).modifyAlways s (loggedCall S f) log = (.ok (l.modifyAlways s f),
      log ++ [.get s, .call (l.get s), .set s (f (l.get s))]) := by
  constructor
  · by_cases h : f (l.getFn s) = l.getFn s
    · simp [LensE.modify, LensE.set, LensE.get, LensE.logged, loggedCall, seq, RLens.modify, RLens.set, RLens.get, h,
        ret]
    · simp [LensE.modify, LensE.set, LensE.get, LensE.setAlways, LensE.logged, loggedCall, seq, RLens.modify, RLens.set,
        RLens.setAlways, RLens.get, h, Ne.symm h]
  · simp [LensE.modifyAlways, LensE.get, LensE.setAlways, LensE.logged, loggedCall, seq, RLens.modifyAlways,
      RLens.setAlways, RLens.get]

/-- A transformation that panics: nothing is written, and the focus is not read again. -/
theorem c72_lens_modify_panic [DecidableEq A] (l : LensE σ S A) (s : S) (f : A → Act σ A) (w w1 w2 : σ) (a : A)
    (p : Panic) (hg : l.get s w = (.ok a, w1)) (hf : f a w1 = (.error p, w2)) :
    l.modify s f w = (.error p, w2) ∧ l.modifyAlways s f w = (.error p, w2) := by
  constructor
  · unfold LensE.modify; rw [seq_ok hg, seq_error hf]
  · unfold LensE.modifyAlways; rw [seq_ok hg, seq_error hf]

example : (LensE.logged (RLens.new Prod.fst fun s a => (a, s.2))).modify ((1, 2) : Nat × Nat) (fun _ w => (.error .other, w)) [] =
    (.error .other, [.get (1, 2)]) := (c72_lens_modify_panic _ _ _ _ _ _ 1 _ rfl rfl).1

/-- `Prism::set_if_different`: one preview; the review function is called unless the value is already there. -/
theorem c72_prism_set [DecidableEq A] (p : RPrism S A) (s : S) (a : A) (log : List (OpticEvent S A)) :
    (PrismE.logged p).setIfDifferent s a log = (.ok (p.setIfDifferent s a),
      log ++ (if p.preview s = some a then [.preview s] else [.preview s, .review a])) := by
  rcases h : p.previewFn s with _ | b
  · simp [PrismE.setIfDifferent, PrismE.preview, PrismE.review, PrismE.logged, seq, RPrism.setIfDifferent,
      RPrism.preview, RPrism.review, h]
  · by_cases hb : a = b
    · simp [PrismE.setIfDifferent, PrismE.preview, PrismE.logged, seq, RPrism.setIfDifferent,
        RPrism.preview, h, hb, ret]
    · simp [PrismE.setIfDifferent, PrismE.preview, PrismE.review, PrismE.logged, seq, RPrism.setIfDifferent,
        RPrism.preview, RPrism.review, h, hb, Ne.symm hb]

/-- `Prism::modify` as it is: one preview; on a match the transformation is called once with the value, and the review
function is called only if the value changes; without a match *nothing* is called.  Missing from the documentation's
claim: the transformation is not called when the preview fails. -/
theorem c72_prism_modify_partial [DecidableEq A] (p : RPrism S A) (s : S) (f : A → A) (log : List (OpticEvent S A)) :
    (PrismE.logged p).modify s (loggedCall S f) log = (.ok (p.modify s f), log ++ (match p.preview s with
      | none => [.preview s]
      | some a => [.preview s, .call a] ++ if f a = a then [] else [.review (f a)])) := by
  rcases h : p.previewFn s with _ | b
  · simp [PrismE.modify, PrismE.preview, PrismE.logged, seq, RPrism.modify, RPrism.preview, h, ret]
  · by_cases hb : f b = b
    · simp [PrismE.modify, PrismE.preview, PrismE.logged, loggedCall, seq, RPrism.modify, RPrism.preview, h, hb, ret]
    · simp [PrismE.modify, PrismE.preview, PrismE.review, PrismE.logged, loggedCall, seq, RPrism.modify, RPrism.preview,
        RPrism.review, h, hb]

/-- "The transformation function is always called, even if preview fails" (`prism.rs` 696). -/
def PrismModifyAlwaysCalls : Prop :=
  ∀ (S A : Type) (_ : DecidableEq A) (p : RPrism S A) (s : S) (f : A → A),
    ∃ a, OpticEvent.call a ∈ ((PrismE.logged p).modify s (loggedCall S f) []).2

/-- It is not: there is nothing to call it with. -/
theorem c72_prism_modify_false : ¬ PrismModifyAlwaysCalls := by
  intro h
  obtain ⟨a, ha⟩ := h (Option Nat) Nat inferInstance (RPrism.new id some) none (· + 1)
  simp [PrismE.modify, PrismE.preview, PrismE.logged, seq, RPrism.new, ret] at ha

example : (LensE.logged (RLens.new Prod.fst fun s a => (a, s.2))).modify ((1, 2) : Nat × Nat) (loggedCall _ (· + 1)) [] =
    (.ok (2, 2), [.get (1, 2), .call 1, .get (1, 2), .set (1, 2) 2]) := rfl
example : (PrismE.logged (RPrism.new id some)).modify (none : Option Nat) (loggedCall _ (· + 1)) [] =
    (.ok none, [.preview none]) := rfl

/-! ## C73: `Validated` and `PersistentVector` -/

namespace Validated

/-- `recover_all` tries the errors in order until one recovery succeeds, whose value is the result; the later errors are
not tried.  If none succeeds the errors of all attempts are collected. -/
theorem c73_recover_all (es : List E) (recovery : E → Act σ (Validated E A)) (w : σ) :
    recoverAllE (Invalid es) recovery w = (match callsUntil Validated.isValid recovery es w with
      | (.error p, w') => (.error p, w')
      | (.ok tried, w') => (.ok (match tried.find? fun q => q.2.isValid with
          | some q => q.2
          | none => Invalid (tried.flatMap fun q => match q.2 with
              | Invalid more => more
              | Valid _ => [])), w')) ∧
    ∀ a, recoverAllE (Valid a) recovery w = (.ok (Valid a), w) := by
  refine ⟨?_, fun _ => rfl⟩
  have key : ∀ (es acc : List E) (w : σ), recoverLoopE recovery es acc w =
      (match callsUntil Validated.isValid recovery es w with
      | (.error p, w') => (.error p, w')
      | (.ok tried, w') => (.ok (match tried.find? fun q => q.2.isValid with
          | some q => q.2
          | none => Invalid (acc ++ tried.flatMap fun q => match q.2 with
              | Invalid more => more
              | Valid _ => [])), w')) := by
    intro es
    induction es with
    | nil => intro acc w; simp [recoverLoopE, callsUntil, ret]
    | cons e es ih =>
      intro acc w
      simp only [recoverLoopE, callsUntil, seq]
      rcases recovery e w with ⟨p | r, w'⟩
      · rfl
      · cases r with
        | Valid v => simp [isValid, ret]
        | Invalid more =>
          simp only [ih, isValid, Bool.false_eq_true, if_false]
          rcases callsUntil Validated.isValid recovery es w' with ⟨p | r, w''⟩
          · rfl
          · simp
  simpa [recoverAllE] using key es [] w

/-- `recover_all_at_once` calls the function once, with all the errors, and only if there are any. -/
theorem c73_recover_all_at_once (v : Validated E A) (recovery : List E → Act σ (Validated E A)) :
    recoverAllAtOnceE v recovery = match v with
      | Valid a => fun w => (.ok (Valid a), w)
      | Invalid es => recovery es := by cases v <;> rfl

/-- `fmap_invalid` and the bifunctor methods: the error function once per error, in order, and only on an invalid value;
the value function once, and only on a valid one. -/
theorem c73_bimap (v : Validated E A) (f : A → Act σ C) (g : E → Act σ D) (w : σ) :
    bimapE v f g w = (match v with
      | Valid a => match f a w with
        | (.error p, w') => (.error p, w')
        | (.ok c, w') => (.ok (Valid c), w')
      | Invalid es => match calls g es w with
        | (.error p, w') => (.error p, w')
        | (.ok ds, w') => (.ok (Invalid ds), w')) ∧
    fmapInvalidE v g w = (match v with
      | Valid a => (.ok (Valid a), w)
      | Invalid es => match calls g es w with
        | (.error p, w') => (.error p, w')
        | (.ok ds, w') => (.ok (Invalid ds), w')) := by
  cases v with
  | Valid a =>
    refine ⟨?_, rfl⟩
    simp only [bimapE, seq]
    rcases f a w with ⟨p | c, w'⟩ <;> rfl
  | Invalid es =>
    simp only [bimapE, fmapInvalidE, seq, calls_eq]
    rcases mapList g es w with ⟨p | c, w'⟩ <;> exact ⟨rfl, rfl⟩

/-- `from_option_with`: the error function is called only on `None`, once. -/
theorem c73_from_option_with (o : Option A) (ef : Unit → Act σ E) (w : σ) :
    fromOptionWithE o ef w = match o with
      | some a => (.ok (Valid a), w)
      | none => match ef () w with
        | (.error p, w') => (.error p, w')
        | (.ok e, w') => (.ok (Invalid [e]), w') := by
  cases o with
  | some a => rfl
  | none =>
    simp only [fromOptionWithE, seq]
    rcases ef () w with ⟨p | c, w'⟩ <;> rfl

/-- `sequence`: the function is called once, with all the values, if all are valid; otherwise not at all, and all the
errors come out in order. -/
theorem c73_sequence (f : List A → Act σ B) (w : σ) :
    (∀ xs : List A, sequenceE (xs.map (Valid : A → Validated E A)) f w = (match f xs w with
      | (.error p, w') => (.error p, w')
      | (.ok b, w') => (.ok (Valid b), w'))) ∧
    (∀ values : List (Validated E A), (∃ v ∈ values, ¬ IsV v) →
      sequenceE values f w = (.ok (Invalid (values.flatMap errsOf)), w)) := by
  constructor
  · intro xs
    unfold sequenceE
    rw [all_valid_map, validOnly_map]
    cases xs <;> simp only [List.map_nil, List.isEmpty_nil, List.map_cons, List.isEmpty_cons, if_true,
      Bool.false_eq_true, if_false, seq] <;>
    · rcases f _ w with ⟨p | b, w'⟩ <;> rfl
  · intro values h
    obtain ⟨h1, h2⟩ := not_all_valid h
    unfold sequenceE
    rw [h1, h2]
    simp only [Bool.false_eq_true, if_false]
    exact congrArg (fun e => (Except.ok (Invalid e), w)) ((sequence_fold values []).1.trans (List.nil_append _))

/-- Three errors, of which the second can be repaired: the third is not tried. -/
example : recoverAllE (Invalid [1, 2, 3])
    (fun e (log : List Nat) => (.ok (if e == 2 then Valid 20 else Invalid [e * 10]), log ++ [e])) [] =
      (.ok (Valid 20), [1, 2]) := rfl
example : recoverAllE (Invalid [1, 3])
    (fun e (log : List Nat) => (.ok (if e == 2 then Valid 20 else Invalid [e * 10]), log ++ [e])) [] =
      (.ok (Invalid [10, 30]), [1, 3]) := rfl
example : sequenceE [Valid 1, Invalid ["a"], Valid 2, Invalid ["b", "c"]] (fun (_ : List Nat) (w : Nat) =>
    ((.ok 0 : Except Panic Nat), w + 1)) 0 = (.ok (Invalid ["a", "b", "c"]), 0) := rfl
example : ∃ v ∈ [Valid 1, Invalid ["a"]], ¬ IsV (v : Validated String Nat) :=
  ⟨Invalid ["a"], by simp, by rintro ⟨a, h⟩; cases h⟩

end Validated

namespace PVec.PV
variable {α β : Type}

/-- `map` and the functor methods: one call per element, in order; the result shows the answers. -/
theorem c73_map (v : PV α) (f : α → Act σ β) (w : σ) :
    match calls f v.toVec w with
    | (.error p, w') => v.mapE f w = (.error p, w')
    | (.ok ys, w') => ∃ v', v.mapE f w = (.ok v', w') ∧ v'.Shows ys := by
  rw [calls_eq]
  simp only [mapE, seq, toVec]
  rcases mapList f v.items w with ⟨p | ys, w'⟩
  · rfl
  · exact ⟨_, rfl, c01_from_iter ys⟩

theorem filterList_eq (p : α → Act σ Bool) (xs : List α) :
    Act.filterList p xs = (mapList p xs).seq fun bs => ret (((xs.zip bs).filter fun q => q.2).map Prod.fst) := by
  induction xs with
  | nil => rfl
  | cons x xs ih =>
    simp only [Act.filterList, mapList, Act.seq_assoc, ret_seq, ih]
    congr 1; funext b; congr 1; funext bs
    cases b <;> simp

theorem filterMapList_eq (f : α → Act σ (Option β)) (xs : List α) :
    Act.filterMapList f xs = (mapList f xs).seq fun bs => ret (bs.filterMap fun b => b) := by
  induction xs with
  | nil => rfl
  | cons x xs ih =>
    simp only [Act.filterMapList, mapList, Act.seq_assoc, ret_seq, ih]
    congr 1; funext b; congr 1; funext bs
    cases b <;> simp

/-- `filter`: one call per element, in order; the result shows the elements whose answer was yes. -/
theorem c73_filter (v : PV α) (p : α → Act σ Bool) (w : σ) :
    match calls p v.toVec w with
    | (.error e, w') => v.filterE p w = (.error e, w')
    | (.ok bs, w') => ∃ v', v.filterE p w = (.ok v', w') ∧
        v'.Shows (((v.toVec.zip bs).filter fun q => q.2).map Prod.fst) := by
  rw [calls_eq]
  simp only [filterE, filterList_eq, seq, toVec]
  rcases mapList p v.items w with ⟨e | ys, w'⟩
  · rfl
  · exact ⟨_, rfl, c01_from_iter _⟩

/-- `filter_map`: one call per element, in order; the result shows the values found. -/
theorem c73_filter_map (v : PV α) (f : α → Act σ (Option β)) (w : σ) :
    match calls f v.toVec w with
    | (.error e, w') => v.filterMapE f w = (.error e, w')
    | (.ok bs, w') => ∃ v', v.filterMapE f w = (.ok v', w') ∧ v'.Shows (bs.filterMap fun b => b) := by
  rw [calls_eq]
  simp only [filterMapE, filterMapList_eq, seq, toVec]
  rcases mapList f v.items w with ⟨e | ys, w'⟩
  · rfl
  · exact ⟨_, rfl, c01_from_iter _⟩

/-- `flat_map`: one call per element, in order; the result shows the answers one after the other. -/
theorem c73_flat_map (v : PV α) (f : α → Act σ (List β)) (w : σ) :
    match calls f v.toVec w with
    | (.error e, w') => v.flatMapE f w = (.error e, w')
    | (.ok bs, w') => ∃ v', v.flatMapE f w = (.ok v', w') ∧ v'.Shows bs.flatten := by
  rw [calls_eq]
  simp only [flatMapE, seq, toVec]
  rcases mapList f v.items w with ⟨e | ys, w'⟩
  · rfl
  · exact ⟨_, rfl, c01_from_iter _⟩

theorem partitionLoopE_eq (p : α → Act σ Bool) (xs : List α) (ts fs : List α) :
    partitionLoopE p xs ts fs = (mapList p xs).seq fun bs =>
      ret (ts ++ ((xs.zip bs).filter fun q => q.2).map Prod.fst, fs ++ ((xs.zip bs).filter fun q => !q.2).map Prod.fst) := by
  induction xs generalizing ts fs with
  | nil => simp [partitionLoopE, mapList]
  | cons x xs ih =>
    simp only [partitionLoopE, mapList, Act.seq_assoc, ret_seq]
    congr 1; funext b
    cases b <;> simp [ih]

/-- `partition`: one call per element, in order; yes on the left, no on the right. -/
theorem c73_partition (v : PV α) (p : α → Act σ Bool) (w : σ) :
    match calls p v.toVec w with
    | (.error e, w') => v.partitionE p w = (.error e, w')
    | (.ok bs, w') => ∃ l r, v.partitionE p w = (.ok (l, r), w') ∧
        l.Shows (((v.toVec.zip bs).filter fun q => q.2).map Prod.fst) ∧
        r.Shows (((v.toVec.zip bs).filter fun q => !q.2).map Prod.fst) := by
  rw [calls_eq]
  simp only [partitionE, partitionLoopE_eq, seq, toVec, List.nil_append]
  rcases mapList p v.items w with ⟨e | ys, w'⟩
  · rfl
  · exact ⟨_, _, rfl, c01_from_iter _, c01_from_iter _⟩

/-- `fold`: the accumulator goes through the closure once per element, in order. -/
theorem c73_fold (v : PV α) (init : β) (f : β → α → Act σ β) (w : σ) :
    v.foldE init f w = passes f v.toVec init w := by
  rw [passes_eq]; rfl

theorem foldRightLoopE_eq (v : PV α) (xs : List α) (hget : ∀ i, v.get i = xs[i]?) (f : α → β → Act σ β) :
    ∀ n acc, n ≤ xs.length →
      foldRightLoopE v f n acc = foldList (fun u a => f a u) (xs.take n).reverse acc := by
  intro n
  induction n with
  | zero => intro acc _; simp [foldRightLoopE, foldList]
  | succ n ih =>
    intro acc h
    have hn : n < xs.length := by omega
    rw [List.take_succ_eq_append_getElem hn]
    simp only [foldRightLoopE, hget, List.getElem?_eq_getElem hn, List.reverse_append, List.reverse_singleton,
      List.singleton_append, foldList]
    congr 1; funext u
    exact ih u (by omega)

/-- `fold_right` on an intact vector: once per element, last one first. -/
theorem c73_fold_right_partial {v : PV α} (h : Intact v) (init : β) (f : α → β → Act σ β) (w : σ) :
    v.foldRightE init f w = passes (fun u a => f a u) v.toVec.reverse init w := by
  have s := h.shows
  rw [passes_eq, foldRightE, foldRightLoopE_eq v v.toVec s.get f v.len init (by rw [s.len]; exact Nat.le_refl _), s.len,
    List.take_length]

example : (fromIter [1, 2, 3]).foldRightE 0 (fun a u (log : List Nat) => (.ok (a + u), log ++ [a])) [] =
    passes (fun u a (log : List Nat) => (.ok (a + u), log ++ [a])) (fromIter [1, 2, 3]).toVec.reverse 0 [] :=
  c73_fold_right_partial ⟨(fromIter_spec _).1⟩ _ _ _

/-- `fold_right` on any vector value, damaged or not: once per index at which `get` finds something, last one first. -/
theorem c73_fold_right_any (v : PV α) (init : β) (f : α → β → Act σ β) (w : σ) :
    v.foldRightE init f w = passes (fun u a => f a u) (((List.range v.len).filterMap v.get).reverse) init w := by
  rw [passes_eq, foldRightE]
  suffices h : ∀ n acc, foldRightLoopE v f n acc =
      foldList (fun u a => f a u) (((List.range n).filterMap v.get).reverse) acc from congrFun (h _ _) w
  intro n
  induction n with
  | zero => intro acc; simp [foldRightLoopE, foldList]
  | succ n ih =>
    intro acc
    simp only [foldRightLoopE, List.range_succ, List.filterMap_append, List.filterMap_cons, List.filterMap_nil]
    rcases v.get n with _ | x
    · simp [ih]
    · simp only [List.reverse_append, List.reverse_singleton, List.singleton_append, foldList]
      congr 1; funext u
      exact ih u

/-- On a damaged vector `fold_right` calls the closure on elements that iteration does not reach. -/
theorem c73_fold_right_false : ¬ ∀ v : PV Nat, Reach v → ∀ (f : Nat → Nat → Act Nat Nat) (w : Nat),
    v.foldRightE 0 f w = passes (fun u a => f a u) v.toVec.reverse 0 w := by
  obtain ⟨v, hr, hg⟩ : ∃ v : PV Nat, Reach v ∧
      ((List.range v.len).filterMap v.get).length ≠ v.toVec.length :=
    ⟨_, .pushBack 5 (reach_dropFront (reach_times (fun _ h => .pushBack 3 h) 65 _
      (.splitRight 80 (.fromIter (List.range 100))))), by decide +kernel⟩
  intro h
  have h1 := h v hr (fun _ u w => (.ok u, w + 1)) 0
  rw [c73_fold_right_any] at h1
  have key : ∀ (xs : List Nat) (w : Nat),
      passes (fun u (_ : Nat) (w : Nat) => ((.ok u : Except Rustica.Panic Nat), w + 1)) xs 0 w = (.ok 0, w + xs.length) := by
    intro xs
    induction xs with
    | nil => intro w; rfl
    | cons x xs ih => intro w; rw [show passes _ (x :: xs) 0 w = passes _ xs 0 (w + 1) from rfl, ih]; simp; omega
  rw [key, key] at h1
  simp only [Prod.mk.injEq, true_and, List.length_reverse, Nat.zero_add] at h1
  exact hg h1

/-- With effect-free closures these are the functions of the pure model. -/
theorem c73_pure (v : PV α) (f : α → β) (p : α → Bool) (g : α → Option β) (k : α → List β) (u : β) (s : β → α → β)
    (w : σ) :
    v.mapE (fun a => ret (f a)) w = (.ok (v.map f), w) ∧
    v.filterE (fun a => ret (p a)) w = (.ok (v.filter p), w) ∧
    v.filterMapE (fun a => ret (g a)) w = (.ok (v.filterMap g), w) ∧
    v.flatMapE (fun a => ret (k a)) w = (.ok (v.flatMap k), w) ∧
    v.foldE u (fun u a => ret (s u a)) w = (.ok (v.fold u s), w) := by
  refine ⟨?_, ?_, ?_, ?_, ?_⟩
  · simp only [mapE, mapList_pure, ret_seq]; rfl
  · simp only [filterE, filterList_eq, mapList_pure, ret_seq]
    show (Except.ok (fromIter _), w) = (Except.ok (fromIter _), w)
    congr 3
    generalize v.items = xs
    induction xs with
    | nil => rfl
    | cons x xs ih => by_cases hx : p x = true <;> simp [hx, ih]
  · simp only [filterMapE, filterMapList_eq, mapList_pure, ret_seq]
    show (Except.ok (fromIter _), w) = (Except.ok (fromIter _), w)
    rw [List.filterMap_map]; rfl
  · simp only [flatMapE, mapList_pure, ret_seq]; rfl
  · simp only [foldE, foldList_pure]; rfl

example : (fromIter [1, 2, 3]).mapE (logging (· + 10) (· == 2)) [] = (.error (.str "boom"), [1, 2]) := rfl
example : Intact (fromIter [1, 2, 3]) := ⟨(fromIter_spec _).1⟩
example : (fromIter [1, 2, 3]).foldRightE 0 (fun a u (log : List Nat) => (.ok (a + u), log ++ [a])) [] =
    (.ok 6, [3, 2, 1]) := rfl

end PVec.PV

end Rustica
