import Verif.Theorems.Monad

/-!
# C27, C28: `Validated` accumulates errors, queries agree with the case
-/

namespace Rustica
open Validated

section
variable {E A B C D : Type}

/-- The specification: the errors of one validation. -/
def errsOf : Validated E A → List E
  | .Valid _ => []
  | .Invalid es => es

/-- The specification: a validation is valid. -/
def IsV (v : Validated E A) : Prop := ∃ a, v = .Valid a

/-! ## C27 -/

/-- `apply`, `lift2`, `lift3`: valid iff all inputs are valid … -/
theorem c27_valid_iff (ff : Validated E (A → B)) (f : A → B → C) (g : A → B → C → D) (a : Validated E A)
    (b : Validated E B) (c : Validated E C) :
    (IsV (RApplicative.apply ff a) ↔ IsV ff ∧ IsV a) ∧
    (IsV (RApplicative.lift2 f a b) ↔ IsV a ∧ IsV b) ∧
    (IsV (RApplicative.lift3 g a b c) ↔ IsV a ∧ IsV b ∧ IsV c) := by
  refine ⟨?_, ?_, ?_⟩
  · cases ff <;> cases a <;> simp [IsV, RApplicative.apply]
  · cases a <;> cases b <;> simp [IsV, RApplicative.lift2]
  · cases a <;> cases b <;> cases c <;> simp [IsV, RApplicative.lift3]

/-- … and otherwise the errors are exactly the concatenation of the inputs' errors, in order. -/
theorem c27_errors (ff : Validated E (A → B)) (f : A → B → C) (g : A → B → C → D) (a : Validated E A)
    (b : Validated E B) (c : Validated E C) :
    errsOf (RApplicative.apply ff a) = errsOf ff ++ errsOf a ∧
    errsOf (RApplicative.lift2 f a b) = errsOf a ++ errsOf b ∧
    errsOf (RApplicative.lift3 g a b c) = errsOf a ++ errsOf b ++ errsOf c := by
  refine ⟨?_, ?_, ?_⟩
  · cases ff <;> cases a <;> simp [errsOf, RApplicative.apply]
  · cases a <;> cases b <;> simp [errsOf, RApplicative.lift2, addErrors]
  · cases a <;> cases b <;> cases c <;> simp [errsOf, RApplicative.lift3, addErrors]

/-- On valid inputs the function is applied. -/
theorem c27_values (h : A → B) (f : A → B → C) (g : A → B → C → D) (a : A) (b : B) (c : C) :
    RApplicative.apply (.Valid h) (.Valid a : Validated E A) = .Valid (h a) ∧
    RApplicative.lift2 f (.Valid a : Validated E A) (.Valid b) = .Valid (f a b) ∧
    RApplicative.lift3 g (.Valid a : Validated E A) (.Valid b) (.Valid c) = .Valid (g a b c) :=
  ⟨rfl, rfl, rfl⟩

theorem all_valid_map (xs : List A) : (xs.map (Valid : A → Validated E A)).all isValid = true := by
  simp [isValid]

theorem validOnly_map (xs : List A) : validOnly (xs.map (Valid : A → Validated E A)) = xs := by
  rw [validOnly, List.filterMap_map]
  exact List.filterMap_some

theorem sequence_fold (values : List (Validated E A)) (acc : List E) :
    values.foldl (fun acc v => match v with
      | Invalid es => extendCloned acc es
      | Valid _ => acc) acc = acc ++ values.flatMap errsOf ∧
    values.foldl (fun acc v => match v with
      | Invalid es => acc ++ es
      | Valid _ => acc) acc = acc ++ values.flatMap errsOf := by
  induction values generalizing acc with
  | nil => simp
  | cons v vs ih =>
    cases v with
    | Valid a => simpa [errsOf] using ih acc
    | Invalid es =>
      refine ⟨((ih (extendCloned acc es)).1).trans ?_, ((ih (acc ++ es)).2).trans ?_⟩
      · simp only [extendCloned, List.flatMap_cons, errsOf]
        cases es <;> simp
      · simp [errsOf]

theorem not_all_valid {values : List (Validated E A)} (h : ∃ v ∈ values, ¬ IsV v) :
    values.isEmpty = false ∧ values.all isValid = false := by
  obtain ⟨v, hv, hi⟩ := h
  constructor
  · cases values with
    | nil => cases hv
    | cons _ _ => rfl
  · rw [List.all_eq_false]
    refine ⟨v, hv, ?_⟩
    cases v with
    | Valid a => exact absurd ⟨a, rfl⟩ hi
    | Invalid es => simp [isValid]

/-- `sequence` and `sequence_owned` over any list: valid with the combined values if all are valid,
otherwise invalid with exactly the concatenation of all errors in input order. -/
theorem c27_sequence (f : List A → B) :
    (∀ xs : List A, sequence (xs.map (Valid : A → Validated E A)) f = Valid (f xs) ∧
      sequenceOwned (xs.map (Valid : A → Validated E A)) f = Valid (f xs)) ∧
    (∀ values : List (Validated E A), (∃ v ∈ values, ¬ IsV v) →
      sequence values f = Invalid (values.flatMap errsOf) ∧
      sequenceOwned values f = Invalid (values.flatMap errsOf)) := by
  constructor
  · intro xs
    unfold sequence sequenceOwned
    rw [all_valid_map, validOnly_map]
    cases xs <;> simp
  · intro values h
    obtain ⟨h1, h2⟩ := not_all_valid h
    unfold sequence sequenceOwned
    rw [h1, h2]
    simp only [Bool.false_eq_true, if_false]
    exact ⟨congrArg Invalid ((sequence_fold values []).1.trans (List.nil_append _)),
      congrArg Invalid ((sequence_fold values []).2.trans (List.nil_append _))⟩

theorem collect_fold (values : List (Validated E A)) (as : List A) (es : List E) :
    values.foldl collectStep (as, es) = (as ++ validOnly values, es ++ values.flatMap errsOf) := by
  induction values generalizing as es with
  | nil => simp [validOnly]
  | cons v vs ih =>
    rw [List.foldl_cons]
    cases v with
    | Valid a => rw [show collectStep (as, es) (Valid a) = (as ++ [a], es) from rfl, ih]; simp [validOnly, errsOf]
    | Invalid e =>
      rw [show collectStep (as, es) (Invalid e) = (as, es ++ e) from rfl, ih]; simp [validOnly, errsOf]

/-- `collect` and `collect_owned`, for every list: decided by whether there is an *error*. -/
theorem c27_collect_exact (values : List (Validated E A)) :
    collect values = (if values.flatMap errsOf = [] then Valid (validOnly values)
      else Invalid (values.flatMap errsOf)) ∧ collectOwned values = collect values := by
  refine ⟨?_, rfl⟩
  unfold collect
  rw [collect_fold]
  simp only [List.nil_append]
  cases hv : values.flatMap errsOf <;> simp

/-- `collect` drops an `Invalid` with an empty error list, so "valid iff all inputs are valid" is false.
`Invalid([])` is constructible (`invalid_many` of an empty iterator; `mzero`). -/
theorem c27_collect_false :
    ¬ ∀ values : List (Validated Nat Nat), IsV (collect values) ↔ ∀ v ∈ values, IsV v := by
  intro h
  have h1 : IsV (collect [(invalidMany [] : Validated Nat Nat)]) := ⟨[], by decide⟩
  obtain ⟨a, ha⟩ := (h _).1 h1 _ (List.mem_singleton.2 rfl)
  simp [invalidMany] at ha

/-- `collect` has the claimed behaviour whenever every `Invalid` carries at least one error. -/
theorem c27_collect_partial :
    (∀ xs : List A, collect (xs.map (Valid : A → Validated E A)) = Valid xs) ∧
    (∀ values : List (Validated E A), (∀ v ∈ values, v ≠ Invalid []) → (∃ v ∈ values, ¬ IsV v) →
      collect values = Invalid (values.flatMap errsOf)) := by
  constructor
  · intro xs
    rw [(c27_collect_exact _).1, validOnly_map, if_pos]
    simp [List.flatMap_map, errsOf]
  · intro values hne ⟨v, hv, hi⟩
    rw [(c27_collect_exact _).1, if_neg]
    intro hnil
    rw [List.flatMap_eq_nil_iff] at hnil
    have h1 := hnil v hv
    cases v with
    | Valid a => exact hi ⟨a, rfl⟩
    | Invalid es => exact hne _ hv (by simpa [errsOf] using h1)

/-- `combine_errors` concatenates (and is unreachable for two valid values). -/
theorem c27_combine_errors (a b : Validated E A) :
    (combineErrors a b = none ↔ IsV a ∧ IsV b) ∧ combineErrorsOwned a b = combineErrors a b ∧
    (¬ (IsV a ∧ IsV b) → combineErrors a b = some (Invalid (errsOf a ++ errsOf b))) := by
  cases a with
  | Valid a => cases b <;> simp [combineErrors, combineErrorsOwned, IsV, errsOf]
  | Invalid e1 =>
    cases b with
    | Valid b => simp [combineErrors, combineErrorsOwned, IsV, errsOf]
    | Invalid e2 =>
      simp only [combineErrors, combineErrorsOwned, IsV, errsOf, extendCloned]
      cases e1 <;> cases e2 <;> simp

example : Validated.sequence [(Invalid ["a"] : Validated String Nat), Valid 1, Invalid ["b", "c"]] (fun xs => xs)
    = Invalid ["a", "b", "c"] := by decide
example : Validated.collect [(Invalid ["a"] : Validated String Nat), Valid 1, Invalid ["b", "c"]]
    = Invalid ["a", "b", "c"] := by decide

/-! ## C28 -/

/-- Every query agrees with the constructor. -/
theorem c28_queries (a d : A) (es : List E) :
    (isValid (Valid a : Validated E A) = true ∧ isInvalid (Valid a : Validated E A) = false ∧
      errors (Valid a : Validated E A) = [] ∧ errorPayload (Valid a : Validated E A) = none ∧
      unwrap (Valid a : Validated E A) = some a ∧ unwrapInvalid (Valid a : Validated E A) = none ∧
      intoValue (Valid a : Validated E A) = .ok a ∧ intoErrorPayload (Valid a : Validated E A) = .error a ∧
      unwrapOr (Valid a : Validated E A) d = a ∧ toOption (Valid a : Validated E A) = some a ∧
      iter (Valid a : Validated E A) = [a]) ∧
    (isValid (Invalid es : Validated E A) = false ∧ isInvalid (Invalid es : Validated E A) = true ∧
      errors (Invalid es : Validated E A) = es ∧ errorPayload (Invalid es : Validated E A) = some es ∧
      unwrap (Invalid es : Validated E A) = none ∧ unwrapInvalid (Invalid es : Validated E A) = some es ∧
      intoValue (Invalid es : Validated E A) = .error es ∧
      intoErrorPayload (Invalid es : Validated E A) = .ok es ∧
      unwrapOr (Invalid es : Validated E A) d = d ∧ toOption (Invalid es : Validated E A) = none ∧
      iter (Invalid es : Validated E A) = []) :=
  ⟨⟨rfl, rfl, rfl, rfl, rfl, rfl, rfl, rfl, rfl, rfl, rfl⟩,
   ⟨rfl, rfl, rfl, rfl, rfl, rfl, rfl, rfl, rfl, rfl, rfl⟩⟩

/-- `unwrap` panics exactly on invalid values, `unwrap_invalid` exactly on valid ones. -/
theorem c28_panics (v : Validated E A) :
    (unwrap v = none ↔ ¬ IsV v) ∧ (unwrapInvalid v = none ↔ IsV v) := by
  cases v <;> simp [unwrap, unwrapInvalid, IsV]

/-- `from_option` round trip. -/
theorem c28_option (o : Option A) (e : E) :
    toOption (fromOption o e) = o ∧ fromOptionWith o (fun _ => e) = fromOption o e ∧
    (∀ v : Validated E A, fromOption (toOption v) e = v ↔ ¬ ∃ es, v = Invalid es ∧ es ≠ [e]) := by
  refine ⟨by cases o <;> rfl, by cases o <;> rfl, fun v => ?_⟩
  cases v <;> simp [fromOption, toOption, eq_comm]

/-- Constructors: `invalid` has one error, `invalid_many`/`invalid_vec` exactly the given ones; `invalid_vec`
panics exactly on the empty iterator. -/
theorem c28_constructors (e : E) (es : List E) :
    (invalid e : Validated E A) = Invalid [e] ∧ errors (invalidMany es : Validated E A) = es ∧
    ((invalidVec es : Option (Validated E A)) = none ↔ es = []) ∧
    (es ≠ [] → (invalidVec es : Option (Validated E A)) = some (Invalid es)) := by
  refine ⟨rfl, rfl, ?_, ?_⟩ <;> cases es <;> simp [invalidVec]

/-- `fmap_invalid` maps exactly the errors; the owned version agrees. -/
theorem c28_fmap_invalid {G : Type} (f : E → G) (a : A) (es : List E) (v : Validated E A) :
    fmapInvalid (Valid a) f = Valid a ∧ fmapInvalid (Invalid es : Validated E A) f = Invalid (es.map f) ∧
    fmapInvalidOwned v f = fmapInvalid v f := by
  refine ⟨rfl, rfl, ?_⟩
  cases v <;> rfl

/-- `recover_all`: a valid value is kept; otherwise the first error whose recovery is valid decides, and if
none is, all the errors of the recoveries are collected in order. -/
theorem c28_recover_all (recovery : E → Validated E A) (a : A) :
    recoverAll (Valid a) recovery = Valid a ∧
    (∀ pre e post b, (∀ x ∈ pre, ¬ IsV (recovery x)) → recovery e = Valid b →
      recoverAll (Invalid (pre ++ e :: post)) recovery = Valid b) ∧
    (∀ es, (∀ x ∈ es, ¬ IsV (recovery x)) →
      recoverAll (Invalid es) recovery = Invalid (es.flatMap (fun x => errsOf (recovery x)))) := by
  have key : ∀ (pre : List E) (rest acc : List E), (∀ x ∈ pre, ¬ IsV (recovery x)) →
      recoverLoop recovery (pre ++ rest) acc
        = recoverLoop recovery rest (acc ++ pre.flatMap (fun x => errsOf (recovery x))) := by
    intro pre
    induction pre with
    | nil => intro rest acc _; simp
    | cons x pre ih =>
      intro rest acc h
      rcases hx : recovery x with b | more
      · exact absurd ⟨b, hx⟩ (h x List.mem_cons_self)
      · simp only [List.cons_append, recoverLoop, hx]
        rw [ih rest _ (fun y hy => h y (List.mem_cons_of_mem _ hy))]
        simp [hx, errsOf]
  refine ⟨rfl, ?_, ?_⟩
  · intro pre e post b hpre he
    show recoverLoop recovery (pre ++ e :: post) [] = _
    rw [key pre _ _ hpre, recoverLoop, he]
  · intro es h
    show recoverLoop recovery es [] = _
    have := key es [] [] h
    rw [List.append_nil] at this
    rw [this]
    rfl

/-- `recover_all_at_once`, `recover_with`. -/
theorem c28_recover (a d : A) (es : List E) (h : List E → Validated E A) :
    recoverAllAtOnce (Valid a) h = Valid a ∧ recoverAllAtOnce (Invalid es) h = h es ∧
    recoverWith (Valid a : Validated E A) d = Valid a ∧ recoverWith (Invalid es) d = Valid d :=
  ⟨rfl, rfl, rfl, rfl⟩

example : recoverAll (Invalid [1, 2, 3] : Validated Nat Nat) (fun n => if n = 2 then Valid 9 else Invalid [n, n])
    = Valid 9 := by decide

end
end Rustica
