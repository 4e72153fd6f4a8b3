import Verif.Tests.QuickCheck
import Verif.Theorems.Semigroup

/-!
# C82: what the property tests of `tests/` answer, for every input

QuickCheck runs each of these functions on some hundred random inputs.  Here each one is proved to pass (or to
discard, with the exact condition) for every input of its type, without panicking.  `TestBifunctor` is the one
test type whose generator limits its values; the tests over it need that limit.
-/

namespace Rustica.QC

/-- The test returns, and its verdict is `passed`. -/
def Passes (t : Test) : Prop := t () = (.ok .passed, ())
/-- The test returns, and its verdict is `discarded`. -/
def Discards (t : Test) : Prop := t () = (.ok .discarded, ())
/-- The test panics. -/
def Panics (t : Test) : Prop := ∃ p, t () = (.error p, ())

theorem passes_ofBool {b : Bool} (h : b = true) : Passes (ofBool b) := by subst h; rfl
theorem passes_assert {b : Bool} (h : b = true) : Passes (assert b) := by subst h; rfl

theorem checked_ok {w : Nat} (what : String) (i : Int) (h : -2 ^ (w - 1) ≤ i ∧ i < 2 ^ (w - 1)) :
    (SInt.checked what i : Act Unit (SInt w)) = Act.ret ⟨i, h.1, h.2⟩ := by
  simp [SInt.checked, h]

theorem i32_val (i : Int) (h : -2147483648 ≤ i ∧ i < 2147483648) : (i32 i).val = i := by
  unfold i32 SInt.clamp
  have h1 : ¬ i < -2 ^ (32 - 1) := by omega
  have h2 : i < 2 ^ (32 - 1) := by omega
  simp only [dif_neg h1, dif_pos h2]

theorem I32.lo' (x : I32) : -2147483648 ≤ x.val := by have := x.lo; omega
theorem I32.hi' (x : I32) : x.val < 2147483648 := by have := x.hi; omega

/-- The arithmetic the tests use: the `saturating_` methods return the representable value nearest to the exact result, and the
operators the exact result, or panic when it is not representable. -/
theorem c82_arithmetic {w : Nat} (a b : SInt w) :
    (a.satAdd b).val = max (-2 ^ (w - 1)) (min (a.val + b.val) (2 ^ (w - 1) - 1)) ∧
    (a.satSub b).val = max (-2 ^ (w - 1)) (min (a.val - b.val) (2 ^ (w - 1) - 1)) ∧
    (a.satMul b).val = max (-2 ^ (w - 1)) (min (a.val * b.val) (2 ^ (w - 1) - 1)) ∧
    (∀ r, a.add b () = (.ok r, ()) ↔ r.val = a.val + b.val) ∧
    (∀ r, a.sub b () = (.ok r, ()) ↔ r.val = a.val - b.val) ∧
    (∀ r, a.mul b () = (.ok r, ()) ↔ r.val = a.val * b.val) := by
  have hc : ∀ i : Int, (SInt.clamp i : SInt w).val = max (-2 ^ (w - 1)) (min i (2 ^ (w - 1) - 1)) := by
    intro i
    have := two_pow_pos' (w - 1)
    unfold SInt.clamp
    split
    · simp only; omega
    · split <;> (simp only; omega)
  have hk : ∀ (s : String) (i : Int) (r : SInt w), SInt.checked s i () = (.ok r, ()) ↔ r.val = i := by
    intro s i r
    unfold SInt.checked
    split
    · simp only [Act.ret, Prod.mk.injEq, Except.ok.injEq, and_true]
      constructor
      · intro h; rw [← h]
      · intro h; cases r; simp only at h; subst h; rfl
    · next h =>
      simp only [Prod.mk.injEq, reduceCtorEq, false_and, false_iff]
      intro e; exact h ⟨e ▸ r.lo, e ▸ r.hi⟩
  exact ⟨hc _, hc _, hc _, hk _ _, hk _ _, hk _ _⟩

/-- Every test of `tests/datatypes/test_validated.rs`. -/
theorem c82_test_validated (value addVal multVal : I32) (errors errors2 : List String) :
    Passes (unwrapOwnedValid value) ∧
    (if errors = [] then Discards (unwrapOwnedInvalid errors) else Passes (unwrapOwnedInvalid errors)) ∧
    Passes (unwrapInvalidInvalid errors) ∧ Passes (unwrapInvalidValid value) ∧
    Passes (intoValueValid value) ∧ Passes (intoValueInvalid errors) ∧
    Passes (intoErrorPayloadInvalid errors) ∧ Passes (intoErrorPayloadValid value) ∧
    Passes (valueAccessorValid value) ∧ Passes (valueAccessorInvalid errors) ∧
    Passes (errorPayloadInvalid errors) ∧ Passes (errorPayloadValid value) ∧
    Passes (validatedFunctorIdentity value) ∧ Passes (validatedFunctorComposition value addVal multVal) ∧
    Passes (fmapPreservesStructure value errors) ∧
    (if errors = [] ∨ errors2 = [] then Discards (errorAccumulation errors errors2)
      else Passes (errorAccumulation errors errors2)) ∧
    Passes (resultRoundtripValid value) ∧ Passes (optionRoundtripValid value) := by
  refine ⟨?_, ?_, ?_, rfl, ?_, ?_, ?_, ?_, ?_, rfl, ?_, rfl, ?_, ?_, ?_, ?_, ?_, ?_⟩
  · exact passes_ofBool (decide_eq_true rfl)
  · split
    · next h => subst h; rfl
    · next h => cases errors with
      | nil => exact absurd rfl h
      | cons e es => rfl
  · exact passes_ofBool (decide_eq_true rfl)
  · exact passes_ofBool (decide_eq_true rfl)
  · exact passes_ofBool (decide_eq_true rfl)
  · exact passes_ofBool (decide_eq_true rfl)
  · exact passes_ofBool (decide_eq_true rfl)
  · exact passes_ofBool (decide_eq_true rfl)
  · exact passes_ofBool (decide_eq_true rfl)
  · exact passes_ofBool (decide_eq_true rfl)
  · have e1 : (i32 100).val = 100 := i32_val 100 (by omega)
    have e2 : (i32 10).val = 10 := i32_val 10 (by omega)
    have e3 : (i32 5).val = 5 := i32_val 5 (by omega)
    have a1 : -100 < value.val.tmod 100 := by have := Int.lt_tmod_of_pos value.val (b := 100) (by omega); omega
    have b1 : value.val.tmod 100 < 100 := Int.tmod_lt_of_pos _ (by omega)
    have a2 : -10 < addVal.val.tmod 10 := by have := Int.lt_tmod_of_pos addVal.val (b := 10) (by omega); omega
    have b2 : addVal.val.tmod 10 < 10 := Int.tmod_lt_of_pos _ (by omega)
    have a3 : -5 < multVal.val.tmod 5 := by have := Int.lt_tmod_of_pos multVal.val (b := 5) (by omega); omega
    have b3 : multVal.val.tmod 5 < 5 := Int.tmod_lt_of_pos _ (by omega)
    unfold validatedFunctorComposition
    generalize hv : value.val.tmod 100 = v at *
    generalize ha : addVal.val.tmod 10 = a at *
    generalize hm : multVal.val.tmod 5 = m at *
    have hlo : -500 < v * m := by
      have : m = -4 ∨ m = -3 ∨ m = -2 ∨ m = -1 ∨ m = 0 ∨ m = 1 ∨ m = 2 ∨ m = 3 ∨ m = 4 := by omega
      rcases this with h | h | h | h | h | h | h | h | h <;> subst h <;> omega
    have hhi : v * m < 500 := by
      have : m = -4 ∨ m = -3 ∨ m = -2 ∨ m = -1 ∨ m = 0 ∨ m = 1 ∨ m = 2 ∨ m = 3 ∨ m = 4 := by omega
      rcases this with h | h | h | h | h | h | h | h | h <;> subst h <;> omega
    simp only [SInt.rem, e1, e2, e3, hv, ha, hm]
    rw [checked_ok (w := 32) _ v (by omega), checked_ok (w := 32) _ a (by omega), checked_ok (w := 32) _ m (by omega)]
    simp only [Act.ret_seq, RFunctorE.fmapE, SInt.mul, SInt.add]
    rw [checked_ok (w := 32) _ (v * m) (by omega)]
    simp only [Act.ret_seq]
    rw [checked_ok (w := 32) _ (v * m + a) (by omega)]
    exact passes_ofBool (decide_eq_true rfl)
  · cases errors with
    | nil => rfl
    | cons e es => rfl
  · cases errors with
    | nil => simp only [true_or, if_true]; rfl
    | cons e es => cases errors2 with
      | nil => simp only [or_true, if_true]; rfl
      | cons e' es' =>
        simp only [reduceCtorEq, or_self, if_false]
        exact passes_ofBool (decide_eq_true (by
          show ((e :: es) ++ (e' :: es')).length = _
          rw [List.length_append]))
  · exact passes_ofBool (decide_eq_true rfl)
  · exact passes_ofBool (decide_eq_true rfl)

example : Passes (validatedFunctorComposition (i32 (-2147483648)) (i32 2147483647) (i32 (-9))) ∧
    Discards (unwrapOwnedInvalid []) ∧ Passes (errorAccumulation ["a"] ["b", "c"]) :=
  ⟨(c82_test_validated _ _ _ [] []).2.2.2.2.2.2.2.2.2.2.2.2.2.1, rfl, rfl⟩

/-- Every test of `tests/datatypes/test_maybe.rs`.  The tests over `Maybe<i32>` discard exactly `Nothing`. -/
theorem c82_test_maybe (x : I32) (m : Maybe I32) :
    (if m = .Nothing then
      Discards (maybeFunctorIdentity m) ∧ Discards (maybeFunctorComposition m) ∧
      Discards (maybeApplicativeIdentity m) ∧ Discards (maybeMonadRightIdentity m) ∧
      Discards (maybeMonadAssociativity m) ∧ Discards (maybePlusLeftIdentity m) ∧
      Discards (maybePlusRightIdentity m)
     else
      Passes (maybeFunctorIdentity m) ∧ Passes (maybeFunctorComposition m) ∧
      Passes (maybeApplicativeIdentity m) ∧ Passes (maybeMonadRightIdentity m) ∧
      Passes (maybeMonadAssociativity m) ∧ Passes (maybePlusLeftIdentity m) ∧
      Passes (maybePlusRightIdentity m)) ∧
    Passes (maybeApplicativeHomomorphism x) ∧ Passes (maybeApplicativeInterchange x) ∧
    Passes (maybeMonadLeftIdentity x) ∧ Passes (maybeLeftZero x) := by
  refine ⟨?_, passes_ofBool (decide_eq_true rfl), passes_ofBool (decide_eq_true rfl),
    passes_ofBool (decide_eq_true rfl), passes_ofBool (decide_eq_true rfl)⟩
  cases m with
  | Nothing => exact ⟨rfl, rfl, rfl, rfl, rfl, rfl, rfl⟩
  | Just v =>
    simp only [reduceCtorEq, if_false]
    exact ⟨passes_ofBool (decide_eq_true rfl), passes_ofBool (decide_eq_true rfl),
      passes_ofBool (decide_eq_true rfl), passes_ofBool (decide_eq_true rfl),
      passes_ofBool (decide_eq_true rfl), passes_ofBool (decide_eq_true rfl),
      passes_ofBool (decide_eq_true rfl)⟩

/-- What `test_maybe.rs` leaves untested: on `Nothing` all its laws hold too, so none of the discards was needed. -/
theorem c82_test_maybe_discards_needless :
    let m : Maybe I32 := .Nothing
    let f := fun x : I32 => x.satAdd (i32 1)
    let g := fun x : I32 => x.satMul (i32 2)
    RFunctor.fmap (fun x => x) m = m ∧
    RFunctor.fmap (fun x => g (f x)) m = RFunctor.fmap g (RFunctor.fmap f m) ∧
    RApplicative.apply (RPure.pure (fun x => x) : Maybe (I32 → I32)) m = m ∧
    RMonad.bind m RPure.pure = m ∧
    RMonad.bind (RMonad.bind m fun x => .Just (f x)) (fun x => .Just (g x)) =
      (RMonad.bind m fun x => RMonad.bind (Maybe.Just (f x)) fun x => .Just (g x)) ∧
    RMonadPlus.mplus (RMonadPlus.mzero : Maybe I32) m = m ∧ RMonadPlus.mplus m RMonadPlus.mzero = m :=
  ⟨rfl, rfl, rfl, rfl, rfl, rfl, rfl⟩

/-- Every test of `tests/traits/test_functor.rs` and of the macro of `tests/laws/mod.rs`. -/
theorem c82_test_functor (x : TestFunctor I32) (y : I32) :
    Passes (functorIdentity x) ∧ Passes (functorComposition x) ∧ Passes (functorFmapOwned x) ∧
    Passes (functorReplace x y) ∧ Passes (functorReplaceOwned x y) ∧ Passes (functorVoid x) ∧
    Passes (functorVoidOwned x) ∧ Passes (functorMapOverDefault x) :=
  ⟨passes_ofBool (decide_eq_true rfl), passes_ofBool (decide_eq_true rfl), passes_ofBool (decide_eq_true rfl),
    passes_ofBool (decide_eq_true rfl), passes_ofBool (decide_eq_true rfl), passes_ofBool (decide_eq_true rfl),
    passes_ofBool (decide_eq_true rfl), passes_ofBool (decide_eq_true rfl)⟩

/-- The test of `tests/traits/test_semigroup.rs`. -/
theorem c82_test_semigroup (x y z : TestFunctor String) : Passes (semigroupAssociativity x y z) :=
  passes_ofBool (decide_eq_true (by
    show TestFunctor.new _ = TestFunctor.new _
    exact congrArg TestFunctor.new (String.append_assoc ..)))

theorem differentValue_spec (x : I32) : ∃ d, differentValue x = Act.ret d ∧ d ≠ x := by
  have h1 : (i32 1).val = 1 := i32_val 1 (by omega)
  have hm : i32Max.val = 2147483647 := i32_val _ (by omega)
  have hlo := I32.lo' x
  have hhi := I32.hi' x
  unfold differentValue
  by_cases h : x = i32Max
  · have hx : x.val = 2147483647 := by rw [h, hm]
    rw [if_pos h, SInt.sub, h1]
    refine ⟨⟨x.val - 1, by omega, by omega⟩, checked_ok (w := 32) _ _ (by omega), ?_⟩
    intro he
    have := congrArg SInt.val he
    simp only at this
    omega
  · have hx : x.val ≠ 2147483647 := by
      intro hv
      apply h
      cases x
      simp only at hv
      subst hv
      rfl
    rw [if_neg h, SInt.add, h1]
    refine ⟨⟨x.val + 1, by omega, by omega⟩, checked_ok (w := 32) _ _ (by omega), ?_⟩
    intro he
    have := congrArg SInt.val he
    simp only at this
    omega

/-- Every test of `tests/traits/test_foldable.rs`; none of the products, sums and differences overflows. -/
theorem c82_test_foldable (x : I32) :
    Passes (foldLeftIdentity x) ∧ Passes (foldLeftRightConsistency x) ∧ Passes (foldLeftWithDefault x) ∧
    Passes (findSome x) ∧ Passes (findNone x) ∧ Passes (allTrue x) ∧ Passes (allFalse x) ∧
    Passes (anyTrue x) ∧ Passes (anyFalse x) ∧ Passes (containsTrue x) ∧ Passes (containsFalse x) := by
  have h0 : (i32 0).val = 0 := i32_val 0 (by omega)
  have h1 : (i32 1).val = 1 := i32_val 1 (by omega)
  have hlo := I32.lo' x
  have hhi := I32.hi' x
  obtain ⟨d, hd, hne⟩ := differentValue_spec x
  refine ⟨passes_assert (decide_eq_true rfl), ?_, ?_, ?_, ?_, ?_, ?_, ?_, ?_, ?_, ?_⟩
  · simp only [foldLeftRightConsistency, TestFunctor.foldLeftE, TestFunctor.foldRightE, SInt.mul, h1,
      Int.one_mul, Int.mul_one]
    rw [checked_ok (w := 32) _ x.val (by omega)]
    exact passes_assert (decide_eq_true rfl)
  · simp only [foldLeftWithDefault, TestFunctor.foldLeftE, SInt.add, h0, Int.zero_add]
    rw [checked_ok (w := 32) _ x.val (by omega)]
    exact passes_assert (decide_eq_true rfl)
  · exact passes_assert (by simp [ffind, RFoldable.foldLeft])
  · simp only [findNone, hd, Act.ret_seq]
    exact passes_assert (by simp [ffind, RFoldable.foldLeft, Ne.symm hne])
  · exact passes_assert (by simp [fall, RFoldable.foldLeft])
  · exact passes_assert (by simp [fall, RFoldable.foldLeft])
  · exact passes_assert (by simp [fany, RFoldable.foldLeft])
  · exact passes_assert (by simp [fany, RFoldable.foldLeft])
  · exact passes_assert (by simp [fcontains, fany, RFoldable.foldLeft])
  · simp only [containsFalse, hd, Act.ret_seq]
    exact passes_assert (by simp [fcontains, fany, RFoldable.foldLeft, Ne.symm hne])

example : Passes (findNone i32Max) ∧ Passes (containsFalse (i32 (-2147483648))) :=
  ⟨(c82_test_foldable _).2.2.2.2.1, (c82_test_foldable _).2.2.2.2.2.2.2.2.2.2⟩

theorem loopFrom1_eq (x : TestMonoid I32) (n : Nat) :
    loopFrom1 n (fun r => combineOwned r x) x = expectedTimes x n := by
  simp only [loopFrom1, expectedTimes]
  generalize n - 1 = k
  suffices h : ∀ (l l' : List Nat) (acc : TestMonoid I32), l.length = l'.length →
      l.foldl (fun r _ => combineOwned r x) acc = l'.foldl (fun r _ => combine r x) acc by
    exact h _ _ _ (by simp)
  intro l
  induction l with
  | nil => intro l' acc h; cases l' with | nil => rfl | cons _ _ => simp at h
  | cons a l ih =>
    intro l' acc h
    cases l' with
    | nil => simp at h
    | cons b l' => exact ih l' _ (by simpa using h)

/-- Every test of `tests/traits/test_monoid.rs`, for lists of any length. -/
theorem c82_test_monoid (x a b c : TestMonoid I32) (s t u : String) (l m r : List I32)
    (xs : List (TestMonoid I32)) (n : Nat) :
    Passes (monoidLeftIdentity x) ∧ Passes (monoidRightIdentity x) ∧ Passes (monoidAssociativity a b c) ∧
    Passes (monoidAssociativityOwned a b c) ∧ Passes (stringMonoidLaws s t u) ∧ Passes (vecMonoidLaws l m r) ∧
    Passes (isEmptyMonoidTest x) ∧ Passes (repeatTest x n) ∧ Passes (mconcatTest xs) ∧
    Passes (powerTest x n) := by
  refine ⟨?_, ?_, ?_, ?_, ?_, ?_, ?_, ?_, ?_, ?_⟩
  · exact passes_ofBool (decide_eq_true rfl)
  · exact passes_ofBool (decide_eq_true (congrArg TestMonoid.new (List.append_nil _)))
  · exact passes_ofBool (decide_eq_true (congrArg TestMonoid.new (List.append_assoc ..)))
  · exact passes_ofBool (decide_eq_true (congrArg TestMonoid.new (List.append_assoc ..)))
  · refine passes_ofBool ?_
    have h1 : combineOwned (RMonoid.empty : String) s = s := String.empty_append
    have h2 : combineOwned s (RMonoid.empty : String) = s := String.append_empty
    have h3 : combineOwned (combineOwned s t) u = combineOwned s (combineOwned t u) := String.append_assoc ..
    simp only [h1, h2, h3, decide_true, Bool.and_true]
  · refine passes_ofBool ?_
    have h1 : combineOwned (RMonoid.empty : List I32) l = l := List.nil_append _
    have h2 : combineOwned l (RMonoid.empty : List I32) = l := List.append_nil _
    have h3 : combineOwned (combineOwned l m) r = combineOwned l (combineOwned m r) := List.append_assoc ..
    simp only [h1, h2, h3, decide_true, Bool.and_true]
  · refine passes_ofBool ?_
    simp only [isEmptyMonoid, beq_self_eq_true, Bool.true_and]
    by_cases h : x = RMonoid.empty
    · simp [h]
    · simp [h]
  · simp only [repeatTest]
    generalize n % 10 = k
    split
    · next h => subst h; exact passes_ofBool (decide_eq_true rfl)
    · next h =>
      refine passes_ofBool (decide_eq_true ?_)
      by_cases h1 : k = 1
      · subst h1; rfl
      · rw [repeat', if_neg h, if_neg h1, loopFrom1_eq]
  · cases xs with
    | nil => exact passes_ofBool (decide_eq_true rfl)
    | cons y ys => exact passes_ofBool (decide_eq_true rfl)
  · simp only [powerTest]
    generalize n % 10 = k
    match k with
    | 0 => exact passes_ofBool (decide_eq_true rfl)
    | 1 => exact passes_ofBool (decide_eq_true rfl)
    | k + 2 =>
      simp only [Nat.reduceEqDiff]
      refine passes_ofBool (decide_eq_true ?_)
      show repeat' x (k + 2) = _
      rw [repeat', if_neg (by omega), if_neg (by omega), loopFrom1_eq]

/-- Every test of `tests/traits/test_applicative.rs`. -/
theorem c82_test_applicative (x : TestFunctor I32) (a b c : I32) :
    Passes (applicativeIdentity x) ∧ Passes (applicativeHomomorphism a) ∧ Passes (applicativeInterchange a) ∧
    Passes (applicativeComposition a) ∧ Passes (applicativeLift2 a b) ∧ Passes (applicativeLift3 a b c) ∧
    Passes (applicativeSequenceRight a b) ∧ Passes (applicativeSequenceLeft a b) ∧
    Passes (applicativeApply a) ∧ Passes (applicativeLift2Owned a b) ∧ Passes (applicativeLift3Owned a b c) :=
  ⟨passes_ofBool (decide_eq_true rfl), passes_ofBool (decide_eq_true rfl), passes_ofBool (decide_eq_true rfl),
    passes_ofBool (decide_eq_true rfl), passes_ofBool (decide_eq_true rfl), passes_ofBool (decide_eq_true rfl),
    passes_ofBool (decide_eq_true rfl), passes_ofBool (decide_eq_true rfl), passes_ofBool (decide_eq_true rfl),
    passes_ofBool (decide_eq_true rfl), passes_ofBool (decide_eq_true rfl)⟩

/-- Every property test of `tests/traits/test_monad.rs`. -/
theorem c82_test_monad (x : I32) :
    Passes (optionLeftIdentity x) ∧ Passes (optionRightIdentity x) ∧ Passes (optionAssociativity x) ∧
    Passes (optionApplicativeConsistency x) :=
  ⟨passes_ofBool (decide_eq_true rfl), passes_ofBool (decide_eq_true rfl), passes_ofBool (decide_eq_true rfl),
    passes_ofBool (decide_eq_true rfl)⟩

/-- The values of a `TestBifunctor` are at most 1499 away from zero. -/
def Small (x : TestBifunctor I32 I32) : Prop :=
  -1499 ≤ x.left.val ∧ x.left.val ≤ 1499 ∧ -1499 ≤ x.right.val ∧ x.right.val ≤ 1499

theorem rem_sub (l : I32) : ∃ v : I32, ((l.rem (i32 1000)).seq fun x => x.sub (i32 500)) = Act.ret v ∧
    -1499 ≤ v.val ∧ v.val ≤ 499 ∧ v.val = l.val.tmod 1000 - 500 := by
  have e1 : (i32 1000).val = 1000 := i32_val _ (by omega)
  have e2 : (i32 500).val = 500 := i32_val _ (by omega)
  have a1 : -1000 < l.val.tmod 1000 := by have := Int.lt_tmod_of_pos l.val (b := 1000) (by omega); omega
  have b1 : l.val.tmod 1000 < 1000 := Int.tmod_lt_of_pos _ (by omega)
  simp only [SInt.rem, SInt.sub, e1, e2]
  generalize l.val.tmod 1000 = v at *
  rw [checked_ok (w := 32) _ v (by omega)]
  refine ⟨⟨v - 500, by omega, by omega⟩, ?_, by simp only; omega, by simp only; omega, rfl⟩
  exact checked_ok (w := 32) _ (v - 500) (by omega)

/-- The generator of `TestBifunctor` never panics and only makes small values; so does its shrinker, whenever the
integer shrinker of the crate stays within the magnitude of its argument. -/
theorem c82_test_bifunctor_generator (l r : I32) (sh : I32 → List I32)
    (hsh : ∀ x y, y ∈ sh x → y.val.natAbs ≤ x.val.natAbs) :
    (∃ x, TestBifunctor.arbitrary l r () = (.ok x, ()) ∧ Small x ∧
      x.left.val = l.val.tmod 1000 - 500 ∧ x.right.val = r.val.tmod 1000 - 500) ∧
    ∀ x y, Small x → y ∈ TestBifunctor.shrink sh x → Small y := by
  constructor
  · obtain ⟨v, hv, h1, h2, h3⟩ := rem_sub l
    obtain ⟨u, hu, h4, h5, h6⟩ := rem_sub r
    refine ⟨.new v u, ?_, ⟨h1, by simp only; omega, h4, by simp only; omega⟩, h3, h6⟩
    simp only [TestBifunctor.arbitrary, hv, hu, Act.ret_seq]
    rfl
  · intro x y hx hy
    obtain ⟨h1, h2, h3, h4⟩ := hx
    simp only [TestBifunctor.shrink, List.mem_append, List.mem_flatMap, List.mem_map, List.mem_singleton] at hy
    rcases hy with ⟨a', ha, ⟨b', hb, rfl⟩ | rfl⟩ | ⟨b', hb, rfl⟩
    · have := hsh _ _ ha
      have := hsh _ _ hb
      exact ⟨by simp only; omega, by simp only; omega, by simp only; omega, by simp only; omega⟩
    · have := hsh _ _ ha
      exact ⟨by simp only; omega, by simp only; omega, h3, h4⟩
    · have := hsh _ _ hb
      exact ⟨h1, h2, by simp only; omega, by simp only; omega⟩

/-- A shrinker as the hypothesis of `c82_test_bifunctor_generator` wants it: the value zero, then the value itself
(the crate yields other values, all nearer to zero). -/
example : ∀ x y : I32, y ∈ [i32 0, x] → y.val.natAbs ≤ x.val.natAbs := by
  intro x y h
  rcases List.mem_cons.1 h with rfl | h
  · have : (i32 0).val = 0 := i32_val 0 (by omega)
    omega
  · rw [List.mem_singleton.1 h]
    exact Nat.le_refl _

/-- Every test of `tests/traits/test_bifunctor.rs`, on every value that its generator or its shrinker can make. -/
theorem c82_test_bifunctor (bf : TestBifunctor I32 I32) (h : Small bf) :
    Passes (bifunctorIdentity bf) ∧ Passes (bifunctorFirstSecond bf) ∧ Passes (bifunctorComposition bf) ∧
    Passes (bifunctorStructure bf) := by
  obtain ⟨h1, h2, h3, h4⟩ := h
  have e1 : (i32 1).val = 1 := i32_val 1 (by omega)
  have e2 : (i32 2).val = 2 := i32_val 2 (by omega)
  refine ⟨passes_ofBool (decide_eq_true rfl), ?_, ?_, ?_⟩
  · simp only [bifunctorFirstSecond, TestBifunctor.first, TestBifunctor.second, TestBifunctor.bimap,
      SInt.add, SInt.mul, e1, e2]
    rw [checked_ok (w := 32) _ (bf.left.val + 1) (by omega), checked_ok (w := 32) _ (bf.right.val * 2) (by omega)]
    exact passes_ofBool (by simp)
  · have hd : -1499 ≤ bf.right.val.tdiv 2 ∧ bf.right.val.tdiv 2 ≤ 1499 := by
      rcases Int.le_total 0 bf.right.val with hp | hn
      · rw [Int.tdiv_eq_ediv_of_nonneg hp]; omega
      · have : bf.right.val.tdiv 2 = -((-bf.right.val).tdiv 2) := by rw [Int.neg_tdiv, Int.neg_neg]
        rw [this, Int.tdiv_eq_ediv_of_nonneg (by omega)]
        omega
    simp only [bifunctorComposition, TestBifunctor.bimap, SInt.add, SInt.mul, SInt.sub, SInt.div, e1, e2]
    rw [checked_ok (w := 32) _ (bf.left.val * 2) (by omega), checked_ok (w := 32) _ (bf.right.val.tdiv 2) (by omega)]
    simp only [Act.ret_seq]
    rw [checked_ok (w := 32) _ (bf.left.val * 2 + 1) (by omega),
      checked_ok (w := 32) _ (bf.right.val.tdiv 2 - 1) (by omega)]
    exact passes_ofBool (decide_eq_true rfl)
  · exact passes_ofBool (by simp)

example : Small (.new (i32 (-1499)) (i32 499)) := by
  refine ⟨?_, ?_, ?_, ?_⟩ <;> decide

/-- The limit in the generator is needed: on `i32::MAX` two of the tests panic. -/
theorem c82_test_bifunctor_unlimited_panics :
    Panics (bifunctorFirstSecond (.new i32Max i32Max)) ∧ Panics (bifunctorComposition (.new i32Max i32Max)) :=
  ⟨⟨_, rfl⟩, ⟨_, rfl⟩⟩

/-- Every property test of `tests/traits_impl_option_result/applicative_laws.rs`. -/
theorem c82_test_option_result_applicative (x : I32) (e e' : I8) (b b' : Bool) (v : Option I32)
    (w : Except I8 I32) :
    Passes (apOptionIdentity v) ∧ Passes (apResultIdentity x e b) ∧ Passes (apOptionHomomorphism x) ∧
    Passes (apResultHomomorphism x) ∧ Passes (apOptionInterchange x b) ∧ Passes (apResultInterchange x b e) ∧
    Passes (apOptionComposition v b b') ∧ Passes (apResultComposition w b e b' e') := by
  refine ⟨?_, ?_, passes_ofBool (decide_eq_true rfl), passes_ofBool (decide_eq_true rfl), ?_, ?_, ?_, ?_⟩
  · cases v <;> exact passes_ofBool (decide_eq_true rfl)
  · cases b <;> exact passes_ofBool (decide_eq_true rfl)
  · cases b <;> exact passes_ofBool (decide_eq_true rfl)
  · cases b <;> exact passes_ofBool (decide_eq_true rfl)
  · cases v <;> cases b <;> cases b' <;> exact passes_ofBool (decide_eq_true rfl)
  · cases w <;> cases b <;> cases b' <;> exact passes_ofBool (decide_eq_true rfl)

/-- Every property test of `tests/traits_impl_option_result/functor_laws.rs`. -/
theorem c82_test_option_result_functor (x : I32) (e : I8) (b : Bool) (v : Option I32) (w : Except I8 I32) :
    Passes (fnOptionIdentity v) ∧ Passes (fnResultIdentity x e b) ∧ Passes (fnOptionComposition v) ∧
    Passes (fnResultComposition w) ∧ Passes (fnOptionStructure v) ∧ Passes (fnResultStructure w) := by
  refine ⟨?_, ?_, ?_, ?_, ?_, ?_⟩
  · cases v <;> exact passes_ofBool (decide_eq_true rfl)
  · cases b <;> exact passes_ofBool (decide_eq_true rfl)
  · cases v <;> exact passes_ofBool (decide_eq_true rfl)
  · cases w <;> exact passes_ofBool (decide_eq_true rfl)
  · cases v <;> exact passes_ofBool rfl
  · cases w <;> exact passes_ofBool rfl

/-- Every property test of `tests/traits_impl_option_result/monad_laws.rs`. -/
theorem c82_test_option_result_monad (x : I32) (e : I8) (b : Bool) (v : Option I32) (w : Except I8 I32) :
    Passes (mnOptionJoin v) ∧ Passes (mnResultJoin w) ∧ Passes (mnResultLeftIdentity x) ∧
    Passes (mnResultRightIdentity x e b) ∧ Passes (mnResultAssociativity x e b) := by
  refine ⟨?_, ?_, passes_ofBool (decide_eq_true rfl), ?_, ?_⟩
  · cases v <;> exact passes_ofBool (decide_eq_true rfl)
  · cases w <;> exact passes_ofBool (decide_eq_true rfl)
  · cases b <;> exact passes_ofBool (decide_eq_true rfl)
  · cases b <;> exact passes_ofBool (decide_eq_true rfl)

end Rustica.QC
