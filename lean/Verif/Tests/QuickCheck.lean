import Verif.Data.Std
import Verif.Data.Maybe
import Verif.Data.Validated
import Verif.Error.Convert
import Verif.Traits.Helpers
import Verif.Calls.Model

/-!
# The property tests of `tests/`

Every function that the repository hands to QuickCheck, one definition per function.  A test is a piece of code
that may panic (`Act Unit`), ending in one of the verdicts of `quickcheck::TestResult`.  `bool` results and
`TestResult::from_bool` are the same verdicts; a test returning `()` passes unless one of its `assert!`s panics.

Machine integers are bounded (`SInt`).  `+`, `-`, `*` panic on overflow, as in the debug profile that `cargo test`
uses; the `saturating_` methods clamp.  The error types of the tests (`String`, `i8`) are kept.

`==` on the Rust side is the derived `PartialEq`, here decidable equality.
-/

namespace Rustica.QC

deriving instance DecidableEq for Except

/-! ## Machine integers -/

/-- A signed machine integer of `w` bits: `i8`, `i32`, `i64`. -/
structure SInt (w : Nat) where
  val : Int
  lo : -2 ^ (w - 1) ≤ val
  hi : val < 2 ^ (w - 1)
deriving DecidableEq

/-- `i32`. -/
abbrev I32 := SInt 32
/-- `i64`. -/
abbrev I64 := SInt 64
/-- `i8`. -/
abbrev I8 := SInt 8

theorem two_pow_pos' (n : Nat) : (0 : Int) < 2 ^ n := Int.pow_pos (by decide)

namespace SInt
variable {w : Nat}

/-- The value nearest to `i`: what the `saturating_` methods return for the exact result `i`. -/
def clamp (i : Int) : SInt w :=
  if h : i < -2 ^ (w - 1) then ⟨-2 ^ (w - 1), by omega, by have := two_pow_pos' (w - 1); omega⟩
  else if h' : i < 2 ^ (w - 1) then ⟨i, by omega, h'⟩
  else ⟨2 ^ (w - 1) - 1, by have := two_pow_pos' (w - 1); omega, by omega⟩

/-- `saturating_add`. -/
def satAdd (a b : SInt w) : SInt w := clamp (a.val + b.val)
/-- `saturating_sub`. -/
def satSub (a b : SInt w) : SInt w := clamp (a.val - b.val)
/-- `saturating_mul`. -/
def satMul (a b : SInt w) : SInt w := clamp (a.val * b.val)

/-- The exact result `i` of an arithmetic operation, or the overflow panic of the debug profile. -/
def checked (what : String) (i : Int) : Act Unit (SInt w) :=
  if h : -2 ^ (w - 1) ≤ i ∧ i < 2 ^ (w - 1) then Act.ret ⟨i, h.1, h.2⟩
  else fun u => (.error (.str s!"attempt to {what} with overflow"), u)

/-- `a + b`. -/
def add (a b : SInt w) : Act Unit (SInt w) := checked "add" (a.val + b.val)
/-- `a - b`. -/
def sub (a b : SInt w) : Act Unit (SInt w) := checked "subtract" (a.val - b.val)
/-- `a * b`. -/
def mul (a b : SInt w) : Act Unit (SInt w) := checked "multiply" (a.val * b.val)
/-- `a % b` for `b ≠ 0`: the remainder of the division rounding to zero. -/
def rem (a b : SInt w) : Act Unit (SInt w) := checked "calculate the remainder" (a.val.tmod b.val)
/-- `a / b` for `b ≠ 0`: the quotient rounded to zero. -/
def div (a b : SInt w) : Act Unit (SInt w) := checked "divide" (a.val.tdiv b.val)
end SInt

/-- An `i32` literal. -/
def i32 (i : Int) : I32 := SInt.clamp i

/-- `i32::MAX`. -/
def i32Max : I32 := i32 2147483647

/-- `*x as i64`. -/
def toI64 (x : I32) : I64 :=
  ⟨x.val, Int.le_trans (by decide) x.lo, Int.lt_of_lt_of_le x.hi (by decide)⟩

/-! ## Verdicts -/

/-- The verdicts of `quickcheck::TestResult` (a panic of the test is reported as a failure by the runner, here it
stays a panic). -/
inductive Verdict
  | passed | failed | discarded
deriving DecidableEq, Repr

/-- A test: code that may panic, with a verdict. -/
abbrev Test := Act Unit Verdict

/-- `bool` as a verdict; `TestResult::from_bool`. -/
def ofBool (b : Bool) : Test := Act.ret (if b then .passed else .failed)
/-- `TestResult::discard()`. -/
def discard : Test := Act.ret .discarded
/-- `assert!(b)` as the last statement of a test returning `()`. -/
def assert (b : Bool) : Test := fun u => if b then (.ok .passed, u) else (.error .other, u)
/-- The code of a panicking accessor: `none` of the model is its panic. -/
def orPanic {A : Type} : Option A → Act Unit A
  | some a => Act.ret a
  | none => fun u => (.error .other, u)

/-! ## `tests/datatypes/test_validated.rs` -/

section Validated
open Validated

/-- `prop_unwrap_owned_on_valid_returns_value` (`test_validated.rs` 1262-1265). -/
def unwrapOwnedValid (value : I32) : Test :=
  (orPanic (unwrap (Valid value : Validated String I32))).seq fun x => ofBool (x = value)

/-- `prop_unwrap_owned_on_invalid_panics` (1268-1279). -/
def unwrapOwnedInvalid (errors : List String) : Test :=
  if errors.isEmpty then discard
  else
    let smallErrors := errors
    if smallErrors.isEmpty then discard
    else
      (orPanic (unwrap (Invalid smallErrors : Validated String I32))).catchUnwind.seq fun result =>
        ofBool (match result with | .error _ => true | .ok _ => false)

/-- `prop_unwrap_invalid_owned_on_invalid_returns_errors` (1283-1287). -/
def unwrapInvalidInvalid (errors : List String) : Test :=
  (orPanic (unwrapInvalid (Invalid errors : Validated String I32))).seq fun es => ofBool (es = errors)

/-- `prop_unwrap_invalid_owned_on_valid_panics` (1290-1294). -/
def unwrapInvalidValid (value : I32) : Test :=
  (orPanic (unwrapInvalid (Valid value : Validated String I32))).catchUnwind.seq fun result =>
    ofBool (match result with | .error _ => true | .ok _ => false)

/-- `prop_into_value_on_valid_returns_ok_value` (1298-1304). -/
def intoValueValid (value : I32) : Test :=
  ofBool (match intoValue (Valid value : Validated String I32) with
    | .ok val => val = value
    | .error _ => false)

/-- `prop_into_value_on_invalid_returns_err_errors` (1307-1314). -/
def intoValueInvalid (errors : List String) : Test :=
  ofBool (match intoValue (Invalid errors : Validated String I32) with
    | .ok _ => false
    | .error errs => errs = errors)

/-- `prop_into_error_payload_on_invalid_returns_ok_errors` (1318-1325). -/
def intoErrorPayloadInvalid (errors : List String) : Test :=
  ofBool (match intoErrorPayload (Invalid errors : Validated String I32) with
    | .ok errs => errs = errors
    | .error _ => false)

/-- `prop_into_error_payload_on_valid_returns_err_value` (1328-1334). -/
def intoErrorPayloadValid (value : I32) : Test :=
  ofBool (match intoErrorPayload (Valid value : Validated String I32) with
    | .ok _ => false
    | .error val => val = value)

/-- `prop_value_accessor_on_valid_returns_some_ref_value` (1338-1341). -/
def valueAccessorValid (value : I32) : Test :=
  (orPanic (unwrap (Valid value : Validated String I32))).seq fun x => ofBool (x = value)

/-- `prop_value_accessor_on_invalid_returns_none` (1344-1351). -/
def valueAccessorInvalid (errors : List String) : Test :=
  ofBool (match intoValue (Invalid errors : Validated String I32) with
    | .ok _ => false
    | .error _ => true)

/-- `prop_error_payload_accessor_on_invalid_returns_some_ref_errors` (1355-1359). -/
def errorPayloadInvalid (errors : List String) : Test :=
  ofBool (errorPayload (Invalid errors : Validated String I32) = some errors)

/-- `prop_error_payload_accessor_on_valid_returns_none` (1362-1365). -/
def errorPayloadValid (value : I32) : Test :=
  ofBool (errorPayload (Valid value : Validated String I32)).isNone

/-- `prop_functor_identity_law` (1369-1372). -/
def validatedFunctorIdentity (value : I32) : Test :=
  let v : Validated String I32 := Valid value
  ofBool (RFunctor.fmap (fun x => x) v = v)

/-- `prop_functor_composition_law` (1375-1388); the closures may overflow, hence `fmapE`. -/
def validatedFunctorComposition (value addVal multVal : I32) : Test :=
  (value.rem (i32 100)).seq fun safeValue =>
  (addVal.rem (i32 10)).seq fun safeAdd =>
  (multVal.rem (i32 5)).seq fun safeMult =>
  let v : Validated String I32 := Valid safeValue
  let f := fun x : I32 => x.add safeAdd
  let g := fun x : I32 => x.mul safeMult
  (RFunctorE.fmapE (fun x => (g x).seq f) v).seq fun lhs =>
  ((RFunctorE.fmapE g v).seq (RFunctorE.fmapE f)).seq fun rhs =>
  ofBool (lhs = rhs)

/-- `prop_fmap_preserves_structure` (1392-1404). -/
def fmapPreservesStructure (value : I32) (errors : List String) : Test :=
  let valid : Validated String I32 := Valid value
  if errors.isEmpty then ofBool true
  else
    let invalid : Validated String I32 := invalidMany errors
    ofBool ((RFunctor.fmap (fun x : I32 => x.satMul (i32 2)) valid).isValid &&
      (RFunctor.fmap (fun x : I32 => x.satMul (i32 2)) invalid).isInvalid)

/-- `prop_error_accumulation_preserves_all_errors` (1408-1423). -/
def errorAccumulation (errors1 errors2 : List String) : Test :=
  if errors1.isEmpty || errors2.isEmpty then discard
  else
    let v1 : Validated String I32 := invalidMany errors1
    let v2 : Validated String I32 := invalidMany errors2
    (RApplicativeE.lift2E (fun a b : I32 => a.add b) v1 v2).seq fun combined =>
    ofBool (combined.errors.length = errors1.length + errors2.length)

/-- `prop_result_conversion_roundtrip_valid` (1427-1432). -/
def resultRoundtripValid (value : I32) : Test :=
  (orPanic (Validated.toResult (Valid value : Validated String I32))).seq fun result =>
  ofBool (Validated.fromResult result = Valid value)

/-- `prop_option_conversion_roundtrip_valid` (1435-1440). -/
def optionRoundtripValid (value : I32) : Test :=
  let option := toOption (Valid value : Validated String I32)
  ofBool (Validated.fromOption option "error" = Valid value)

end Validated

/-! ## `tests/datatypes/test_maybe.rs` -/

section MaybeTests
open Maybe

/-- `functor_identity` (`test_maybe.rs` 13-18). -/
def maybeFunctorIdentity (m : Maybe I32) : Test :=
  if m.isNothing then discard else ofBool (RFunctor.fmap (fun x => x) m = m)

/-- `functor_composition` (24-31). -/
def maybeFunctorComposition (m : Maybe I32) : Test :=
  if m.isNothing then discard
  else
    let f := fun x : I32 => x.satAdd (i32 1)
    let g := fun x : I32 => x.satMul (i32 2)
    ofBool (RFunctor.fmap (fun x => g (f x)) m = RFunctor.fmap g (RFunctor.fmap f m))

/-- `applicative_identity` (39-46). -/
def maybeApplicativeIdentity (v : Maybe I32) : Test :=
  if v.isNothing then discard
  else
    let pureId : Maybe (I32 → I32) := RPure.pure fun x => x
    ofBool (RApplicative.apply pureId v = v)

/-- `applicative_homomorphism` (52-57). -/
def maybeApplicativeHomomorphism (x : I32) : Test :=
  let f := fun val : I32 => val.satAdd (i32 1)
  let pureF : Maybe (I32 → I32) := RPure.pure f
  let pureX : Maybe I32 := RPure.pure x
  ofBool (RApplicative.apply pureF pureX = RPure.pure (f x))

/-- `applicative_interchange` (63-76). -/
def maybeApplicativeInterchange (y : I32) : Test :=
  let u : Maybe (I32 → I32) := Just fun x => x.satMul (i32 2)
  let pureY : Maybe I32 := RPure.pure y
  let left := RApplicative.apply u pureY
  let pureApplyToY : Maybe ((I32 → I32) → I32) := RPure.pure fun g => g y
  let right := RApplicative.apply pureApplyToY u
  ofBool (left = right)

/-- `monad_left_identity` (84-87). -/
def maybeMonadLeftIdentity (x : I32) : Test :=
  let f := fun val : I32 => Just (val.satMul (i32 2))
  ofBool (RMonad.bind (RPure.pure x : Maybe I32) f = f x)

/-- `monad_right_identity` (93-98). -/
def maybeMonadRightIdentity (m : Maybe I32) : Test :=
  if m.isNothing then discard else ofBool (RMonad.bind m RPure.pure = m)

/-- `monad_associativity` (104-111). -/
def maybeMonadAssociativity (m : Maybe I32) : Test :=
  if m.isNothing then discard
  else
    let f := fun x : I32 => Just (x.satAdd (i32 10))
    let g := fun x : I32 => Just (x.satMul (i32 2))
    ofBool (RMonad.bind (RMonad.bind m f) g = RMonad.bind m fun x => RMonad.bind (f x) g)

/-- `monad_plus_left_identity` (119-124). -/
def maybePlusLeftIdentity (m : Maybe I32) : Test :=
  if m.isNothing then discard else ofBool (RMonadPlus.mplus (RMonadPlus.mzero : Maybe I32) m = m)

/-- `monad_plus_right_identity` (130-135). -/
def maybePlusRightIdentity (m : Maybe I32) : Test :=
  if m.isNothing then discard else ofBool (RMonadPlus.mplus m (RMonadPlus.mzero : Maybe I32) = m)

/-- `left_zero` (141-144); the closure may overflow, hence `bindE`. -/
def maybeLeftZero (_ : I32) : Test :=
  let f := fun val : I32 => (val.add (i32 1)).seq fun b => Act.ret (Just b)
  (RMonadE.bindE (RMonadPlus.mzero : Maybe I32) f).seq fun r => ofBool (r = RMonadPlus.mzero)

end MaybeTests

/-! ## The test types of `tests/traits` -/

/-- `TestFunctor<T>` (`tests/traits/mod.rs` 22), without the phantom field. -/
structure TestFunctor (T : Type) where
  new ::
  val : T
deriving DecidableEq

/-- `Pure`, `Functor`, `Applicative` and `Monad` for `TestFunctor` (`mod.rs` 52-170). -/
instance : RMonad TestFunctor where
  pure a := .new a
  fmap f x := .new (f x.val)
  fmapOwned f x := .new (f x.val)
  apply f x := .new (f.val x.val)
  lift2 f a b := .new (f a.val b.val)
  lift3 f a b c := .new (f a.val b.val c.val)
  applyOwned f x := .new (f.val x.val)
  lift2Owned f a b := .new (f a.val b.val)
  lift3Owned f a b c := .new (f a.val b.val c.val)
  bind m f := f m.val
  bindOwned m f := f m.val
  join into m := into m.val
  joinOwned into m := into m.val

/-- `Semigroup for TestFunctor<T>` (`mod.rs` 227-235). -/
instance {T : Type} [RSemigroup T] : RSemigroup (TestFunctor T) where
  combine x y := .new (combine x.val y.val)
  combineOwned x y := .new (combine x.val y.val)

/-- `Foldable for TestFunctor<T>` (`mod.rs` 246-260). -/
instance : RFoldable TestFunctor where
  foldLeft x init f := f init x.val
  foldRight x init f := f x.val init

/-- `fold_left` of `TestFunctor` with a closure that may panic (`mod.rs` 247-252). -/
def TestFunctor.foldLeftE {T U : Type} (x : TestFunctor T) (init : U) (f : U → T → Act Unit U) : Act Unit U :=
  f init x.val
/-- `fold_right` of `TestFunctor` with a closure that may panic (`mod.rs` 254-259). -/
def TestFunctor.foldRightE {T U : Type} (x : TestFunctor T) (init : U) (f : T → U → Act Unit U) : Act Unit U :=
  f x.val init

/-! ## `tests/laws/mod.rs` and `tests/traits/test_functor.rs` -/

/-- `functor_identity` of the macro `test_functor_laws!` (`laws/mod.rs` 8-11) for `TestFunctor<i32>`
(`test_functor.rs` 5-11). -/
def functorIdentity (x : TestFunctor I32) : Test := ofBool (RFunctor.fmap (fun a => a) x = x)

/-- `functor_composition` of the macro (`laws/mod.rs` 14-20), with the functions of `test_functor.rs` 9-10. -/
def functorComposition (x : TestFunctor I32) : Test :=
  let f := fun a : I32 => a.satAdd (i32 1)
  let g := fun a : I32 => a.satMul (i32 2)
  ofBool (RFunctor.fmap (fun a => g (f a)) x = RFunctor.fmap g (RFunctor.fmap f x))

/-- `functor_fmap_owned` (`test_functor.rs` 14-18). -/
def functorFmapOwned (x : TestFunctor I32) : Test :=
  let f := fun x : I32 => x.satMul (i32 2)
  ofBool (RFunctor.fmapOwned f x = .new (f x.val))

/-- `functor_replace` (21-24). -/
def functorReplace (x : TestFunctor I32) (y : I32) : Test := ofBool (replace x y = .new y)
/-- `functor_replace_owned` (27-30). -/
def functorReplaceOwned (x : TestFunctor I32) (y : I32) : Test := ofBool (replaceOwned x y = .new y)
/-- `functor_void` (33-36). -/
def functorVoid (x : TestFunctor I32) : Test := ofBool (void x = .new ())
/-- `functor_void_owned` (39-42). -/
def functorVoidOwned (x : TestFunctor I32) : Test := ofBool (voidOwned x = .new ())
/-- `functor_map_over_default` (45-49). -/
def functorMapOverDefault (x : TestFunctor I32) : Test :=
  let f := fun x : I32 => x.satAdd (i32 1)
  ofBool (RFunctor.fmap f x = .new (f x.val))

/-! ## `tests/traits/test_semigroup.rs` -/

/-- `semigroup_associativity` (`test_semigroup.rs` 7-11). -/
def semigroupAssociativity (x y z : TestFunctor String) : Test :=
  ofBool (combine (combine x y) z = combine x (combine y z))

/-! ## `tests/traits/test_foldable.rs` -/

/-- `test_fold_left_identity` (`test_foldable.rs` 22-26). -/
def foldLeftIdentity (x : I32) : Test :=
  assert (RFoldable.foldLeft (TestFunctor.new x) (i32 0) (fun acc _ => acc) = i32 0)

/-- `test_fold_left_right_consistency` (36-41). -/
def foldLeftRightConsistency (x : I32) : Test :=
  ((TestFunctor.new x).foldLeftE (i32 1) fun acc x => acc.mul x).seq fun left =>
  ((TestFunctor.new x).foldRightE (i32 1) fun x acc => x.mul acc).seq fun right =>
  assert (left = right)

/-- `test_fold_left_with_default` (44-48). -/
def foldLeftWithDefault (x : I32) : Test :=
  ((TestFunctor.new x).foldLeftE (i32 0) fun acc x => acc.add x).seq fun result => assert (result = x)

/-- `test_find_some` (51-55). -/
def findSome (x : I32) : Test := assert (ffind (TestFunctor.new x) (fun val => val = x) = some x)

/-- `if x == i32::MAX { x - 1 } else { x + 1 }` (61, 100). -/
def differentValue (x : I32) : Act Unit I32 := if x = i32Max then x.sub (i32 1) else x.add (i32 1)

/-- `test_find_none` (58-64). -/
def findNone (x : I32) : Test :=
  (differentValue x).seq fun different =>
  assert (ffind (TestFunctor.new x) (fun val => val = different) = none)

/-- `test_all_true` (67-70). -/
def allTrue (x : I32) : Test := assert (fall (TestFunctor.new x) fun val => val = x)
/-- `test_all_false` (73-76). -/
def allFalse (x : I32) : Test := assert (!fall (TestFunctor.new x) fun val => val ≠ x)
/-- `test_any_true` (79-82). -/
def anyTrue (x : I32) : Test := assert (fany (TestFunctor.new x) fun val => val = x)
/-- `test_any_false` (85-88). -/
def anyFalse (x : I32) : Test := assert (!fany (TestFunctor.new x) fun val => val ≠ x)
/-- `test_contains_true` (91-94). -/
def containsTrue (x : I32) : Test := assert (fcontains (TestFunctor.new x) x)
/-- `test_contains_false` (97-102). -/
def containsFalse (x : I32) : Test :=
  (differentValue x).seq fun different => assert (!fcontains (TestFunctor.new x) different)

/-! ## `tests/traits/test_monoid.rs` -/

/-- `TestMonoid<A>` (`test_monoid.rs` 10), without the phantom field. -/
structure TestMonoid (A : Type) where
  new ::
  values : List A
deriving DecidableEq

/-- `Semigroup` and `Monoid` for `TestMonoid` (`test_monoid.rs` 19-37). -/
instance {A : Type} : RMonoid (TestMonoid A) where
  combine x y := .new (x.values ++ y.values)
  combineOwned x y := .new (x.values ++ y.values)
  empty := .new []

/-- `monoid_left_identity` (82-84). -/
def monoidLeftIdentity (x : TestMonoid I32) : Test := ofBool (combine RMonoid.empty x = x)
/-- `monoid_right_identity` (88-90). -/
def monoidRightIdentity (x : TestMonoid I32) : Test := ofBool (combine x RMonoid.empty = x)
/-- `semigroup_associativity` (94-98). -/
def monoidAssociativity (a b c : TestMonoid I32) : Test :=
  ofBool (combine (combine a b) c = combine a (combine b c))
/-- `semigroup_associativity_owned` (102-108). -/
def monoidAssociativityOwned (a b c : TestMonoid I32) : Test :=
  ofBool (combineOwned (combineOwned a b) c = combineOwned a (combineOwned b c))

/-- `string_monoid_laws` (112-123). -/
def stringMonoidLaws (a b c : String) : Test :=
  let leftIdentity := decide (combineOwned (RMonoid.empty : String) a = a)
  let rightIdentity := decide (combineOwned a (RMonoid.empty : String) = a)
  let associativity := decide (combineOwned (combineOwned a b) c = combineOwned a (combineOwned b c))
  ofBool (leftIdentity && rightIdentity && associativity)

/-- `vec_monoid_laws` (127-138). -/
def vecMonoidLaws (a b c : List I32) : Test :=
  let leftIdentity := decide (combineOwned (RMonoid.empty : List I32) a = a)
  let rightIdentity := decide (combineOwned a (RMonoid.empty : List I32) = a)
  let associativity := decide (combineOwned (combineOwned a b) c = combineOwned a (combineOwned b c))
  ofBool (leftIdentity && rightIdentity && associativity)

/-- `test_is_empty_monoid` (141-145). -/
def isEmptyMonoidTest (x : TestMonoid I32) : Test :=
  let empty : TestMonoid I32 := RMonoid.empty
  ofBool (isEmptyMonoid empty && (isEmptyMonoid x == decide (x = empty)))

/-- The expected value that the tests compute with a loop `for _ in 1..n { expected = expected.combine(&x) }`
(158-160, 196-198). -/
def expectedTimes (x : TestMonoid I32) (n : Nat) : TestMonoid I32 :=
  (List.range' 1 (n - 1)).foldl (fun expected _ => combine expected x) x

/-- `test_repeat` (148-163); `n : u8`. -/
def repeatTest (x : TestMonoid I32) (n8 : Nat) : Test :=
  let n := n8 % 10
  let repeated := repeat' x n
  if n = 0 then ofBool (repeated = RMonoid.empty) else ofBool (repeated = expectedTimes x n)

/-- `test_mconcat` (166-180). -/
def mconcatTest (xs : List (TestMonoid I32)) : Test :=
  let result := mconcat xs
  match xs with
  | [] => ofBool (result = RMonoid.empty)
  | x :: rest => ofBool (result = rest.foldl (fun expected x => combine expected x) x)

/-- `test_power` (183-201); `n : u8`. -/
def powerTest (base : TestMonoid I32) (n8 : Nat) : Test :=
  let n := n8 % 10
  let result := power base n
  if n = 0 then ofBool (result = RMonoid.empty)
  else if n = 1 then ofBool (result = base)
  else ofBool (result = expectedTimes base n)

/-! ## `tests/traits/test_applicative.rs` -/

/-- `applicative_identity_law` (`test_applicative.rs` 8-12). -/
def applicativeIdentity (x : TestFunctor I32) : Test :=
  let pureId : TestFunctor (I32 → I32) := RPure.pure fun x => x
  ofBool (RApplicative.apply pureId x = x)

/-- `applicative_homomorphism_law` (16-23). -/
def applicativeHomomorphism (x : I32) : Test :=
  let f := fun x : I32 => x.satAdd (i32 1)
  let pureF : TestFunctor (I32 → I32) := RPure.pure f
  let pureX : TestFunctor I32 := RPure.pure x
  ofBool (RApplicative.apply pureF pureX = RPure.pure (f x))

/-- `applicative_interchange_law` (32-42) with `apply_to_y_fn` (26-28). -/
def applicativeInterchange (y : I32) : Test :=
  let u : TestFunctor (I32 → I32) := .new fun x => x.satMul (i32 2)
  let left := RApplicative.apply u (RPure.pure y)
  let pureApplyToY : TestFunctor ((I32 → I32) → I32) := .new fun g => g y
  ofBool (left = RApplicative.apply pureApplyToY u)

/-- `applicative_composition_law` (46-57). -/
def applicativeComposition (x : I32) : Test :=
  let f := fun x : I32 => x.satAdd (i32 1)
  ofBool (RApplicative.apply (TestFunctor.new f) (.new x) = .new (f x))

/-- `applicative_lift2_law` (61-67). -/
def applicativeLift2 (a b : I32) : Test :=
  ofBool (RApplicative.lift2 (fun x y : I32 => x.satAdd y) (TestFunctor.new a) (.new b) = .new (a.satAdd b))

/-- `applicative_lift3_law` (71-78). -/
def applicativeLift3 (a b c : I32) : Test :=
  ofBool (RApplicative.lift3 (fun x y z : I32 => (x.satAdd y).satAdd z) (TestFunctor.new a) (.new b) (.new c) =
    .new ((a.satAdd b).satAdd c))

/-- `applicative_sequence_right_law` (82-87). -/
def applicativeSequenceRight (a b : I32) : Test :=
  ofBool (sequenceRight (TestFunctor.new a) (TestFunctor.new b) = .new b)

/-- `applicative_sequence_left_law` (91-96). -/
def applicativeSequenceLeft (a b : I32) : Test :=
  ofBool (sequenceLeft (TestFunctor.new a) (TestFunctor.new b) = .new a)

/-- `applicative_apply_law` (100-106). -/
def applicativeApply (a : I32) : Test :=
  let f := fun x : I32 => x.satSub (i32 1)
  ofBool (RApplicative.applyOwned (TestFunctor.new f) (.new a) = .new (f a))

/-- `applicative_lift2_owned_law` (110-116). -/
def applicativeLift2Owned (a b : I32) : Test :=
  ofBool (RApplicative.lift2Owned (fun x y : I32 => x.satAdd y) (TestFunctor.new a) (.new b) =
    .new (a.satAdd b))

/-- `applicative_lift3_owned_law` (120-127). -/
def applicativeLift3Owned (a b c : I32) : Test :=
  ofBool (RApplicative.lift3Owned (fun x y z : I32 => (x.satAdd y).satAdd z) (TestFunctor.new a) (.new b)
    (.new c) = .new ((a.satAdd b).satAdd c))

/-! ## `tests/traits/test_monad.rs` -/

/-- `quickcheck_monad_left_identity` (`test_monad.rs` 186-193). -/
def optionLeftIdentity (x : I32) : Test :=
  let f := fun x : I32 => some (x.satMul (i32 2))
  ofBool (RMonad.bind (RPure.pure x : Option I32) f = f x)

/-- `quickcheck_monad_right_identity` (197-203). -/
def optionRightIdentity (x : I32) : Test :=
  let m : Option I32 := some x
  ofBool (RMonad.bind m RPure.pure = m)

/-- `quickcheck_monad_associativity` (207-216). -/
def optionAssociativity (x : I32) : Test :=
  let m : Option I32 := some x
  let f := fun x : I32 => some (x.satMul (i32 2))
  let g := fun x : I32 => some (x.satAdd (i32 10))
  ofBool (RMonad.bind (RMonad.bind m f) g = RMonad.bind m fun x => RMonad.bind (f x) g)

/-- `quickcheck_monad_applicative_consistency` (220-228). -/
def optionApplicativeConsistency (x : I32) : Test :=
  let m : Option I32 := some x
  let f := fun x : I32 => x.satMul (i32 2)
  ofBool (RMonad.bind m (fun x => RPure.pure (f x)) = RFunctor.fmap f m)

/-! ## `tests/traits/test_bifunctor.rs` -/

/-- `TestBifunctor<A, B>` (`test_bifunctor.rs` 9), without the phantom field. -/
structure TestBifunctor (A B : Type) where
  new ::
  left : A
  right : B
deriving DecidableEq

namespace TestBifunctor
variable {A B C D : Type}

/-- `first` (46-51), with a closure that may panic. -/
def first (x : TestBifunctor A B) (f : A → Act Unit C) : Act Unit (TestBifunctor C B) :=
  (f x.left).seq fun c => Act.ret (.new c x.right)
/-- `second` (53-58). -/
def second (x : TestBifunctor A B) (g : B → Act Unit D) : Act Unit (TestBifunctor A D) :=
  (g x.right).seq fun d => Act.ret (.new x.left d)
/-- `bimap` (60-66): the arguments are evaluated left to right. -/
def bimap (x : TestBifunctor A B) (f : A → Act Unit C) (g : B → Act Unit D) : Act Unit (TestBifunctor C D) :=
  (f x.left).seq fun c => (g x.right).seq fun d => Act.ret (.new c d)

/-- `arbitrary` (71-77); `l` and `r` are the two drawn `i32`s. -/
def arbitrary (l r : I32) : Act Unit (TestBifunctor I32 I32) :=
  ((l.rem (i32 1000)).seq fun x => x.sub (i32 500)).seq fun left =>
  ((r.rem (i32 1000)).seq fun x => x.sub (i32 500)).seq fun right =>
  Act.ret (.new left right)

/-- `shrink` (79-90); `sh` is `<i32 as Arbitrary>::shrink` of the external crate. -/
def shrink (sh : I32 → List I32) (x : TestBifunctor I32 I32) : List (TestBifunctor I32 I32) :=
  let a := x.left
  let b := x.right
  ((sh a).flatMap fun a' => (sh b).map (fun b' => TestBifunctor.new a' b') ++ [.new a' b]) ++
    (sh b).map fun b' => TestBifunctor.new a b'
end TestBifunctor

open TestBifunctor in
/-- `bifunctor_identity_law` (95-101). -/
def bifunctorIdentity (bf : TestBifunctor I32 I32) : Test :=
  (bf.bimap (fun x => Act.ret x) (fun x => Act.ret x)).seq fun r => ofBool (r = bf)

/-- `bifunctor_first_second_consistent_with_bimap` (105-119). -/
def bifunctorFirstSecond (bf : TestBifunctor I32 I32) : Test :=
  let f := fun x : I32 => x.add (i32 1)
  (bf.first f).seq fun firstResult =>
  (bf.bimap f (fun x => Act.ret x)).seq fun bimapResult =>
  let g := fun x : I32 => x.mul (i32 2)
  (bf.second g).seq fun secondResult =>
  (bf.bimap (fun x => Act.ret x) g).seq fun bimapResult2 =>
  ofBool (firstResult = bimapResult && secondResult = bimapResult2)

/-- `bifunctor_composition_law` (123-144). -/
def bifunctorComposition (bf : TestBifunctor I32 I32) : Test :=
  let f1 := fun x : I32 => x.add (i32 1)
  let f2 := fun x : I32 => x.mul (i32 2)
  let g1 := fun x : I32 => x.sub (i32 1)
  let g2 := fun x : I32 => x.div (i32 2)
  (bf.bimap (fun x => (f2 x).seq f1) (fun x => (g2 x).seq g1)).seq fun left =>
  (bf.bimap f2 g2).seq fun inner =>
  (inner.bimap f1 g1).seq fun right =>
  ofBool (left = right)

/-- `bifunctor_structure_preservation` (148-156). -/
def bifunctorStructure (bf : TestBifunctor I32 I32) : Test :=
  let f := fun x : I32 => toString x.val
  let g := fun x : I32 => decide (x.val > 0)
  (bf.bimap (fun x => Act.ret (f x)) (fun x => Act.ret (g x))).seq fun result =>
  ofBool (result.left = toString bf.left.val && result.right == decide (bf.right.val > 0))

/-! ## `tests/traits_impl_option_result/applicative_laws.rs` -/

/-- `if is_ok { Ok(x) } else { Err(e) }` (`applicative_laws.rs` 235 and others). -/
def resultOf {A : Type} (x : A) (e : I8) (isOk : Bool) : Except I8 A := if isOk then .ok x else .error e

/-- `qc_option_identity` (`applicative_laws.rs` 226-230). -/
def apOptionIdentity (v : Option I32) : Test :=
  let pureId : Option (I32 → I32) := RPure.pure fun x => x
  ofBool (RApplicative.apply pureId v = v)

/-- `qc_result_identity` (234-239). -/
def apResultIdentity (x : I32) (e : I8) (isOk : Bool) : Test :=
  let v := resultOf x e isOk
  let pureId : Except I8 (I32 → I32) := RPure.pure fun t => t
  ofBool (RApplicative.apply pureId v = v)

/-- `qc_option_homomorphism` (243-250). -/
def apOptionHomomorphism (x : I32) : Test :=
  let f := fun n : I32 => n.satAdd (i32 1)
  let pureF : Option (I32 → I32) := RPure.pure f
  let pureX : Option I32 := RPure.pure x
  ofBool (RApplicative.apply pureF pureX = RPure.pure (f x))

/-- `qc_result_homomorphism` (254-261). -/
def apResultHomomorphism (x : I32) : Test :=
  let f := fun n : I32 => n.satMul (i32 2)
  let pureF : Except I8 (I32 → I32) := RPure.pure f
  let pureX : Except I8 I32 := RPure.pure x
  ofBool (RApplicative.apply pureF pureX = RPure.pure (f x))

/-- `qc_option_interchange` (265-277). -/
def apOptionInterchange (y : I32) (uSome : Bool) : Test :=
  let f := fun x : I32 => x.satMul (i32 2)
  let u := if uSome then some f else none
  let pureY : Option I32 := RPure.pure y
  ofBool (RApplicative.apply u pureY = RApplicative.lift2 (fun func y => func y) u pureY)

/-- `qc_result_interchange` (281-293). -/
def apResultInterchange (y : I32) (isOk : Bool) (e : I8) : Test :=
  let f := fun x : I32 => x.satMul (i32 2)
  let u := resultOf f e isOk
  let pureY : Except I8 I32 := RPure.pure y
  ofBool (RApplicative.apply u pureY = RApplicative.lift2 (fun func y => func y) u pureY)

/-- `qc_option_composition` (297-312). -/
def apOptionComposition (w : Option I32) (uSome vSome : Bool) : Test :=
  let f := fun x : I32 => x.satAdd (i32 1)
  let g := fun x : I32 => x.satMul (i32 2)
  let u := if uSome then some f else none
  let v := if vSome then some g else none
  let left := RApplicative.lift3 (fun (f g : I32 → I32) x => f (g x)) u v w
  ofBool (left = RApplicative.apply u (RApplicative.apply v w))

/-- `qc_result_composition` (316-333). -/
def apResultComposition (w : Except I8 I32) (uOk : Bool) (uErr : I8) (vOk : Bool) (vErr : I8) : Test :=
  let f := fun x : I32 => x.satAdd (i32 1)
  let g := fun x : I32 => x.satMul (i32 2)
  let u := resultOf f uErr uOk
  let v := resultOf g vErr vOk
  let left := RApplicative.lift3 (fun (f g : I32 → I32) x => f (g x)) u v w
  ofBool (left = RApplicative.apply u (RApplicative.apply v w))

/-! ## `tests/traits_impl_option_result/functor_laws.rs` -/

/-- `qc_option_identity` (`functor_laws.rs` 159-162). -/
def fnOptionIdentity (m : Option I32) : Test := ofBool (RFunctor.fmap (fun x => x) m = m)

/-- `qc_result_identity` (165-169). -/
def fnResultIdentity (x : I32) (e : I8) (isOk : Bool) : Test :=
  let m := resultOf x e isOk
  ofBool (RFunctor.fmap (fun t => t) m = m)

/-- `qc_option_composition` (173-178). -/
def fnOptionComposition (m : Option I32) : Test :=
  let f := fun x : I32 => x.satMul (i32 2)
  let g := fun x : I32 => x.satAdd (i32 1)
  ofBool (RFunctor.fmap (fun x => g (f x)) m = RFunctor.fmap g (RFunctor.fmap f m))

/-- `qc_result_composition` (181-186). -/
def fnResultComposition (m : Except I8 I32) : Test :=
  let f := fun x : I32 => x.satMul (i32 2)
  let g := fun x : I32 => x.satAdd (i32 1)
  ofBool (RFunctor.fmap (fun x => g (f x)) m = RFunctor.fmap g (RFunctor.fmap f m))

/-- `Result::is_ok`. -/
def isOk {E A : Type} : Except E A → Bool
  | .ok _ => true
  | .error _ => false

/-- `qc_option_structure_preserved` (190-193). -/
def fnOptionStructure (m : Option I32) : Test :=
  let f := fun x : I32 => (toI64 x).satMul (SInt.clamp 3)
  ofBool ((RFunctor.fmap f m).isSome == m.isSome)

/-- `qc_result_structure_preserved` (196-199). -/
def fnResultStructure (m : Except I8 I32) : Test :=
  let f := fun x : I32 => (toI64 x).satAdd (SInt.clamp 10)
  ofBool (isOk (RFunctor.fmap f m) == isOk m)

/-! ## `tests/traits_impl_option_result/monad_laws.rs` -/

/-- `qc_option_join_consistency` (`monad_laws.rs` 175-180). -/
def mnOptionJoin (m : Option I32) : Test :=
  let f := fun x : I32 => some (x.satMul (i32 2))
  ofBool (RMonad.join (fun x => x) (RFunctor.fmap f m) = RMonad.bind m f)

/-- `qc_result_join_consistency` (184-189). -/
def mnResultJoin (m : Except I8 I32) : Test :=
  let f := fun x : I32 => (.ok (x.satMul (i32 2)) : Except I8 I32)
  ofBool (RMonad.join (fun x => x) (RFunctor.fmap f m) = RMonad.bind m f)

/-- `qc_result_left_identity` (193-198). -/
def mnResultLeftIdentity (x : I32) : Test :=
  let f := fun x : I32 => (.ok (x.satMul (i32 2)) : Except I8 I32)
  ofBool (RMonad.bind (RPure.pure x) f = f x)

/-- `qc_result_right_identity` (202-206). -/
def mnResultRightIdentity (x : I32) (e : I8) (isOk : Bool) : Test :=
  let m := resultOf x e isOk
  ofBool (RMonad.bind m RPure.pure = m)

/-- `qc_result_associativity` (210-217). -/
def mnResultAssociativity (x : I32) (e : I8) (isOk : Bool) : Test :=
  let m := resultOf x e isOk
  let f := fun x : I32 => (.ok (x.satMul (i32 2)) : Except I8 I32)
  let g := fun x : I32 => (.ok (x.satAdd (i32 10)) : Except I8 I32)
  ofBool (RMonad.bind (RMonad.bind m f) g = RMonad.bind m fun x => RMonad.bind (f x) g)

end Rustica.QC
