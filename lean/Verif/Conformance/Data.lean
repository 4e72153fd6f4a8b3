import Verif.Data.Access
import Verif.Error.Convert
import Verif.Trans.ReaderT
import Verif.Traits.Evaluate

/-!
The unit tests of `tests/datatypes/test_validated.rs`, `test_maybe.rs`, `test_either.rs`,
`test_id.rs`, `test_wrapper.rs`, `test_writer.rs`, `test_reader.rs` and
`tests/transformers/reader_t.rs`, run on the model.  They are not proofs of any property; they check
that the model computes what the authors' tests say the code computes.  The timing tests, the serde
tests and the random tests of the laws are left out.
-/

namespace Rustica.Conformance.Data

open RFunctor (fmap fmapOwned)
open RApplicative (apply applyOwned lift2 lift2Owned lift3 lift3Owned)
open RMonad (bind bindOwned join joinOwned)

/-! ### `Validated` -/

abbrev V := Validated String Int

/-- `creation_tests` -/
example : let v : V := .Valid 42
    v.isValid = true ∧ v.isInvalid = false ∧ v.iter.head? = some 42 ∧ v.errors = [] := by decide
example : let v : V := .invalid "error"
    v.isValid = false ∧ v.isInvalid = true ∧ v.errors = ["error"] ∧ v.iter.head? = none := by decide
example : let v : V := .invalidMany ["error1", "error2", "error3"]
    v.isInvalid = true ∧ v.errors = ["error1", "error2", "error3"] := by decide
example : (.Valid 42 : V).errorPayload = none ∧
    (.Invalid ["error1", "error2"] : V).errorPayload = some ["error1", "error2"] := by decide
example : (Validated.invalidMany [] : V).isInvalid = true ∧
    (Validated.invalidMany [] : V).errors = [] := by decide
example : (Validated.invalidMany ((List.range 100).map toString) : V).errors.length = 100 := by
  decide +kernel

/-- `functor_tests` -/
example : fmap (· * 2) (.Valid 42 : V) = .Valid 84 ∧
    (fmap (· * 2) (.invalid "error" : V)).isInvalid = true ∧
    fmapOwned (· * 2) (.Valid 21 : V) = .Valid 42 ∧
    (.invalid "error" : V).fmapInvalid ("Error: " ++ ·) = .invalid "Error: error" ∧
    ((.invalidMany ["e1", "e2"] : V).fmapInvalid ("Err: " ++ ·)).errors = ["Err: e1", "Err: e2"] := by
  decide

/-- `applicative_tests` -/
example : apply (.Valid (· * 2)) (.Valid 21 : V) = .Valid 42 ∧
    apply (.invalid "error") (.Valid 21 : V) = (.invalid "error" : V) ∧
    apply (.Valid (· * 2)) (.invalid "error" : V) = .invalid "error" ∧
    (apply (.invalid "error1") (.invalid "error2" : V) : V).errors = ["error1", "error2"] ∧
    (RPure.pure 42 : V) = .Valid 42 ∧
    lift2 (· + ·) (.Valid 10 : V) (.Valid 32 : V) = (.Valid 42 : V) ∧
    lift3 (· + · + ·) (.Valid 10 : V) (.Valid 20 : V) (.Valid 12 : V) = (.Valid 42 : V) ∧
    (lift3 (· + · + ·) (.invalid "error1" : V) (.invalid "error2" : V) (.invalid "error3" : V) :
      V).errors = ["error1", "error2", "error3"] ∧
    applyOwned (.Valid (· + 1)) (.Valid 10 : V) = .Valid 11 ∧
    (applyOwned (.Valid (· + 1)) (.invalid "err" : V) : V).isInvalid = true := by decide

/-- `monad_tests`, `foldable_tests` -/
example : bind (.Valid 21 : V) (fun x => .Valid (x * 2)) = (.Valid 42 : V) ∧
    bind (.invalid "error" : V) (fun x => .Valid (x * 2)) = (.invalid "error" : V) ∧
    RFoldable.foldLeft (.Valid 21 : V) 0 (· + ·) = 21 ∧
    RFoldable.foldLeft (.invalid "error" : V) 0 (· + ·) = 0 ∧
    RFoldable.foldRight (.Valid 5 : V) 1 (· * ·) = 5 := by decide

/-- `conversion_tests` -/
example : Validated.fromResult (.ok 42 : Except String Int) = .Valid 42 ∧
    Validated.fromResult (.error "error" : Except String Int) = .invalid "error" := by decide
example : (.Valid 42 : V).toResult = some (.ok 42) := rfl
example : (.invalid "error" : V).toResult = some (.error "error") := rfl
example : (.invalidMany ["error1", "error2"] : V).toResult = some (.error "error1") := rfl
example : Validated.fromOption (some 42) "no value" = (.Valid 42 : V) ∧
    Validated.fromOption none "no value" = (.invalid "no value" : V) ∧
    (.Valid 42 : V).toOption = some 42 ∧ (.invalid "error" : V).toOption = none := by decide
example : (.Valid 42 : V).intoValue = .ok 42 := rfl
example : (.Invalid ["err1"] : V).intoValue = .error ["err1"] := rfl
example : (.Valid 42 : V).intoErrorPayload = .error 42 := rfl
example : (.Invalid ["err1", "err2"] : V).intoErrorPayload = .ok ["err1", "err2"] := rfl
example : ((.invalid "error1" : V).combineErrorsOwned (.invalid "error2")).map (·.errorSlice) =
      some ["error1", "error2"] ∧
    Validated.sequenceOwned [(.Valid 1 : V), .Valid 2, .Valid 3] List.length = .Valid 3 ∧
    (Validated.sequenceOwned [(.Valid 1 : V), .invalid "error1", .invalid "error2"]
      List.length).errorSlice = ["error1", "error2"] ∧
    Validated.collectOwned [(.Valid 1 : V), .Valid 2] = .Valid [1, 2] ∧
    (Validated.collectOwned [(.Valid 1 : V), .invalid "error1", .invalid "error2"]).errorSlice =
      ["error1", "error2"] := by decide

/-- `unwrap_tests`, `panic_tests`: `none` is the panic -/
example : (.Valid 42 : V).unwrapOr 0 = 42 ∧ (.invalid "error" : V).unwrapOr 0 = 0 ∧
    (.Valid 42 : V).unwrap = some 42 ∧ (.Invalid ["error"] : V).unwrap = none ∧
    (.Invalid ["error1"] : V).unwrapInvalid = some ["error1"] ∧
    (.Valid 42 : V).unwrapInvalid = none ∧ (Validated.invalidVec [] : Option V) = none := by decide

/-- `iterator_tests`, `equality_tests` -/
example : (.Valid 42 : V).iter = [42] ∧ (.invalid "err" : V).iter = [] ∧
    (Validated.errorsIter (.invalid "err" : V)).next.1 = some "err" ∧
    (Validated.errorsIter (.Valid 42 : V)).next.1 = none ∧
    (.Valid 1 : V) ≠ .Valid 2 ∧ (.invalid "e" : V) ≠ .invalid "e2" := by decide

/-- `test_user_validation_error_accumulation`, `test_nested_validation_chains`: errors accumulate
in the order of the arguments, `bind` stops at the first. -/
example : (lift3 (fun (n : String) (a : Int) (e : String) => (n, a, e))
      (.invalid "Name must not be empty" : Validated String String)
      (.invalid "Age must be at least 18" : V)
      (.invalid "Email must contain @ symbol" : Validated String String)).errors =
      ["Name must not be empty", "Age must be at least 18", "Email must contain @ symbol"] ∧
    (lift3 (fun (n : String) (a : Int) (e : String) => (n, a, e))
      (.Valid "Jane Smith" : Validated String String) (.invalid "Age must be positive" : V)
      (.Valid "jane@example.com" : Validated String String)).errors = ["Age must be positive"] := by
  decide
example : let pos (n : Int) : V := if n > 0 then .Valid n else .invalid "Must be positive"
    let even (n : Int) : V := if n % 2 = 0 then .Valid n else .invalid "Must be even"
    let small (n : Int) : V := if n < 100 then .Valid n else .invalid "Must be less than 100"
    bind (bind (pos 42) even) small = .Valid 42 ∧
    bind (bind (pos (-5)) even) small = .invalid "Must be positive" ∧
    (lift3 (· + · + ·) (pos (-5)) (even 3) (small 150) : V).errors.length = 3 := by decide

/-- `test_nested_operation_performance` (the value), `test_deeply_nested_bind_chains`,
`test_issue_multiple_consecutive_fmaps` -/
example : (List.range 100).foldl (fun (r : V) (i : Nat) => bind r fun x => .Valid (x + ((i : Int) + 1))) (.Valid 0) =
    .Valid 5050 := by decide +kernel
example : ((List.range 50).foldl (fun (r : Validated Nat Int) (i : Nat) => bind r fun x =>
      if x < 1000 then .Valid (x + ((i : Int) + 1)) else .invalid (i + 1)) (.Valid 0)).errors = [46] := by
  decide +kernel
example : fmap (· - 1) (fmap (· / 5) (fmap (· + 5) (fmap (· * 2) (.Valid 10 : V)))) =
    (.Valid 4 : V) := by decide

/-- `test_helper_functions`: `lift2_owned` in a fold -/
example : ([.Valid 1, .Valid 2, .invalid "error", .Valid 3] : List V).foldl
      (fun acc v => lift2Owned (fun l x => l ++ [x]) acc v) (.Valid []) =
    (.invalid "error" : Validated String (List Int)) := by decide

/-- `test_complete_validated_workflow`: the errors of `lift3_owned` come before those of the
second argument of the `lift2` around it. -/
example : (lift2 (fun (u : Int × Int × Int) (a : Int) => (u, a))
      (lift3Owned (fun (a b c : Int) => (a, b, c)) (.invalid "ID must be positive" : V)
        (.invalid "Username must be 3-20 characters" : V) (.invalid "Invalid email format" : V))
      (.invalid "Age must be between 13 and 120" : V)).errors =
    ["ID must be positive", "Username must be 3-20 characters", "Invalid email format",
      "Age must be between 13 and 120"] := by decide

/-! ### `Maybe` -/

section
open Maybe (Just Nothing)

/-- `test_construction_aliases`, `test_predicates_and_as_ref_to_option`, `test_unwrap_variants`,
`test_unwrap_panics_on_nothing` -/
example : Maybe.mkWhen true 7 = Just 7 ∧ Maybe.mkWhen false 7 = Nothing ∧
    (Just 10).isJust = true ∧ (Nothing : Maybe Int).isNothing = true ∧
    (Just 10).toOption = some 10 ∧ (Nothing : Maybe Int).toOption = none ∧
    (Just 42).unwrapOr 0 = 42 ∧ (Nothing : Maybe Int).unwrapOr 0 = 0 ∧
    (Just 42).unwrapOrElse (fun _ => 10) = 42 ∧ (Nothing : Maybe Int).unwrapOrElse (fun _ => 10) = 10 ∧
    (Nothing : Maybe Int).unwrap = none := by decide

/-- `test_fmap_and_fmap_owned`, `test_bind_and_bind_owned`, `test_join_and_join_owned` -/
example : fmap String.length (Just "hi") = Just 2 ∧ fmap String.length Nothing = Nothing ∧
    fmapOwned (· ++ "!") (Just "abc") = Just "abc!" ∧ fmapOwned (· ++ "!") Nothing = Nothing := by
  decide
example : let f (x : Int) : Maybe Int := if x % 2 = 1 then Just (x * 10) else Nothing
    bind (Just 3) f = Just 30 ∧ bind Nothing f = Nothing ∧
    bindOwned (Just "ab") (fun s => if s.length = 2 then Just (s ++ "c") else Nothing) = Just "abc" := by
  decide
example : join id (Just (Just 9)) = Just 9 ∧ joinOwned id (Just (Just "x")) = Just "x" ∧
    join id (Just (Nothing : Maybe Int)) = Nothing ∧
    join id (Nothing : Maybe (Maybe Int)) = Nothing := by decide

/-- `test_fmap_or_and_filter_and_tap` -/
example : (Just 41).fmapOr 0 (· + 1) = 42 ∧ (Nothing : Maybe Int).fmapOr 0 (· + 1) = 0 ∧
    (Just 41).filter (· > 40) = Just 41 ∧ (Just 41).filter (· > 100) = Nothing ∧
    (Nothing : Maybe Int).filter (· > 0) = Nothing := by decide
example : let add (x : Int) : Eff Int Unit := fun w => ((), w + x)
    ((Just 5).tap add 0).2 = 5 ∧ ((Nothing : Maybe Int).tap add 5).2 = 5 := by decide

/-- `test_iterators_and_to_vec`, `test_conversions_option_result_and_from_iterator`,
`test_with_error_and_standard_result` -/
example : (Just 2).iterMutMap (· + 5) = Just 7 ∧ (Just 1).intoIter.next.1 = some 1 ∧
    (Nothing : Maybe Int).intoIter.next.1 = none ∧ (Just 3).toVec = [3] ∧
    (Nothing : Maybe Int).toVec = [] ∧ Maybe.fromOption (some 4) = Just 4 ∧
    Maybe.fromOption (none : Option Int) = Nothing ∧
    Maybe.fromResult (.ok 7 : Except String Int) = Just 7 ∧
    Maybe.fromResult (.error "e" : Except String Int) = Nothing ∧
    Maybe.fromIter [9, 8, 7] = Just 9 ∧ Maybe.fromIter ([] : List Int) = Nothing := by decide
example : (Just 1).toResult "err" = .ok 1 := rfl
example : (Nothing : Maybe Int).toResult "err" = .error "err" := rfl
example : (Just 1).toStandardResult = .ok 1 := rfl
example : (Nothing : Maybe Int).toStandardResult = .error .ValueNotPresent := rfl

/-- `test_alternative_and_monadplus` -/
example : let a : Maybe Int := Just 1
    let b : Maybe Int := Just 2
    let n : Maybe Int := Nothing
    (RAlternative.emptyAlt : Maybe Int) = Nothing ∧ (RAlternative.guard true : Maybe Unit) = Just () ∧
    (RAlternative.guard false : Maybe Unit) = Nothing ∧ RAlternative.alt a b = a ∧
    RAlternative.alt a n = a ∧ RAlternative.alt n b = b ∧ RAlternative.alt n n = n ∧
    (RMonadPlus.mzero : Maybe Int) = Nothing ∧ RMonadPlus.mplus a b = a ∧ RMonadPlus.mplus a n = a ∧
    RMonadPlus.mplus n b = b ∧ RMonadPlus.mplus n n = n ∧ RMonadPlus.mplusOwned a b = a ∧
    RMonadPlus.mplusOwned n b = b := by decide
end

/-! ### `Either` -/

section
open Either (Left Right)

/-- `test_either_creation_and_access`, `test_either_mapping` and the two panics -/
example : let l : Either Int String := Left 42
    let r : Either Int String := Right "hello"
    l.isLeft = true ∧ l.isRight = false ∧ l.unwrapLeft = some 42 ∧ r.isLeft = false ∧
    r.isRight = true ∧ r.unwrapRight = some "hello" ∧ r.unwrapLeft = none ∧ l.unwrapRight = none ∧
    (l.fmapLeft (· * 2)).unwrapLeft = some 84 ∧ (r.fmapRight String.length).unwrapRight = some 5 ∧
    (l.fmapRight String.length).unwrapLeft = some 42 ∧
    (r.fmapLeft (· * 2)).unwrapRight = some "hello" := by decide

/-- `test_either_functor`, `test_either_monad`, `test_either_or_methods` -/
example : let r : Either String Int := Right 42
    let l : Either String Int := Left "error"
    fmap (· + 1) r = Right 43 ∧ fmap (· + 1) l = Left "error" ∧
    bind r (fun x => Right (x + 1)) = (Right 43 : Either String Int) ∧
    bind l (fun x => Right (x + 1)) = (Left "error" : Either String Int) ∧
    join id (Right r : Either String (Either String Int)) = Right 42 ∧
    bindOwned r (fun x => Right (x + 1)) = (Right 43 : Either String Int) ∧
    joinOwned id (Right r : Either String (Either String Int)) = Right 42 ∧
    l.leftOr "default" = "error" ∧ r.leftOr "default" = "default" ∧ l.unwrapOr 0 = 0 ∧
    r.unwrapOr 0 = 42 := by decide

/-- `test_either_applicative`: all combinations of errors -/
example : let fr : Either String (Int → Int) := Right (· + 1)
    let fl : Either String (Int → Int) := Left "function error"
    let vr : Either String Int := Right 42
    let vl : Either String Int := Left "value error"
    (RPure.pure 42 : Either String Int) = Right 42 ∧
    apply fr vr = Right 43 ∧ apply fr vl = Left "value error" ∧ apply fl vr = Left "function error" ∧
    apply fl vl = Left "function error" ∧ applyOwned fr vr = Right 43 ∧
    applyOwned fr vl = Left "value error" ∧ applyOwned fl vr = Left "function error" ∧
    applyOwned fl vl = Left "function error" := by decide
example : let a : Either String Int := Right 2
    let b : Either String Int := Right 3
    let c : Either String Int := Right 4
    let al : Either String Int := Left "a error"
    let bl : Either String Int := Left "b error"
    let cl : Either String Int := Left "c error"
    let m (x y : Int) := x * y
    let n (x y z : Int) := x * y + z
    lift2 m a b = Right 6 ∧ lift2 m al b = Left "a error" ∧ lift2 m a bl = Left "b error" ∧
    lift2 m al bl = Left "a error" ∧ lift2Owned m a b = Right 6 ∧ lift2Owned m al b = Left "a error" ∧
    lift2Owned m a bl = Left "b error" ∧ lift2Owned m al bl = Left "a error" ∧
    lift3 n a b c = Right 10 ∧ lift3 n al b c = Left "a error" ∧ lift3 n a bl c = Left "b error" ∧
    lift3 n a b cl = Left "c error" ∧ lift3 n al bl c = Left "a error" ∧
    lift3Owned n a b c = Right 10 ∧ lift3Owned n al b c = Left "a error" ∧
    lift3Owned n a bl c = Left "b error" ∧ lift3Owned n a b cl = Left "c error" ∧
    lift3Owned n al bl c = Left "a error" := by decide

/-- `test_either_performance_pattern`, `test_either_error_handling` -/
example :
    let go (input : Int) : Either String Int :=
      bindOwned (fmapOwned (· * 2) (if input > 0 then Right input else Left "Invalid input"))
        fun x => if x < 100 then Right x else Left "Result too large"
    go 42 = Right 84 ∧ go (-1) = Left "Invalid input" ∧ go 60 = Left "Result too large" := by decide
example : let div (n d : Int) : Either String Int :=
      if d = 0 then Left "division by zero" else Right (n / d)
    div 10 2 = Right 5 ∧ div 10 0 = Left "division by zero" ∧
    bind (div 10 2) (div · 1) = Right 5 ∧ bind (div 10 2) (div · 0) = Left "division by zero" := by
  decide
end

/-! ### `Id` -/

/-- `tests/datatypes/test_id.rs` -/
example : let x : RId Int := ⟨42⟩
    fmap (· * 2) x = ⟨84⟩ ∧ fmapOwned (· * 2) x = ⟨84⟩ ∧ (RPure.pure 42 : RId Int) = x ∧
    apply (⟨(· + 1)⟩ : RId (Int → Int)) ⟨2⟩ = ⟨3⟩ ∧ lift2 (· + ·) (⟨2⟩ : RId Int) (⟨3⟩ : RId Int) = (⟨5⟩ : RId Int) ∧
    lift3 (· * · * ·) (⟨2⟩ : RId Int) (⟨3⟩ : RId Int) (⟨4⟩ : RId Int) = (⟨24⟩ : RId Int) ∧
    applyOwned (⟨(· + 1)⟩ : RId (Int → Int)) ⟨2⟩ = ⟨3⟩ ∧
    lift2Owned (· + ·) (⟨2⟩ : RId Int) (⟨3⟩ : RId Int) = (⟨5⟩ : RId Int) ∧
    lift3Owned (· * · * ·) (⟨2⟩ : RId Int) (⟨3⟩ : RId Int) (⟨4⟩ : RId Int) = (⟨24⟩ : RId Int) ∧
    bind x (fun n => (⟨n * 2⟩ : RId Int)) = ⟨84⟩ ∧ join id (⟨x⟩ : RId (RId Int)) = x ∧
    bindOwned x (fun n => (⟨n * 2⟩ : RId Int)) = ⟨84⟩ ∧ joinOwned id (⟨x⟩ : RId (RId Int)) = x ∧
    fmap (· * 2) (fmap (· + 1) x) = ⟨86⟩ ∧
    bindOwned (fmapOwned (· + 5) (⟨10⟩ : RId Int)) (fun n => (⟨n * 2⟩ : RId Int)) = ⟨30⟩ := by decide

/-! ### Wrappers -/

/-- `test_first_wrapper`, `test_last_wrapper` -/
example : let s : First Int := ⟨some 42⟩
    let n : First Int := ⟨none⟩
    combine s ⟨some 84⟩ = s ∧ combine n s = s ∧ combine s n = s ∧ (RMonoid.empty : First Int) = n := by
  decide
example : let s : Last Int := ⟨some 42⟩
    let n : Last Int := ⟨none⟩
    combine s ⟨some 84⟩ = ⟨some 84⟩ ∧ combine n s = s ∧ combine s n = s ∧
    (RMonoid.empty : Last Int) = n := by decide

/-- `test_min_wrapper`, `test_max_wrapper`, `test_sum_wrapper`, `test_product_wrapper` -/
example : combine (⟨10⟩ : Min Int) ⟨5⟩ = ⟨5⟩ ∧ combine (⟨5⟩ : Min Int) ⟨15⟩ = ⟨5⟩ ∧
    combine (⟨10⟩ : Min Int) ⟨15⟩ = ⟨10⟩ ∧ (RMonoid.empty : Min Nat) = ⟨0⟩ ∧
    combine (⟨10⟩ : Max Int) ⟨5⟩ = ⟨10⟩ ∧ combine (⟨5⟩ : Max Int) ⟨15⟩ = ⟨15⟩ ∧
    combine (⟨10⟩ : Max Int) ⟨15⟩ = ⟨15⟩ ∧ (RMonoid.empty : Max Nat) = ⟨0⟩ ∧
    combine (⟨10⟩ : Sum Int) ⟨5⟩ = ⟨15⟩ ∧ combine (⟨5⟩ : Sum Int) ⟨15⟩ = ⟨20⟩ ∧
    (RMonoid.empty : Sum Int) = ⟨0⟩ ∧ combine (⟨10⟩ : Product Int) ⟨5⟩ = ⟨50⟩ ∧
    combine (⟨5⟩ : Product Int) ⟨2⟩ = ⟨10⟩ ∧ (RMonoid.empty : Product Int) = ⟨1⟩ := by decide

/-- `test_wrapper_hkt` -/
example : fmap (· + 1) (⟨42⟩ : Sum Int) = ⟨43⟩ ∧ fmap (· + 1) (⟨42⟩ : Product Int) = ⟨43⟩ ∧
    fmap (· + 1) (⟨42⟩ : Min Int) = ⟨43⟩ ∧ fmap (· + 1) (⟨42⟩ : Max Int) = ⟨43⟩ ∧
    fmap (· + 1) (⟨some 42⟩ : First Int) = ⟨some 43⟩ ∧
    fmap (· + 1) (⟨some 42⟩ : Last Int) = ⟨some 43⟩ := by decide

/-- `test_real_world_use_cases` -/
example : ([1, 2, 3, 4, 5].map Sum.mk).foldl combine (⟨0⟩ : Sum Int) = ⟨15⟩ ∧
    ([1, 2, 3, 4, 5].map Product.mk).foldl combine (⟨1⟩ : Product Int) = ⟨120⟩ ∧
    ([5, 3, 8, 2, 7].map Min.mk).foldl combine (⟨2147483647⟩ : Min Int) = ⟨2⟩ ∧
    ([5, 3, 8, 2, 7].map Max.mk).foldl combine (⟨-2147483648⟩ : Max Int) = ⟨8⟩ ∧
    ([42, 84].map fun x => First.mk (some x)).foldl combine (⟨none⟩ : First Int) = ⟨some 42⟩ ∧
    ([42, 84].map fun x => Last.mk (some x)).foldl combine (⟨none⟩ : Last Int) = ⟨some 84⟩ := by
  decide

/-- `test_thunk_wrapper`: every evaluation runs the function again -/
example : let t : Thunk' Nat Nat := .new fun n => (.ok (n + 1), n + 1)
    (REvaluate.evaluate t 0).1 = .ok 1 ∧ (REvaluate.evaluate t (REvaluate.evaluate t 0).2).1 = .ok 2 ∧
    (REvaluate.evaluateOwned t 0).1 = .ok 1 := ⟨rfl, rfl, rfl⟩

/-! ### `Writer` -/

/-- The `Log` of the tests. -/
instance : RMonoid (List String) where
  combine a b := a ++ b
  combineOwned a b := a ++ b
  empty := []

abbrev W := Writer (List String)

/-- `test_writer_creation_and_run`, `test_writer_functor`, `test_writer_applicative` -/
example : (⟨["initial"], 42⟩ : W Int).run = (["initial"], 42) ∧
    (Writer.pureValue 100 : W Int).run = ([], 100) ∧
    (fmap (· * 2) (⟨["initial"], 42⟩ : W Int)).run = (["initial"], 84) ∧
    (fmapOwned (· * 3) (⟨["initial"], 42⟩ : W Int)).run = (["initial"], 126) ∧
    (apply (⟨["function created"], (· * 2)⟩ : W (Int → Int)) ⟨["value created"], 21⟩).run =
      (["function created", "value created"], 42) ∧
    (lift2 (· + ·) (⟨["first value"], 10⟩ : W Int) (⟨["second value"], 32⟩ : W Int) : W Int).run =
      (["first value", "second value"], 42) := by decide

/-- `test_writer_monad`, `test_writer_complex_chaining`, `test_writer_semigroup` -/
example : let w (s : String) (x : Int) : W Int := ⟨[s], x⟩
    (bind (bind (bind (w "start" 5) fun x => w "add 10" (x + 10)) fun x => w "multiply by 3" (x * 3))
      fun x => w "subtract 3" (x - 3)).run =
      (["start", "add 10", "multiply by 3", "subtract 3"], 42) ∧
    (fmap (· * 2) (bind (bind (bind (Writer.pureValue 5) fun n => w "starting with 5" n)
      fun n => w "processing" (n * 2)) fun n => w "adding 10" (n + 10))).run =
      (["starting with 5", "processing", "adding 10"], 40) := by decide
example : (combine (⟨["log1"], ⟨15⟩⟩ : W (Sum Int)) ⟨["log2"], ⟨27⟩⟩).run = (["log1", "log2"], ⟨42⟩) ∧
    (combineOwned (⟨["log3"], ⟨10⟩⟩ : W (Sum Int)) ⟨["log4"], ⟨32⟩⟩).run =
      (["log3", "log4"], ⟨42⟩) := by decide

/-! ### `Reader` and `ReaderT` -/

/-- `tests/datatypes/test_reader.rs` -/
example : let r : Reader Int Int := .new (· + 1)
    r.runReader 10 = 11 ∧ (Reader.ask id : Reader String String).runReader "env1" = "env1" ∧
    (Reader.asks String.length).runReader "hello" = 5 ∧ (r.fmap (· * 2)).runReader 10 = 22 ∧
    ((r.fmap (· * 2)).fmap (· - 5)).runReader 10 = 17 ∧
    (r.bind fun x => .new fun env => x * env).runReader 10 = 110 ∧
    ((r.bind fun x => .new fun env => x * env).bind fun x => .new fun _ => x / 2).runReader 10 = 55 ∧
    (Reader.new (· * 2) : Reader Int Int).runReader 10 = 20 ∧
    ((Reader.new (· * 2) : Reader Int Int).localE (· + 5)).runReader 10 = 30 ∧
    ((Reader.new (· + 10) : Reader Int Int).combine (Reader.new fun env => ("value", env))
      fun a b => (a, b)).runReader 5 = (15, "value", 5) := by decide

/-- `tests/transformers/reader_t.rs` -/
def safeDiv : RReaderT Int (Except String Int) Int :=
  .new fun n => if n = 0 then .error "Division by zero" else .ok (100 / n)
example : (RReaderT.new fun env => some (env * 2) : RReaderT Int (Option Int) Int).runReader 21 =
    some 42 := by decide
example : safeDiv.tryRunReader 4 = .ok 25 := rfl
example : safeDiv.tryRunReader 0 = .error (.new "Division by zero") := rfl
example : (safeDiv.tryRunReaderWithContext 4 (ofString (σ := Unit) "processing user input") ()).1 =
    .ok 25 := rfl
example : (safeDiv.tryRunReaderWithContext 0 (ofString (σ := Unit) "processing user input") ()).1 =
    .error ⟨"Division by zero", ["processing user input"], none⟩ := rfl
example : (safeDiv.mapError String.length).runReader 0 = .error 16 := rfl
example : (safeDiv.mapError String.length).runReader 5 = .ok 20 := rfl

end Rustica.Conformance.Data
