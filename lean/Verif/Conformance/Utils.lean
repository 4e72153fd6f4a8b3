import Verif.Utils.Utils
import Verif.Effect.Async
import Verif.Data.Std

/-!
The unit tests of `tests/utils_test/*`, `tests/integration/categorical_utils_pipeline.rs`,
`tests/traits/monad_error.rs`, `tests/traits/monad_plus.rs` and
`tests/datatypes/test_async_monad.rs`, run on the model.  They are not proofs of any property; they
check that the model computes what the authors' tests say the code computes.  Where a test parses
numbers, `parse` below stands for `str::parse::<i32>`.
-/

namespace Rustica.Conformance.Utils

/-- Decimal digits. -/
def digits : List Char → Option Nat
  | [] => none
  | cs => cs.foldl (fun n c => n.bind fun n => if c.isDigit then some (10 * n + (c.toNat - 48)) else none)
      (some 0)
/-- `str::parse::<i32>` on the strings of the tests. -/
def parse (s : String) : Option Int :=
  match s.toList with
  | '-' :: cs => (digits cs).map fun n => -(n : Int)
  | cs => (digits cs).map fun n => (n : Int)

/-! ### `categorical_utils` -/

example : mapOption (some 1) (· + 1) = some 2 ∧ mapOption (none : Option Int) (· + 1) = none := by
  decide
example : mapResult (.ok 1 : Except String Int) (· + 1) = .ok 2 := rfl
example : mapResult (.error "error" : Except String Int) (· + 1) = .error "error" := rfl
example : bimapResult (.ok 1 : Except String Int) (· + 1) String.toUpper = .ok 2 := rfl
example : bimapResult (.error "error" : Except String Int) (· + 1) String.toUpper = .error "ERROR" :=
  congrArg Except.error (by decide +kernel)
/-- `test_flat_map_option` -/
def safeDivide (x y : Int) : Option Int := if y ≠ 0 then some (x / y) else none
example : flatMapOption (some 20) (safeDivide · 4) = some 5 ∧
    flatMapOption (some 10) (safeDivide · 0) = none ∧
    flatMapOption (none : Option Int) some = none := by decide
/-- `test_flat_map_result` -/
def parseInt (s : String) : Except String Int :=
  match parse s with
  | some n => .ok n
  | none => .error "parse error"
example : flatMapResult (.ok "42") parseInt = .ok 42 := by
  simp [flatMapResult, parseInt, show parse "42" = some 42 by decide +kernel]
example : flatMapResult (.error "initial error") parseInt = .error "initial error" := rfl
example : compose (· * 2) (· + 1) (5 : Int) = 12 ∧
    pipe (pipe (· + 1) (· * 2)) (fun x : Int => toString x) 3 = "8" := by decide
example : flip' (fun x y : Int => x - y) 10 3 = -7 := by decide
example : filterMapCollect ["1", "not_a_number", "3", "4"] parse = [1, 3, 4] := by
  decide +kernel
example : sequenceOptions [some 1, some 2, some 3] = some [1, 2, 3] ∧
    sequenceOptions [some 1, none, some 3] = none ∧
    sequenceOptions ([] : List (Option Int)) = some [] := by decide
example : sequenceResults ([.ok 1, .ok 2, .ok 3] : List (Except String Int)) = .ok [1, 2, 3] := rfl
example : sequenceResults ([.ok 1, .error "error", .ok 3] : List (Except String Int)) = .error "error" :=
  rfl

/-- `test_data_processing_pipeline` -/
def processData (input : String) : Option String :=
  flatMapOption (parse input) fun num =>
    mapOption (if num > 0 then some num else none) fun n => "Processed: " ++ toString (n * 2)
example : processData "10" = some "Processed: 20" ∧ processData "42" = some "Processed: 84" ∧
    processData "-5" = none ∧ processData "not_a_number" = none ∧ processData "0" = none := by
  decide +kernel

/-! ### `error_utils` -/

example : sequence ([.ok 1, .ok 2, .ok 3] : List (Except String Int)) = .ok [1, 2, 3] := rfl
example : sequence ([.ok 1, .error "error", .ok 3] : List (Except String Int)) = .error "error" := rfl
/-- The function of `test_traverse`. -/
def tenOver (x : Int) : Eff Unit (Except String Int) := fun w =>
  (if x = 0 then .error "division by zero" else .ok (10 / x), w)
/-- The function that always succeeds. -/
def twice (x : Int) : Eff Unit (Except String Int) := fun w => (.ok (x * 2), w)
example : (traverse [1, 2, 3] twice ()).1 = .ok [2, 4, 6] := rfl
example : (traverse [1, 0, 3] tenOver ()).1 = .error "division by zero" := rfl
example : (traverseValidated [1, 2, 3] twice ()).1 = .Valid [2, 4, 6] := by decide
example : let result := (traverseValidated [1, 0, 3, 0, 5] tenOver ()).1
    result.isInvalid = true ∧ result.errors = ["division by zero", "division by zero"] := by decide

/-- `test_result_extensions` -/
example : extToValidated (.ok 42 : Except String Int) = .Valid 42 ∧
    extToValidated (.error "error" : Except String Int) = .invalid "error" ∧
    resultToEither (.ok 42 : Except String Int) = .Right 42 ∧
    resultToEither (.error "error" : Except String Int) = .Left "error" := by decide
example : bimapResult (.ok 42 : Except String Int) toString ("Error: " ++ ·) = .ok "42" := rfl
example : bimapResult (.error "error" : Except String Int) toString ("Error: " ++ ·) =
    .error "Error: error" := rfl

/-- `test_with_error_trait` -/
example : RWithError.toResult (.ok 42 : Except String Int) = some (.ok 42) := rfl
example : RWithError.toResult (.Right 42 : Either String Int) = some (.ok 42) := rfl
example : RWithError.toResult (.Left "error" : Either String Int) = some (.error "error") := rfl
example : RWithError.toResult (.Valid 42 : Validated String Int) = some (.ok 42) := rfl
example : RWithError.toResult (.invalid "error" : Validated String Int) = some (.error "error") := rfl
example : sequenceWithError id ([.Right 1, .Right 2, .Right 3] : List (Either String Int)) =
    some (.ok [1, 2, 3]) := rfl
example : sequenceWithError id ([.Right 1, .Left "error", .Right 3] : List (Either String Int)) =
    some (.error "error") := rfl

/-- `test_custom_error` -/
example : let e : AppError String Unit := .new "File not found"
    e.message = "File not found" ∧ e.context = none := by decide
example : let c := AppError.withContext "Network error" "while connecting to api.example.com"
    c.message = "Network error" ∧ c.context = some "while connecting to api.example.com" ∧
    (c.map ("ERROR: " ++ ·)).message = "ERROR: Network error" ∧
    (c.map ("ERROR: " ++ ·)).context = some "while connecting to api.example.com" := by decide

/-- `test_conversion_functions` -/
example : eitherToResult (.Right 42 : Either String Int) = .ok 42 := rfl
example : eitherToResult (.Left "error" : Either String Int) = .error "error" := rfl

/-! ### `hkt_utils` -/

example : filterMap' [1, 2, 3, 4, 5, 6] (· % 2 == 0) (fun n => n * n) = [4, 16, 36] ∧
    filterMap' ([] : List Int) (· > 0) (· * 2) = [] ∧
    filterMap' [1, 3, 5] (· % 2 == 0) (· * 2) = [] ∧
    filterMap' ["a", "b", "c"] (fun _ => true) id = ["a", "b", "c"] ∧
    filterMap' [1, 2, 3] (fun _ => false) id = [] ∧
    filterMap' ["a", "bb", "ccc"] (·.length > 1) (· ++ "!") = ["bb!", "ccc!"] := by decide

/-! ### `Maybe` errors -/

example : (Maybe.Just 42).tryUnwrap = .ok 42 := rfl
example : match (Maybe.Nothing : Maybe Int).tryUnwrap with
    | .ok _ => False
    | .error e => e.core = "Cannot unwrap Nothing value" ∧
        e.context = ["Called `try_unwrap()` on a `Nothing` value"] := ⟨rfl, rfl⟩

/-! ### `transform_utils` -/

example : transformAll [Maybe.Just 1, .Just 2, .Nothing, .Just 4] (· * 2) =
    [Maybe.Just 2, .Just 4, .Nothing, .Just 8] ∧
    transformAll ([] : List (Maybe Int)) (· * 2) = [] ∧
    transformChain (some (Maybe.Just 5)) (· * 2) = some (.Just 10) ∧
    transformChain (some (.Nothing : Maybe Int)) (· * 2) = some .Nothing ∧
    transformChain (none : Option (Maybe Int)) (· * 2) = none := by decide
example : ((Pipeline.mk (some 5)).map (· * 3)).val = some 15 ∧
    ((Pipeline.mk (some 7)).mapOwned (· + 1)).val = some 8 ∧
    (((Pipeline.mk (.Right 10 : Either String Int)).map (· * 2)).map toString).val =
      .Right "20" ∧
    ((Pipeline.mk (.Left "error" : Either String Int)).map (· * 2)).val = .Left "error" := by decide

/-! ### `MonadError` -/

/-- The handler of `test_result_catch`. -/
def handler (e : String) : Except String Int := if e = "not found" then .ok 0 else .error e
example : (throwResult "error" : Except String Int) = .error "error" := rfl
example : catchResult (.error "not found") handler = .ok 0 := rfl
example : catchResult (.ok 42) (fun _ : String => .ok (0 : Int)) = .ok 42 := rfl
example : catchOwnedResult (.error "not found") handler = .ok 0 := rfl
example : catchOwnedResult (.ok 42) (fun _ : String => .ok (0 : Int)) = .ok 42 := rfl
example : mapErrorToResult (.error "not found" : Except String Int) ("Error: " ++ ·) =
    .error "Error: not found" := rfl
example : mapErrorToResult (.ok 42 : Except String Int) id = .ok 42 := rfl
example : mapErrorToOwnedResult (.error "not found" : Except String Int) ("Error: " ++ ·) =
    .error "Error: not found" := rfl
example : (throwOption () : Option Int) = none ∧ catchOption none (fun _ => some 0) = some 0 ∧
    catchOption (some 42) (fun _ => some 0) = some 42 ∧
    catchOwnedOption none (fun _ => some 0) = some 0 ∧
    catchOwnedOption (some 42) (fun _ => some 0) = some 42 := by decide
example : mapErrorToOption (none : Option Int) (fun _ => "Not found") = .error "Not found" := rfl
example : mapErrorToOption (some 42) (fun _ => "Not found") = .ok 42 := rfl
example : mapErrorToOwnedOption (none : Option Int) (fun _ => "Not found") = .error "Not found" := rfl
example : mapErrorToOwnedOption (some 42) (fun _ => "Not found") = .ok 42 := rfl

/-! ### `AsyncM` -/

/-- `try_get().await` in a world that the tests do not use. -/
def await (m : AsyncM Unit A) : Except Panic A := ((m.tryGet).run ()).1
/-- `async move { a }` -/
def fut (a : A) : Fut Unit A := .ret a
/-- A future that yields once before it finishes. -/
def slow (a : A) : Fut Unit A := .step id fun _ => .ret a
/-- The panic of the tests. -/
def boom : Panic := .str "fail!"

example : await (.pure 42) = .ok 42 := rfl
example : await ((AsyncM.pure 42).fmap fun x => fut (x * 2)) = .ok 84 := rfl
example : await ((AsyncM.pure 42).fmapOwned fun x => fut (toString x)) = .ok "42" := rfl
example : await ((AsyncM.pure 42).bind fun x => fut (.pure (x * 2))) = .ok 84 := rfl
example : await ((AsyncM.pure 42).bindOwned fun x => fut (.pure (toString x))) = .ok "42" := rfl
example : (match ((AsyncM.pure 42).apply [] (.pure fun x => Act.ret (x * 2)) ()).1 with
    | .ok m => await m
    | .error p => .error p) = .ok 84 := rfl
example : await ((AsyncM.pure 42).applyOwned [] (.pure fun x => Act.ret (toString x))) = .ok "42" := rfl
example : await ((((AsyncM.pure 42).bind fun x => fut (.pure (x + 1))).bind fun x =>
    fut (.pure (x * 2))).bind fun x => fut (.pure (toString x))) = .ok "86" := rfl
example : await ((((AsyncM.pure 42).bindOwned fun x => fut (.pure (x + 1))).bindOwned fun x =>
    fut (.pure (x * 2))).bindOwned fun x => fut (.pure (toString x))) = .ok "86" := rfl
example : await ((AsyncM.pure 42).bind fun x => (slow (x * 2)).bind fun r => fut (.pure r)) = .ok 84 :=
  rfl
example : await (AsyncM.fromResultOrDefault (fut (.ok 42 : Except String Int)) 0) = .ok 42 := rfl
example : await (AsyncM.fromResultOrDefault (fut (.error "error" : Except String Int)) 100) = .ok 100 :=
  rfl
example : await (AsyncM.new (fut 123)) = .ok 123 := rfl
example : (match ((AsyncM.new (fut 10)).zipWith [] (AsyncM.new (fut "hello"))
      (fun x y => Act.ret (y ++ " " ++ toString x)) ()).1 with
    | .ok m => await m
    | .error p => .error p) = .ok "hello 10" := rfl
example : (match ((AsyncM.pure 20).zip [] (AsyncM.pure "world") ()).1 with
    | .ok m => await m
    | .error p => .error p) = .ok (20, "world") := rfl
example : await ((AsyncM.new (.panic boom) : AsyncM Unit Int).recoverWith 0) = .ok 0 := rfl
example : await ((AsyncM.pure 42).recoverWith 0) = .ok 42 := rfl
example : await (((AsyncM.pure 1).bind fun _ => .panic boom : AsyncM Unit Int).recoverWith 99) =
    .ok 99 := rfl
example : (match ((AsyncM.pure 1).zipWith [] (AsyncM.new (.panic boom) : AsyncM Unit Int)
      (fun x y => Act.ret (x + y)) ()).1 with
    | .ok m => await (m.recoverWith 0)
    | .error p => .error p) = .ok 0 := rfl

end Rustica.Conformance.Utils
