import Verif.Conformance.PVec
import Verif.Data.Access
import Verif.Effect.IO
import Verif.Trans.StateT
import Verif.Examples.ErrorPipeline

/-!
`examples/readme.rs`, `examples/error.rs` and `examples/identity_migration_v0_11_0.rs`, run on the model: the
assertions of the first and what the other two print.  They are not proofs of any property.
-/

namespace Rustica.Conformance.Examples
open RFunctor (fmap)
open PVec.Conformance (pvec)

/-! ### `readme.rs` -/

/-- `pvec_example` -/
example : let v1 := pvec [1, 2, 3, 4, 5]
    let v2 := v1.pushBack 6
    let v3 := v1.update 0 10
    v1.get 0 = some 1 ∧ v2.get 5 = some 6 ∧ v3.get 0 = some 10 := by decide +kernel
/-- `basic_usage` -/
example : (fmap (· * 2) (Maybe.Just 42)).unwrap = some 84 := rfl
example : (fmap (fun s : String => s.toUpper) (Either.Right "success" : Either String String)).unwrapRight =
    some "SUCCESS" := by decide +kernel
example : (fmap (· * 2) (Choice.new 1 [2, 3])).toVec = [2, 4, 6] := rfl
/-- `state_management`: the pair is value, state. -/
example : (State.new fun count : Int => some (count + 1, count)).runState 0 = some (1, 0) := rfl
/-- `io_operations` -/
example : (RIO.new fun w => (.ok "Hello from IO!", w) : RIO Unit String).run () = (.ok "Hello from IO!", ()) := rfl

/-! ### `error.rs` -/

/-- `str::parse` on the two texts of the example. -/
def parse : String → Option Int
  | "200" => some 200
  | _ => none

example : ErrorExample.report (ErrorExample.example1 parse "not_a_number") = "Error occurred:\n" ++
    "Failed to parse configuration file -> Recovery attempt initiated -> Invalid number format" := rfl
example : ErrorExample.report (ErrorExample.example2 parse "200") =
    "Success: Processed 200 rows via db_connection_handle" := rfl
example : ErrorExample.example3 = "Executing transaction -> Establishing secure connection -> " ++
    "Validating authentication token -> Loading user preferences -> " ++
    "Transaction failed: insufficient permissions" := by decide +kernel

/-! ### `identity_migration_v0_11_0.rs` -/

example : (Maybe.Just 42).unwrap = some 42 ∧ (Maybe.Just 42).unwrapOr 0 = 42 ∧
    (Maybe.Just 42).toOption = some 42 ∧ (Maybe.Nothing : Maybe Nat).unwrapOr 0 = 0 := by decide
example : (Choice.new 42 [84, 126]).first = some 42 ∧ (Choice.newEmpty : Choice Nat).first.getD 0 = 0 ∧
    (Choice.new 42 [84, 126]).toVec.head? = some 42 := by decide
example : (Either.Right 42 : Either String Nat).unwrapRight = some 42 ∧
    (Either.Right 42 : Either String Nat).unwrapOr 0 = 42 ∧
    (Either.Left "error" : Either String Nat).unwrapOr 0 = 0 := by decide
example : (RId.mk 42).extract = 42 := rfl
example : (Maybe.Nothing : Maybe String).unwrapOr "30s" = "30s" ∧
    (Maybe.Just "redis://localhost").toOption = some "redis://localhost" := by decide

end Rustica.Conformance.Examples
