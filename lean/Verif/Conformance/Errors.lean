import Verif.Error.Pipeline
import Verif.Error.Convert

/-!
The unit tests of `tests/error/mod.rs`, `tests/error/context_tests.rs` and
`tests/error/lazy_context.rs`, run on the model.  They are not proofs of any property; they check that
the model computes what the authors' tests say the code computes.
-/

namespace Rustica.Conformance

/-- `test_composable_error_creation`, `test_composable_error_with_context`,
`test_composable_error_with_code` -/
example : (ComposableError.new "core error").core = "core error" ∧
    (ComposableError.new "core error").context = [] ∧ (ComposableError.new "core error").code = none ∧
    (ComposableError.withCode "not found" 404).code = some 404 := by decide

example :
    let e1 := ((ComposableError.new "core error").withContext (ofString (σ := Unit) "step 1 failed") ()).1
    let e2 := (e1.withContext (ofString (σ := Unit) "operation failed") ()).1
    e2.core = "core error" ∧ e2.context = ["operation failed", "step 1 failed"] := by decide

/-- `test_error_category_*`, `test_conversion_functions` -/
example : (ecLiftEither 42 : Either String Nat) = .Right 42 := rfl
example : (ecHandleEither "failed" : Either String Nat) = .Left "failed" := rfl
example : (ecHandleValidated "failed" : Validated String Nat).errors = ["failed"] := rfl
example : eitherToResult (.Left "error" : Either String Nat) = .error "error" := rfl
example : eitherToResult (.Right 42 : Either String Nat) = .ok 42 := rfl
example : resultToEither (.ok 42 : Except String Nat) = .Right 42 := rfl
example : resultToEither (.error "error" : Except String Nat) = .Left "error" := rfl

/-- `test_with_context_function`, `test_core_to_composable_uses_from` -/
example : (withContext "core error" (ofString (σ := Unit) "operation failed") ()).1.context =
    ["operation failed"] := rfl
example : (coreToComposable "test error").context = [] := rfl

/-- `test_error_pipeline` -/
example :
    let p := ((ErrorPipeline.new (.error "parse error" : Except String Nat)).withContext
      (ofString (σ := Unit) "Failed to process input") ()).1
    (p.recover (σ := Unit) (fun _ w => (.ok 42, w)) ()).1.finish = .ok 42 := rfl

/-- `test_error_pipeline_finish_unboxed` -/
example :
    let p1 := ((ErrorPipeline.new (.error 404 : Except Nat Nat)).withContext
      (ofString (σ := Unit) "Request failed") ()).1
    let p2 := (p1.withContext (ofString (σ := Unit) "Server error") ()).1
    (match p2.finishWithoutBox with
      | .ok _ => none
      | .error c => some (c.core, c.context)) = some (404, ["Server error", "Request failed"]) := rfl

/-- `test_context_accumulation_logic` (and `test_context_dropped_on_success`) -/
example :
    let p1 := ((ErrorPipeline.new (.ok 1 : Except String Nat)).withContext
      (ofString (σ := Unit) "context A") ()).1
    let p2 := (p1.andThen (U := Unit) (σ := Unit) (fun _ w => (.error "error", w)) ()).1
    let p3 := (p2.withContext (ofString (σ := Unit) "context B") ()).1
    (match p3.finish with
      | .ok _ => none
      | .error c => some c.context) = some ["context B"] ∧
    (match p2.finish with
      | .ok _ => none
      | .error c => some c.context) = some [] := ⟨rfl, rfl⟩

/-- `test_lazy_context_evaluation`, `test_lazy_context_evaluation_on_error`: the flag is the world. -/
example : (withContextResult (.ok 42 : Except String Nat) (ofLazy fun _ : Bool => ("failed", true)) false).2
    = false := rfl
example : (withContextResult (.error "oops" : Except String Nat) (ofLazy fun _ : Bool => ("yes", true)) false).2
    = true := rfl

end Rustica.Conformance
