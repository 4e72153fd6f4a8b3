import Verif.Trans.StateT
import Verif.Trans.ContT
import Verif.Effect.IO

/-!
The unit tests of `tests/transformers/state_t.rs`, `tests/datatypes/test_cont.rs` and
`tests/datatypes/test_io.rs`, run on the model.  They are not proofs of any property; they check that
the model computes what the authors' tests say the code computes.
-/

namespace Rustica.Conformance

/-! ### `StateT` -/

/-- `test_state_t_creation_and_running`, `test_state_t_get_and_put`, `test_state_t_modify` -/
example : (RStateT.new (A := Int) fun s : Int => some (some (s + 1, s))).runState 5 =
    some (some (6, 5)) ∧
    (RStateT.get some : RStateT Int (Option (Int × Int)) Int).runState 10 = some (some (10, 10)) ∧
    (RStateT.put 42 some : RStateT Int (Option (Int × Int)) Int).runState 10 = some (some (42, 10)) ∧
    (RStateT.modify (· * 2) some : RStateT Int (Option (Int × Unit)) Unit).runState 21 =
      some (some (42, ())) := by decide

/-- `test_state_t_composition` -/
example :
    let addOne : RStateT Int (Option (Int × Int)) Int := .new fun s => some (some (s + 1, s + 1))
    let double : RStateT Int (Option (Int × Int)) Int := .new fun s => some (some (s * 2, s))
    let both : RStateT Int (Option (Int × Int)) Int := addOne.bindWith (fun _ => double)
      (fun m f => match m with
        | some (s, _) => f (s, 0)
        | none => some none)
    both.runState 5 = some (some (12, 6)) := by decide

/-- The computation of the error tests: fails when the state is 0. -/
def safeDiv : RStateT Int (Except String (Int × Int)) Int :=
  .new fun s => some (if s = 0 then .error "Division by zero" else .ok (s, 100 / s))

/-- `test_state_t_with_error_handling`, `test_state_t_standardized_error_handling` -/
example : safeDiv.runState 4 = some (.ok (4, 25)) := rfl
example : safeDiv.runState 0 = some (.error "Division by zero") := rfl
example : safeDiv.tryRunState 4 = some (.ok (4, 25)) := rfl
example : safeDiv.tryRunState 0 = some (.error (ComposableError.new "Division by zero")) := rfl
example : (safeDiv.tryRunStateWithContext 0 (ofString (σ := Unit) "processing user input") ()).1
    = some (.error ⟨"Division by zero", ["processing user input"], none⟩) := rfl
example : safeDiv.tryEvalState 4 = some (.ok 25) := rfl
example : safeDiv.tryEvalState 0 = some (.error (ComposableError.new "Division by zero")) := rfl
example : (RStateT.new (A := Int) fun s : Int => some (if s = 0 then (.error "Division by zero" : Except String (Int × Int))
      else .ok (s + 1, 100 / s))).tryExecState 4 = some (.ok 5) := rfl
example : (safeDiv.mapError String.length).runState 0 = some (.error 16) := rfl
example : (safeDiv.mapError String.length).runState 5 = some (.ok (5, 20)) := rfl

/-! ### `Cont` -/

/-- `test_cont_creation_and_run`, `test_cont_functor`, `test_cont_bind`, `test_cont_apply`,
`test_cont_complex_composition` -/
example : (Cont.pure 42 : Cont Nat Nat).run (· * 2) = 84 ∧
    (Cont.new fun k => k 42 : Cont Nat Nat).run (· * 2) = 84 ∧
    ((Cont.pure 42 : Cont Nat Nat).fmap (· + 1)).run (· * 2) = 86 ∧
    ((Cont.pure 42 : Cont Nat Nat).bind fun x => Cont.pure (x + 1)).run (· * 2) = 86 ∧
    ((Cont.pure 42 : Cont Nat Nat).apply (Cont.pure (· + 1))).run (· * 2) = 86 ∧
    ((((Cont.pure 10 : Cont Nat Nat).fmap (· * 2)).bind fun x => Cont.pure (x + 5)).fmap (· - 3)).run id = 22 := by
  decide

/-- `test_cont_error_handling` -/
example :
    let safeDiv : Nat → Nat → Cont String Nat := fun n d =>
      if d = 0 then Cont.new fun _ => "Division by zero" else Cont.pure (n / d)
    (safeDiv 10 2).run Nat.repr = "5" ∧
    (safeDiv 10 0).run (fun _ => "Unexpected success") = "Division by zero" := ⟨rfl, rfl⟩

/-- `test_cont_call_cc` -/
example :
    ((Cont.pure 1 : Cont String Nat).callCC (B := Nat) fun exit =>
      (Cont.pure 1).bind fun x => if x > 0 then (exit 100).bind Cont.pure else Cont.pure (x + 1)).run
        Nat.repr = "100" := rfl

example :
    ((Cont.pure 5 : Cont String Nat).callCC (B := Nat) fun _ => (Cont.pure 5).fmap (· * 2)).run
      Nat.repr = "10" := rfl

/-! ### `IO`: the shared mutex of the tests is the world -/

/-- The counter of `test_io_creation_and_run` and `test_io_shared_state`. -/
def increment : RIO Nat Nat := .new fun w => (.ok (w + 1), w + 1)
def getCount : RIO Nat Nat := .new fun w => (.ok w, w)

example : increment.run 0 = (.ok 1, 1) := rfl
example : increment.run 1 = (.ok 2, 2) := rfl
example : getCount.run 2 = (.ok 2, 2) := rfl
example : increment.run 2 = (.ok 3, 3) := rfl

/-- A closure without effects. -/
def quiet {A B : Type} (f : A → B) : A → Act Nat B := fun a w => (.ok (f a), w)

/-- Constructs in the world 0 and runs the outcome. -/
def built {A : Type} (c : Act Nat (RIO Nat A)) : Except Panic A :=
  match c 0 with
  | (.ok io, w) => (io.run w).1
  | (.error p, _) => .error p

/-- `test_io_monad`, `test_io_apply` -/
example : built ((RIO.new fun w => (.ok 42, w)).bind (quiet fun x => RIO.new fun w => (.ok (x * 2), w)))
    = .ok 84 := rfl
example : built ((RIO.pure 42 : RIO Nat Nat).bind (quiet fun x => RIO.new fun w => (.ok (x * 2), w)))
    = .ok 84 := rfl
example : built ((RIO.new fun w => (.ok 42, w)).apply (RIO.new fun w => (.ok (quiet (· * 2)), w)))
    = .ok 84 := rfl

/-- `test_io_try_get` -/
example : ((RIO.new fun w => (.ok 42, w) : RIO Nat Nat).tryGet 0).1 = .ok (.ok 42) := rfl

end Rustica.Conformance
