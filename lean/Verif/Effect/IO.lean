import Verif.Effect.Act
import Verif.Error.Pipeline

/-!
# `IO` (`src/datatypes/io.rs`)

Closures are effectful and may panic (`Act`).  Building an `IO` is itself code, because `fmap`, `bind` and
`apply` on `Pure` call their closure at once: the builders that can do so return `Act σ (RIO σ B)`.
Not modelled: `Debug`, the tokio runtime behind `run_async` other than "runs the closure on another
thread and reports a panic through `expect`".  `new_async` is in `Effect/NewAsync.lean`.
-/

namespace Rustica

/-- `enum IOError` (`io.rs` 465-471). -/
inductive IOError
  | ValueNotSet
  | Other (msg : String)
deriving DecidableEq, Repr

/-- `enum IO<A>` (`io.rs` 583-586); `Clone` (1477-1484) is the identity. -/
inductive RIO (σ A : Type)
  | Pure (a : A)
  | Effect (f : Act σ A)

namespace RIO
variable {σ A B : Type}

/-- `new` (`io.rs` 627-632). -/
def new (f : Act σ A) : RIO σ A := .Effect f
/-- `run` (`io.rs` 658-663), `Evaluate::evaluate` (1495-1497). -/
def run : RIO σ A → Act σ A
  | .Pure a => Act.ret a
  | .Effect f => f
/-- `is_pure` (`io.rs` 718-720). -/
def isPure : RIO σ A → Bool
  | .Pure _ => true
  | .Effect _ => false
/-- `is_effect` (`io.rs` 739-741). -/
def isEffect : RIO σ A → Bool
  | .Pure _ => false
  | .Effect _ => true
/-- `run_async` (`io.rs` 689-699): the panic of the spawned task becomes the panic of `expect`; `dbg` renders the
join error. -/
def runAsync (dbg : Panic → String) (self : RIO σ A) : Act σ A := fun w =>
  match self.run.catchUnwind w with
  | (.ok (.ok a), w') => (.ok a, w')
  | (.ok (.error p), w') => (.error (.string ("Failed to run blocking task: " ++ dbg p)), w')
  | (.error p, w') => (.error p, w')
/-- `fmap` (`io.rs` 821-831). -/
def fmap (self : RIO σ A) (f : A → Act σ B) : Act σ (RIO σ B) :=
  match self with
  | .Pure a => (f a).seq fun b => Act.ret (.Pure b)
  | .Effect effect => Act.ret (.Effect (effect.seq f))
/-- `pure` (`io.rs` 855-858). -/
def pure (a : A) : RIO σ A := .Pure a
/-- `bind` (`io.rs` 888-898). -/
def bind (self : RIO σ A) (f : A → Act σ (RIO σ B)) : Act σ (RIO σ B) :=
  match self with
  | .Pure a => f a
  | .Effect effect => Act.ret (.Effect (effect.seq fun a => (f a).seq run))
/-- The panic message (`io.rs` 926-932, repeated at 983-989 and 1030-1036). -/
def panicMessage : Panic → String
  | .str s => s
  | .string s => s
  | .other => "IO operation panicked with unknown error"
/-- `try_get` (`io.rs` 922-936). -/
def tryGet (self : RIO σ A) : Act σ (Except (ComposableError IOError) A) :=
  self.run.catchUnwind.seq fun r =>
    match r with
    | .ok value => Act.ret (.ok value)
    | .error e => Act.ret (.error (ComposableError.new (.Other (panicMessage e))))
/-- `try_get_with_context` (`io.rs` 976-995); the context is a string. -/
def tryGetWithContext (self : RIO σ A) (context : String) : Act σ (Except (ComposableError IOError) A) :=
  self.run.catchUnwind.seq fun r =>
    match r with
    | .ok value => Act.ret (.ok value)
    | .error e => Act.ret (.error
        ((ComposableError.new (.Other (panicMessage e))).withContext (ofString context) ()).1)
/-- `try_get_composable` (`io.rs` 1026-1040); `Box` is the identity. -/
def tryGetComposable (self : RIO σ A) : Act σ (Except (ComposableError IOError) A) :=
  self.run.catchUnwind.seq fun r =>
    match r with
    | .ok value => Act.ret (.ok value)
    | .error e => Act.ret (.error (ComposableError.new (.Other (panicMessage e))))
/-- `try_get_composable_with_context` (`io.rs` 1077-1082). -/
def tryGetComposableWithContext (self : RIO σ A) (context : String) :
    Act σ (Except (ComposableError IOError) A) :=
  self.tryGetComposable.seq fun r =>
    match r with
    | .ok value => Act.ret (.ok value)
    | .error e => Act.ret (.error (e.withContext (ofString context) ()).1)
/-- `into_error_pipeline` (`io.rs` 1105-1107). -/
def intoErrorPipeline (self : RIO σ A) : Act σ (ErrorPipeline A (ComposableError IOError)) :=
  self.tryGetComposable.seq fun r => Act.ret (ErrorPipeline.new r)
/-- `recover` (`io.rs` 1134-1142). -/
def recover (self : RIO σ A) (recovery : ComposableError IOError → Act σ (RIO σ A)) : RIO σ A :=
  new (self.tryGetComposable.seq fun r =>
    match r with
    | .ok value => Act.ret value
    | .error error => (recovery error).seq run)
/-- `recover_with` (`io.rs` 1168-1173). -/
def recoverWith (self : RIO σ A) (defaultValue : A) : RIO σ A :=
  new (self.tryGetComposable.seq fun r =>
    match r with
    | .ok value => Act.ret value
    | .error _ => Act.ret defaultValue)
/-- `.map(|io| io.try_get_composable())` driven to the end (`io.rs` 1216-1218). -/
def tryAll : List (RIO σ A) → Act σ (List (Except (ComposableError IOError) A))
  | [] => Act.ret []
  | io :: rest => io.tryGetComposable.seq fun r => (tryAll rest).seq fun rs => Act.ret (r :: rs)
/-- `Result::is_ok`. -/
def isOk {E : Type} : Except E A → Bool
  | .ok _ => true
  | .error _ => false
/-- `Result::unwrap` on the successes (the failures do not occur there). -/
def oks {E : Type} : List (Except E A) → List A
  | [] => []
  | .ok a :: rest => a :: oks rest
  | .error _ :: rest => oks rest
/-- `Result::unwrap_err` on the failures. -/
def errs {E : Type} : List (Except E A) → List E
  | [] => []
  | .ok _ :: rest => errs rest
  | .error e :: rest => e :: errs rest
/-- `sequence_composable` (`io.rs` 1211-1226). -/
def sequenceComposable (ios : List (RIO σ A)) : Act σ (Except (List (ComposableError IOError)) (List A)) :=
  (tryAll ios).seq fun rs =>
    let successes := (rs.partition isOk).1
    let failures := (rs.partition isOk).2
    if failures.isEmpty then Act.ret (.ok (oks successes)) else Act.ret (.error (errs failures))
/-- `apply` (`io.rs` 1291-1323); the `unreachable!` arm is a panic. -/
def apply (self : RIO σ A) (mf : RIO σ (A → Act σ B)) : Act σ (RIO σ B) :=
  match self, mf with
  | .Pure v, .Pure f => (f v).seq fun b => Act.ret (.Pure b)
  | .Pure a, .Effect mf => Act.ret (.Effect (mf.seq fun f => f a))
  | .Effect ma, .Pure f => Act.ret (.Effect (ma.seq f))
  | .Effect ma, .Effect mf => Act.ret (.Effect (mf.seq fun f => ma.seq f))
/-- `delay_sync` (`io.rs` 1385-1390); `sleep` is `std::thread::sleep`. -/
def delaySync (sleep : Nat → Act σ Unit) (duration : Nat) (a : A) : RIO σ A :=
  new ((sleep duration).seq fun _ => Act.ret a)
/-- `when` (`io.rs` 1410-1423). -/
def when (predicate : Act σ Bool) (computation : Act σ A) (default : Act σ A) : RIO σ A :=
  new (predicate.seq fun b => if b then computation else default)
/-- `combine` (`io.rs` 1440-1447). -/
def combine (io1 : RIO σ A) (io2 : RIO σ B) : RIO σ (A × B) :=
  new (io1.run.seq fun a => io2.run.seq fun b => Act.ret (a, b))
/-- `ios_vec.iter().map(|io| io.run()).collect()` (`io.rs` 1472). -/
def runAll : List (RIO σ A) → Act σ (List A)
  | [] => Act.ret []
  | io :: rest => io.run.seq fun a => (runAll rest).seq fun as => Act.ret (a :: as)
/-- `sequence` (`io.rs` 1467-1473). -/
def sequence (ios : List (RIO σ A)) : RIO σ (List A) := new (runAll ios)

end RIO

end Rustica
