/-!
# `IO::new_async` run by several threads (`src/datatypes/io.rs` 770-796; `delay`, 1352-1360)

A transition system.  Every thread may run the `IO` any number of times; each transition is one atomic step of
the closure.  `lock().unwrap().take()` is one step: the guard lives only for this statement and no other code runs
under it, so the mutex is never poisoned.  The result of the future is chosen when it completes; the future (or
the surrounding `block_on`, when called from inside a runtime) may also panic.  Waiting forever is not a step.
-/

namespace Rustica

/-- Where a thread is in the closure of `new_async`. -/
inductive NAPc (A : Type)
  | idle
  | calling
  | missed
  | running
  | computed (v : A)
  | late
  | done (v : A)
  | panicked
deriving DecidableEq, Repr

/-- Not inside a run. -/
def NAPc.inactive {A : Type} : NAPc A → Bool
  | .idle => true
  | .done _ => true
  | .panicked => true
  | _ => false

/-- The shared state: the `OnceLock`, whether the future is still in the `Mutex<Option<F>>`, how often a future was
started, the value it produced, whether it panicked, and the threads. -/
structure NAState (A : Type) where
  cache : Option A
  slot : Bool
  starts : Nat
  produced : Option A
  crashed : Bool
  pc : Nat → NAPc A

namespace NAState
variable {A : Type}

/-- After `new_async(fut)` (`io.rs` 775-776). -/
def init : NAState A := ⟨none, true, 0, none, false, fun _ => .idle⟩

/-- Thread `t` moves to `p`. -/
def goto (s : NAState A) (t : Nat) (p : NAPc A) : NAState A :=
  ⟨s.cache, s.slot, s.starts, s.produced, s.crashed, fun u => if u = t then p else s.pc u⟩

end NAState

/-- One step of thread `t`. -/
inductive NAStep {A : Type} (t : Nat) : NAState A → NAState A → Prop
  /-- `run()` is called. -/
  | start (s) : (s.pc t).inactive = true → NAStep t s (s.goto t .calling)
  /-- `result_cache.get()` is `Some` (779-781). -/
  | hit (s v) : s.pc t = .calling → s.cache = some v → NAStep t s (s.goto t (.done v))
  /-- `result_cache.get()` is `None`. -/
  | miss (s) : s.pc t = .calling → s.cache = none → NAStep t s (s.goto t .missed)
  /-- `take()` gives the future (783-784). -/
  | take (s) : s.pc t = .missed → s.slot = true →
      NAStep t s ({ s with slot := false, starts := s.starts + 1 }.goto t .running)
  /-- `take()` gives `None`. -/
  | late (s) : s.pc t = .missed → s.slot = false → NAStep t s (s.goto t .late)
  /-- The future completes (785-789). -/
  | complete (s v) : s.pc t = .running → NAStep t s ({ s with produced := some v }.goto t (.computed v))
  /-- The future panics; `unwrap` of the join error. -/
  | crash (s) : s.pc t = .running → NAStep t s ({ s with crashed := true }.goto t .panicked)
  /-- `result_cache.set(result)` (790; ignored when already set), return. -/
  | store (s v) : s.pc t = .computed v →
      NAStep t s ({ s with cache := some (s.cache.getD v) }.goto t (.done v))
  /-- `result_cache.get().unwrap()` (793), set. -/
  | lateHit (s v) : s.pc t = .late → s.cache = some v → NAStep t s (s.goto t (.done v))
  /-- `result_cache.get().unwrap()` (793), not set: panic. -/
  | latePanic (s) : s.pc t = .late → s.cache = none → NAStep t s (s.goto t .panicked)

/-- `s'` can be reached from `s` by some schedule of any number of threads. -/
inductive NARun {A : Type} : NAState A → NAState A → Prop
  | refl (s) : NARun s s
  | step {s s' s'' t} : NARun s s' → NAStep t s' s'' → NARun s s''

/-- Schedules in which a run starts and ends before another thread's run. -/
inductive NASeqRun {A : Type} : NAState A → NAState A → Prop
  | refl (s) : NASeqRun s s
  | step {s s' s'' t} : NASeqRun s s' → NAStep t s' s'' → (∀ u, u ≠ t → (s'.pc u).inactive = true) →
      NASeqRun s s''

end Rustica
