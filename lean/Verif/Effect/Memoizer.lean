/-!
# `Memoizer` used by several threads (`src/datatypes/wrapper/memoizer.rs`)

A transition system.  Any number of threads call `get_or_compute` and `clear` any number of times; each
transition is one atomic step.  The `RwLock` is modelled by its contract: a read lock is granted when no thread is
in a write section, a write lock when no thread is in a read or write section; a panic in a write section poisons
the lock and every later acquisition panics through `unwrap`.  `HashMap` is a partial function.  The closure of a
caller may return any value that `allowed` permits for the key, or panic.  The closure does not call the memoizer
itself (such a call waits for its own lock forever).  The ghost fields `epoch`, `starts`, `results`, `rets` record
the history.
-/

namespace Rustica

/-- Where a thread is.  `e0` is the epoch when the call began. -/
inductive MPc (K V : Type)
  | idle
  | wantRead (k : K) (e0 : Nat)
  | inRead (k : K) (e0 : Nat)
  | wantWrite (k : K) (e0 : Nat)
  | inWrite (k : K) (e0 : Nat)
  | computing (k : K) (e0 : Nat)
  | computed (k : K) (v : V) (e0 : Nat)
  | returning (k : K) (v : V) (e0 e : Nat)
  | wantClear
  | inClear
  | panicked

namespace MPc
variable {K V : Type}
/-- Holds the read lock. -/
def reads : MPc K V → Bool
  | .inRead _ _ => true
  | _ => false
/-- Holds the write lock. -/
def writes : MPc K V → Bool
  | .inWrite _ _ => true
  | .computing _ _ => true
  | .computed _ _ _ => true
  | .inClear => true
  | _ => false
end MPc

/-- One finished call of `get_or_compute`: key, result, the epoch in which the value was read or computed, and the
epochs at the beginning and the end of the call. -/
structure MRet (K V : Type) where
  key : K
  val : V
  began : Nat
  at_ : Nat
  ended : Nat

/-- The memoizer (`memoizer.rs` 105-107), its lock, the threads, and the history: number of `clear`s, executions of
closures started `(epoch, key)`, values produced `(epoch, key, value)`, calls returned. -/
structure MState (K V : Type) where
  cache : K → Option V
  poisoned : Bool
  pc : Nat → MPc K V
  epoch : Nat
  starts : List (Nat × K)
  results : List (Nat × K × V)
  rets : List (MRet K V)

namespace MState
variable {K V : Type}
/-- `Memoizer::new` (`memoizer.rs` 144-148). -/
def init : MState K V := ⟨fun _ => none, false, fun _ => .idle, 0, [], [], []⟩
/-- Thread `t` moves to `p`. -/
def goto (s : MState K V) (t : Nat) (p : MPc K V) : MState K V :=
  { s with pc := fun u => if u = t then p else s.pc u }
end MState

/-- `HashMap::insert`. -/
def mInsert {K V : Type} [DecidableEq K] (c : K → Option V) (k : K) (v : V) : K → Option V :=
  fun k' => if k' = k then some v else c k'

/-- One step of thread `t` (`memoizer.rs` 197-217 and 254-257). -/
inductive MStep {K V : Type} [DecidableEq K] (allowed : K → V → Prop) (t : Nat) : MState K V → MState K V → Prop
  /-- `get_or_compute(k, f)` is called. -/
  | call (s k) : s.pc t = .idle → MStep allowed t s (s.goto t (.wantRead k s.epoch))
  /-- `self.cache.read()` (203). -/
  | acqRead (s k e0) : s.pc t = .wantRead k e0 → s.poisoned = false → (∀ u, (s.pc u).writes = false) →
      MStep allowed t s (s.goto t (.inRead k e0))
  /-- `.unwrap()` of a poisoned read lock. -/
  | readPoison (s k e0) : s.pc t = .wantRead k e0 → s.poisoned = true → MStep allowed t s (s.goto t .panicked)
  /-- `cache.get(&key)` is `Some` (204-206). -/
  | readHit (s k e0 v) : s.pc t = .inRead k e0 → s.cache k = some v →
      MStep allowed t s (s.goto t (.returning k v e0 s.epoch))
  /-- `cache.get(&key)` is `None`; the read guard is dropped (207). -/
  | readMiss (s k e0) : s.pc t = .inRead k e0 → s.cache k = none → MStep allowed t s (s.goto t (.wantWrite k e0))
  /-- `self.cache.write()` (209). -/
  | acqWrite (s k e0) : s.pc t = .wantWrite k e0 → s.poisoned = false →
      (∀ u, (s.pc u).writes = false ∧ (s.pc u).reads = false) → MStep allowed t s (s.goto t (.inWrite k e0))
  /-- `.unwrap()` of a poisoned write lock. -/
  | writePoison (s k e0) : s.pc t = .wantWrite k e0 → s.poisoned = true → MStep allowed t s (s.goto t .panicked)
  /-- The second `cache.get(&key)` is `Some` (211-213). -/
  | writeHit (s k e0 v) : s.pc t = .inWrite k e0 → s.cache k = some v →
      MStep allowed t s (s.goto t (.returning k v e0 s.epoch))
  /-- The second `cache.get(&key)` is `None`; `f(&key)` starts (214). -/
  | compute (s k e0) : s.pc t = .inWrite k e0 → s.cache k = none →
      MStep allowed t s ({ s with starts := (s.epoch, k) :: s.starts }.goto t (.computing k e0))
  /-- `f(&key)` returns. -/
  | computed (s k e0 v) : s.pc t = .computing k e0 → allowed k v →
      MStep allowed t s ({ s with results := (s.epoch, k, v) :: s.results }.goto t (.computed k v e0))
  /-- `f(&key)` panics; the guard is dropped while panicking. -/
  | fnPanic (s k e0) : s.pc t = .computing k e0 → MStep allowed t s ({ s with poisoned := true }.goto t .panicked)
  /-- `cache.insert(key, value)` (215) and end of the guard. -/
  | insert (s k v e0) : s.pc t = .computed k v e0 →
      MStep allowed t s ({ s with cache := mInsert s.cache k v }.goto t (.returning k v e0 s.epoch))
  /-- The call returns. -/
  | ret (s k v e0 e) : s.pc t = .returning k v e0 e →
      MStep allowed t s ({ s with rets := ⟨k, v, e0, e, s.epoch⟩ :: s.rets }.goto t .idle)
  /-- `clear()` is called. -/
  | callClear (s) : s.pc t = .idle → MStep allowed t s (s.goto t .wantClear)
  /-- `self.cache.write()` (255). -/
  | acqClear (s) : s.pc t = .wantClear → s.poisoned = false →
      (∀ u, (s.pc u).writes = false ∧ (s.pc u).reads = false) → MStep allowed t s (s.goto t .inClear)
  /-- `.unwrap()` of a poisoned write lock. -/
  | clearPoison (s) : s.pc t = .wantClear → s.poisoned = true → MStep allowed t s (s.goto t .panicked)
  /-- `cache.clear()` (256) and return. -/
  | clear (s) : s.pc t = .inClear →
      MStep allowed t s ({ s with cache := fun _ => none, epoch := s.epoch + 1 }.goto t .idle)

/-- `s'` can be reached from `s` by some schedule of any number of threads. -/
inductive MRun {K V : Type} [DecidableEq K] (allowed : K → V → Prop) : MState K V → MState K V → Prop
  | refl (s) : MRun allowed s s
  | step {s s' s'' t} : MRun allowed s s' → MStep allowed t s' s'' → MRun allowed s s''

end Rustica
