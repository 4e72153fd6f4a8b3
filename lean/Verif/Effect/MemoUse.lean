/-!
# `Memoizer` used from one thread by closures that may themselves use memoizers (`src/datatypes/wrapper/memoizer.rs`)

`Effect/Memoizer` has the interleavings of many threads, with closures that do not use the memoizer.  Here one
thread runs any program over any number of memoizers: closures with effects, closures that panic, closures that call
`get_or_compute` or `clear` again, and `catch_unwind` around any part of it.

The `RwLock` is modelled by its contract for one thread: acquiring a lock that this thread already holds for writing
never returns (std: "might panic or deadlock"; here it blocks, as the current implementation does); a guard dropped by a
panic poisons the lock; `unwrap` of a poisoned lock panics.  The read guard of lines 202-207 is released before any
closure runs, so it is never held across a call.  `HashMap` is a partial function on keys.
-/

namespace Rustica

/-- What one thread does: return, panic, act on its world, `get_or_compute` on memoizer `m` (with a closure that is
again such a program), `clear` memoizer `m`, or run a part under `catch_unwind`. -/
inductive MemoProg (σ K V : Type) : Type → Type 1
  | ret {R : Type} (r : R) : MemoProg σ K V R
  | panic {R : Type} : MemoProg σ K V R
  | act {A R : Type} (f : σ → A × σ) (next : A → MemoProg σ K V R) : MemoProg σ K V R
  | get {R : Type} (m : Nat) (k : K) (f : K → MemoProg σ K V V) (next : V → MemoProg σ K V R) : MemoProg σ K V R
  | clear {R : Type} (m : Nat) (next : MemoProg σ K V R) : MemoProg σ K V R
  | attempt {A R : Type} (p : MemoProg σ K V A) (next : Option A → MemoProg σ K V R) : MemoProg σ K V R

/-- `struct Memoizer<K, V> { cache: RwLock<HashMap<K, V>> }` (`memoizer.rs` 105-107): the map, whether this thread
holds the write lock, whether the lock is poisoned. -/
structure MemoCell (K V : Type) where
  cache : K → Option V
  held : Bool
  poisoned : Bool

/-- `Memoizer::new` (`memoizer.rs` 144-148), `default` (114-116). -/
def MemoCell.new {K V : Type} : MemoCell K V := ⟨fun _ => none, false, false⟩

/-- All memoizers, the world of the closures, and (for the theorems only) which memoizers were called, latest first. -/
structure MemoWorld (σ K V : Type) where
  memos : Nat → MemoCell K V
  world : σ
  used : List Nat

namespace MemoWorld
variable {σ K V : Type}
/-- Change memoizer `m`. -/
def upd (s : MemoWorld σ K V) (m : Nat) (g : MemoCell K V → MemoCell K V) : MemoWorld σ K V :=
  { s with memos := fun i => if i = m then g (s.memos i) else s.memos i }
/-- The write lock of `m` is acquired (`memoizer.rs` 209, 255). -/
def hold (s : MemoWorld σ K V) (m : Nat) : MemoWorld σ K V := s.upd m fun c => { c with held := true }
/-- The guard of `m` is dropped. -/
def drop (s : MemoWorld σ K V) (m : Nat) : MemoWorld σ K V := s.upd m fun c => { c with held := false }
/-- The guard of `m` is dropped while panicking. -/
def poison (s : MemoWorld σ K V) (m : Nat) : MemoWorld σ K V :=
  s.upd m fun c => { c with held := false, poisoned := true }
/-- `HashMap::insert` (`memoizer.rs` 215). -/
def insert [DecidableEq K] (s : MemoWorld σ K V) (m : Nat) (k : K) (v : V) : MemoWorld σ K V :=
  s.upd m fun c => { c with cache := fun k' => if k' = k then some v else c.cache k' }
/-- `HashMap::clear` (`memoizer.rs` 256). -/
def wipe (s : MemoWorld σ K V) (m : Nat) : MemoWorld σ K V := s.upd m fun c => { c with cache := fun _ => none }
/-- Records a call to memoizer `m`. -/
def note (s : MemoWorld σ K V) (m : Nat) : MemoWorld σ K V := { s with used := m :: s.used }
end MemoWorld

/-- How a part of the program ends: it returns, it panics, or it waits forever for a lock that it holds itself. -/
inductive MemoOut (R : Type)
  | done (r : R)
  | panicked
  | stuck
deriving DecidableEq

namespace MemoProg
variable {σ K V : Type}

/-- Runs a program.  `get` is `get_or_compute` (`memoizer.rs` 197-217), `clear` is `clear` (254-257). -/
def run [DecidableEq K] : {R : Type} → MemoProg σ K V R → MemoWorld σ K V → MemoOut R × MemoWorld σ K V
  | _, .ret r, s => (.done r, s)
  | _, .panic, s => (.panicked, s)
  | _, .act f next, s => (next (f s.world).1).run { s with world := (f s.world).2 }
  | _, .get m k f next, s =>
    if (s.memos m).held then (.stuck, s.note m)
    else if (s.memos m).poisoned then (.panicked, s.note m)
    else match (s.memos m).cache k with
      | some v => (next v).run (s.note m)
      | none =>
        match (f k).run ((s.note m).hold m) with
        | (.done v, s') => (next v).run ((s'.insert m k v).drop m)
        | (.panicked, s') => (.panicked, s'.poison m)
        | (.stuck, s') => (.stuck, s')
  | _, .clear m next, s =>
    if (s.memos m).held then (.stuck, s.note m)
    else if (s.memos m).poisoned then (.panicked, s.note m)
    else next.run ((s.note m).wipe m)
  | _, .attempt p next, s =>
    match p.run s with
    | (.done a, s') => (next (some a)).run s'
    | (.panicked, s') => (next none).run s'
    | (.stuck, s') => (.stuck, s')

/-- `memo.get_or_compute(k, f)` alone. -/
def call (m : Nat) (k : K) (f : K → MemoProg σ K V V) : MemoProg σ K V V := .get m k f .ret

/-- The program contains no `clear` of memoizer `m`. -/
inductive NoClear (m : Nat) : {R : Type} → MemoProg σ K V R → Prop
  | ret {R : Type} (r : R) : NoClear m (.ret r)
  | panic {R : Type} : NoClear m (.panic : MemoProg σ K V R)
  | act {A R : Type} (f : σ → A × σ) (next : A → MemoProg σ K V R) : (∀ a, NoClear m (next a)) → NoClear m (.act f next)
  | get {R : Type} (m' : Nat) (k : K) (f : K → MemoProg σ K V V) (next : V → MemoProg σ K V R) :
      (∀ k, NoClear m (f k)) → (∀ v, NoClear m (next v)) → NoClear m (.get m' k f next)
  | clear {R : Type} (m' : Nat) (next : MemoProg σ K V R) : m' ≠ m → NoClear m next → NoClear m (.clear m' next)
  | attempt {A R : Type} (p : MemoProg σ K V A) (next : Option A → MemoProg σ K V R) :
      NoClear m p → (∀ a, NoClear m (next a)) → NoClear m (.attempt p next)

end MemoProg
end Rustica
