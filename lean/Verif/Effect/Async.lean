import Verif.Effect.Act

/-!
# `AsyncM` (`src/datatypes/async_monad.rs`)

A future is the tree of its segments between two await points: each segment reads and changes the world in one
step and continues depending on what it read; it ends with a value or a panic.  (Futures that never finish are outside
the model; a future that is dropped before its end is in `Verif/Theorems/AsyncCancel.lean`.)  `tokio::join!` interleaves the segments of its two parts; the interleaving is
given by a schedule, a list of choices (`true` = the second part moves), and the theorems hold for every schedule.
Calling the stored closure and awaiting its future always happen together in the code, so `Effect` stores the
future.  `Arc`, `boxed`, `clone` are identities.
-/

namespace Rustica

/-- A terminating future. -/
inductive Fut (σ A : Type)
  | ret (a : A)
  | panic (p : Panic)
  | step (upd : σ → σ) (k : σ → Fut σ A)

namespace Fut
variable {σ A B C : Type}

/-- Run a future alone. -/
def run : Fut σ A → Act σ A
  | .ret a => fun w => (.ok a, w)
  | .panic p => fun w => (.error p, w)
  | .step upd k => fun w => (k w).run (upd w)
/-- `let a = x.await; f(a).await`. -/
def bind : Fut σ A → (A → Fut σ B) → Fut σ B
  | .ret a, f => f a
  | .panic p, _ => .panic p
  | .step upd k, f => .step upd fun w => (k w).bind f
/-- `AssertUnwindSafe(x).catch_unwind().await`. -/
def catchUnwind : Fut σ A → Fut σ (Except Panic A)
  | .ret a => .ret (.ok a)
  | .panic p => .ret (.error p)
  | .step upd k => .step upd fun w => (k w).catchUnwind
/-- Synchronous code inside a future. -/
def ofAct (m : Act σ A) : Fut σ A :=
  .step (fun w => (m w).2) fun w => match (m w).1 with
    | .ok a => .ret a
    | .error p => .panic p
/-- The first part of `join!` has a segment `upd` to run and continues with `jk`. -/
def joinStep (upd : σ → σ) (jk : σ → Fut σ B → List Bool → Fut σ (A × B)) : Fut σ B → List Bool → Fut σ (A × B)
  | y, [] => .step upd fun w => jk w y []
  | y, false :: s => .step upd fun w => jk w y s
  | .ret b, true :: s => .step upd fun w => jk w (.ret b) s
  | .panic q, true :: _ => .panic q
  | .step upd' k', true :: s => .step upd' fun w => joinStep upd jk (k' w) s
/-- The first part of `join!` panics when it moves. -/
def joinPanic (p : Panic) : Fut σ B → List Bool → Fut σ (A × B)
  | .panic q, true :: _ => .panic q
  | .step upd' k', true :: s => .step upd' fun w => joinPanic p (k' w) s
  | _, _ => .panic p
/-- `tokio::join!(x, y)` under a schedule. -/
def join : Fut σ A → Fut σ B → List Bool → Fut σ (A × B)
  | .ret a => fun y _ => y.bind fun b => .ret (a, b)
  | .panic p => joinPanic p
  | .step upd k => joinStep upd fun w => join (k w)

end Fut

/-- `struct AsyncM<A>` with `enum AsyncMInner<A>` (`async_monad.rs` 218-223, 461-464). -/
inductive AsyncM (σ A : Type)
  | Pure (a : A)
  | Effect (run : Fut σ A)

namespace AsyncM
variable {σ A B C E : Type}

/-- `new` (`async_monad.rs` 500-509). -/
def new (f : Fut σ A) : AsyncM σ A := .Effect f
/-- `pure` (`async_monad.rs` 538-546). -/
def pure (a : A) : AsyncM σ A := .Pure a
/-- `try_get` (`async_monad.rs` 573-581). -/
def tryGet : AsyncM σ A → Fut σ A
  | .Pure value => .ret value
  | .Effect run => run
/-- The general path of `fmap` and `bind` (`if let Effect … else unreachable!()`, 647-651, 735-739). -/
def runEffect : AsyncM σ A → Fut σ A
  | .Effect run => run
  | .Pure _ => .panic (.str "internal error: entered unreachable code")
/-- `fmap` (`async_monad.rs` 620-658). -/
def fmap (self : AsyncM σ A) (f : A → Fut σ B) : AsyncM σ B :=
  match self with
  | .Pure value => .Effect (f value)
  | inner => .Effect ((runEffect inner).bind f)
/-- `bind` (`async_monad.rs` 700-750). -/
def bind (self : AsyncM σ A) (f : A → Fut σ (AsyncM σ B)) : AsyncM σ B :=
  match self with
  | .Pure value => .Effect ((f value).bind fun next => match next with
      | .Pure v => .ret v
      | .Effect run => run)
  | inner => .Effect ((runEffect inner).bind fun a => (f a).bind fun next => match next with
      | .Pure v => .ret v
      | .Effect run => run)
/-- One side of the `join!`s: `match &inner { Pure(v) => v.clone(), Effect(run) => run().await }`. -/
def side : AsyncM σ A → Fut σ A
  | .Pure v => .ret v
  | .Effect run => run
/-- `apply` (`async_monad.rs` 785-827). -/
def apply (sched : List Bool) (self : AsyncM σ A) (mf : AsyncM σ (A → Act σ B)) : Act σ (AsyncM σ B) :=
  match self, mf with
  | .Pure v, .Pure f => (f v).seq fun result => Act.ret (AsyncM.pure result)
  | selfInner, mfInner => Act.ret (.Effect
      (((side selfInner).join (side mfInner) sched).bind fun p => Fut.ofAct (p.2 p.1)))
/-- `from_result_or_default` (`async_monad.rs` 867-892). -/
def fromResultOrDefault (f : Fut σ (Except E A)) (defaultValue : A) : AsyncM σ A :=
  .Effect (f.bind fun r => match r with
    | .ok value => .ret value
    | .error _ => .ret defaultValue)
/-- `fmap_owned` (`async_monad.rs` 924-947). -/
def fmapOwned (self : AsyncM σ A) (f : A → Fut σ B) : AsyncM σ B :=
  .Effect ((side self).bind f)
/-- `bind_owned` (`async_monad.rs` 982-1009). -/
def bindOwned (self : AsyncM σ A) (f : A → Fut σ (AsyncM σ B)) : AsyncM σ B :=
  .Effect ((side self).bind fun a => (f a).bind fun mb => match mb with
    | .Pure value => .ret value
    | .Effect run => run)
/-- `apply_owned` (`async_monad.rs` 1042-1074). -/
def applyOwned (sched : List Bool) (self : AsyncM σ A) (mf : AsyncM σ (A → Act σ B)) : AsyncM σ B :=
  .Effect (((side self).join (side mf) sched).bind fun p => Fut.ofAct (p.2 p.1))
/-- `zip_with` (`async_monad.rs` 1112-1152). -/
def zipWith (sched : List Bool) (self : AsyncM σ A) (other : AsyncM σ B) (f : A → B → Act σ C) :
    Act σ (AsyncM σ C) :=
  match self, other with
  | .Pure a, .Pure b => (f a b).seq fun result => Act.ret (AsyncM.pure result)
  | selfInner, otherInner => Act.ret (.Effect
      (((side selfInner).join (side otherInner) sched).bind fun p => Fut.ofAct (f p.1 p.2)))
/-- `zip` (`async_monad.rs` 1177-1183). -/
def zip (sched : List Bool) (self : AsyncM σ A) (other : AsyncM σ B) : Act σ (AsyncM σ (A × B)) :=
  self.zipWith sched other fun a b => Act.ret (a, b)
/-- `recover_with` (`async_monad.rs` 1221-1250). -/
def recoverWith (self : AsyncM σ A) (default : A) : AsyncM σ A :=
  .Effect ((side self).catchUnwind.bind fun result => match result with
    | .ok value => .ret value
    | .error _ => .ret default)

end AsyncM

end Rustica
