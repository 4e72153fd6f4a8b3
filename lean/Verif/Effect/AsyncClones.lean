import Verif.Calls.Clones
import Verif.Effect.Async

/-!
# `AsyncM` with `Clone::clone` as a call that has effects

As in `Effect/Async`, but a `clone` of a value runs as a segment of the future it is written in.  Cloning an `Arc` calls no
`Clone` of the user; neither, in this model, does cloning a closure that is given to `fmap`, `bind` or `zip_with` (it has
captured nothing whose `clone` counts).
-/

namespace Rustica
open Act (ret)

/-- `struct AsyncM<A>` with `enum AsyncMInner<A>` (`async_monad.rs` 218-223, 461-464). -/
inductive AsyncMC (σ A : Type)
  | Pure (a : A)
  | Effect (run : Fut σ A)

namespace AsyncMC
variable {σ A B C E F : Type}

/-- `new` (`async_monad.rs` 500-509). -/
def new (f : Fut σ A) : AsyncMC σ A := .Effect f
/-- `pure` (`async_monad.rs` 538-546). -/
def pure (a : A) : AsyncMC σ A := .Pure a
/-- `try_get` (`async_monad.rs` 573-581), and the same `match` wherever it is written out (717-720, 741-744, 809-812,
815-818, 937-940, 995-998, 1000-1003, 1056-1059, 1062-1065, 1134-1137, 1140-1143, 1233-1236). -/
def tryGet [RClone σ A] : AsyncMC σ A → Fut σ A
  | .Pure value => Fut.ofAct (clone value)
  | .Effect run => run
/-- `fmap` (`async_monad.rs` 620-658). -/
def fmap [RClone σ A] (self : AsyncMC σ A) (f : A → Fut σ B) : AsyncMC σ B :=
  match self with
  | .Pure value => .Effect ((Fut.ofAct (clone value)).bind f)
  | .Effect run => .Effect (run.bind f)
/-- `bind` (`async_monad.rs` 700-750). -/
def bind [RClone σ A] [RClone σ B] (self : AsyncMC σ A) (f : A → Fut σ (AsyncMC σ B)) : AsyncMC σ B :=
  match self with
  | .Pure value => .Effect ((Fut.ofAct (clone value)).bind fun a => (f a).bind fun next => next.tryGet)
  | .Effect run => .Effect (run.bind fun a => (f a).bind fun next => next.tryGet)
/-- `apply` (`async_monad.rs` 785-827); `F: Fn(A) -> B`, and `call` is the call of such a function. -/
def apply [RClone σ A] [RClone σ F] (call : F → A → Act σ B) (sched : List Bool) (self : AsyncMC σ A) (mf : AsyncMC σ F) :
    Act σ (AsyncMC σ B) :=
  match self, mf with
  | .Pure v, .Pure f => (clone f).seq fun f' => (clone v).seq fun v' => (call f' v').seq fun result => ret (.pure result)
  | self, mf => ret (.Effect ((self.tryGet.join mf.tryGet sched).bind fun p => Fut.ofAct (call p.2 p.1)))
/-- `from_result_or_default` (`async_monad.rs` 867-892). -/
def fromResultOrDefault [RClone σ A] (f : Fut σ (Except E A)) (defaultValue : A) : AsyncMC σ A :=
  .Effect (f.bind fun r => match r with
    | .ok value => .ret value
    | .error _ => Fut.ofAct (clone defaultValue))
/-- `fmap_owned` (`async_monad.rs` 924-947). -/
def fmapOwned [RClone σ A] (self : AsyncMC σ A) (f : A → Fut σ B) : AsyncMC σ B := .Effect (self.tryGet.bind f)
/-- `bind_owned` (`async_monad.rs` 982-1009). -/
def bindOwned [RClone σ A] [RClone σ B] (self : AsyncMC σ A) (f : A → Fut σ (AsyncMC σ B)) : AsyncMC σ B :=
  .Effect (self.tryGet.bind fun a => (f a).bind fun mb => mb.tryGet)
/-- `apply_owned` (`async_monad.rs` 1042-1074). -/
def applyOwned [RClone σ A] [RClone σ F] (call : F → A → Act σ B) (sched : List Bool) (self : AsyncMC σ A)
    (mf : AsyncMC σ F) : AsyncMC σ B :=
  .Effect ((self.tryGet.join mf.tryGet sched).bind fun p => Fut.ofAct (call p.2 p.1))
/-- `zip_with` (`async_monad.rs` 1112-1152). -/
def zipWith [RClone σ A] [RClone σ B] (sched : List Bool) (self : AsyncMC σ A) (other : AsyncMC σ B) (f : A → B → Act σ C) :
    Act σ (AsyncMC σ C) :=
  match self, other with
  | .Pure a, .Pure b => (clone a).seq fun a' => (clone b).seq fun b' => (f a' b').seq fun result => ret (.pure result)
  | self, other => ret (.Effect ((self.tryGet.join other.tryGet sched).bind fun p => Fut.ofAct (f p.1 p.2)))
/-- `recover_with` (`async_monad.rs` 1221-1250): the default is cloned before the future is made. -/
def recoverWith [RClone σ A] (self : AsyncMC σ A) (default : A) : AsyncMC σ A :=
  .Effect ((Fut.ofAct (clone default)).bind fun d => self.tryGet.catchUnwind.bind fun result => match result with
    | .ok value => .ret value
    | .error _ => .ret d)

end AsyncMC
end Rustica
