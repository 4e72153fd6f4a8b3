import Verif.Calls.Clones

/-!
# `StateT` with `Clone::clone` as a call that has effects

As in `Calls/Clones`: the functions given by the user may have effects and panic.  Cloning the `Arc` of a closure calls no `Clone`
of the user; the clones of the closures themselves are not counted.
-/

namespace Rustica
open Act (ret)

/-- `enum StateT<S, M, A>` (`state_t.rs` 99-103). -/
inductive StateTC (σ S M A : Type)
  | Pure (a : A)
  | LiftM (m : M)
  | Effect (f : S → Act σ M)

namespace StateTC
variable {σ S M N O A B C : Type}

/-- `new` (`state_t.rs` 153-158). -/
def new (f : S → Act σ M) : StateTC σ S M A := .Effect f
/-- `run_state` (`state_t.rs` 199-209). -/
def runState [RClone σ M] (self : StateTC σ S M A) (state : S) : Act σ M :=
  match self with
  | .Pure _ => fun w => (.error (.str "Cannot run Pure StateT without a base monad"), w)
  | .LiftM m => clone m
  | .Effect f => f state
/-- `get` (`state_t.rs` 234-240). -/
def get [RClone σ S] (pure : S × S → Act σ M) : StateTC σ S M S := new fun s => (clone s).seq fun s' => pure (s', s)
/-- `put` (`state_t.rs` 266-272). -/
def put [RClone σ S] (newState : S) (pure : S × S → Act σ M) : StateTC σ S M S :=
  new fun s => (clone newState).seq fun s' => pure (s', s)
/-- `modify` (`state_t.rs` 298-304). -/
def modify (f : S → Act σ S) (pure : S × Unit → Act σ M) : StateTC σ S M Unit := new fun s => (f s).seq fun s' => pure (s', ())
/-- `fmap_with` (`state_t.rs` 338-369). -/
def fmapWith [RClone σ M] [RClone σ A] (self : StateTC σ S M A) (f : A → Act σ B)
    (mapFn : M → (S × A → Act σ (S × B)) → Act σ M) : Act σ (StateTC σ S M B) :=
  match self with
  | .Pure a => (clone a).seq fun a' => (f a').seq fun b => ret (.Pure b)
  | .LiftM m => (clone m).seq fun m' => (mapFn m' fun p => (f p.2).seq fun b => ret (p.1, b)).seq fun r => ret (.LiftM r)
  | .Effect run => ret (new fun s => (run s).seq fun m => mapFn m fun p => (f p.2).seq fun b => ret (p.1, b))
/-- `bind_with` (`state_t.rs` 415-458). -/
def bindWith [RClone σ M] [RClone σ N] [RClone σ A] (self : StateTC σ S M A) (f : A → Act σ (StateTC σ S N B))
    (bindFn : M → (S × A → Act σ N) → Act σ N) : Act σ (StateTC σ S N B) :=
  match self with
  | .Pure a => (clone a).seq f
  | .LiftM m => (clone m).seq fun m1 => ret (new fun _ => (clone m1).seq fun m2 =>
      bindFn m2 fun p => (f p.2).seq fun next => next.runState p.1)
  | .Effect run => ret (new fun s => (run s).seq fun m => bindFn m fun p => (f p.2).seq fun next => next.runState p.1)
/-- `combine_with` (`state_t.rs` 473-514). -/
def combineWith [RClone σ S] [RClone σ M] [RClone σ A] [RClone σ B] (self : StateTC σ S M A) (other : StateTC σ S M B)
    (f : A → B → Act σ C) (combineFn : M → M → (S × A → S × B → Act σ (S × C)) → Act σ M) : Act σ (StateTC σ S M C) :=
  match self, other with
  | .Pure a, .Pure b => (clone a).seq fun a' => (clone b).seq fun b' => (f a' b').seq fun c => ret (.Pure c)
  | .LiftM m1, .LiftM m2 => (clone m1).seq fun m1' => (clone m2).seq fun m2' =>
      (combineFn m1' m2' fun p q => (f p.2 q.2).seq fun c => ret (p.1, c)).seq fun r => ret (.LiftM r)
  | .Effect run1, .Effect run2 => ret (new fun s => (clone s).seq fun s' => (run1 s').seq fun m1 => (run2 s).seq fun m2 =>
      combineFn m1 m2 fun p q => (f p.2 q.2).seq fun c => ret (q.1, c))
  | _, _ => fun w => (.error (.str "Cannot combine StateT variants of different types"), w)
/-- `pure` (`state_t.rs` 541-547). -/
def pure [RClone σ A] (a : A) (pureFn : S × A → Act σ M) : StateTC σ S M A := new fun s => (clone a).seq fun a' => pureFn (s, a')
/-- `apply` (`state_t.rs` 629-681) on two effects (653-658); the other cases are not in this model. -/
def applyEffects [RClone σ S] (run1 run2 : S → Act σ M) (applyFn : M → M → Act σ M) : StateTC σ S M C :=
  new fun s => (clone s).seq fun s' => (run1 s').seq fun m1 => (run2 s).seq fun m2 => applyFn m1 m2
/-- `join` (`state_t.rs` 723-738). -/
def join [RClone σ M] [RClone σ A] (self : StateTC σ S M A) (joinFn : M → Act σ O) : Act σ (StateTC σ S O A) :=
  match self with
  | .Pure a => (clone a).seq fun a' => ret (.Pure a')
  | .LiftM m => (clone m).seq fun m' => (joinFn m').seq fun r => ret (.LiftM r)
  | .Effect run => ret (new fun s => (run s).seq joinFn)
/-- `MonadTransformer::lift` (`state_t.rs` 750-752). -/
def lift [RClone σ M] (base : M) : StateTC σ S M A := new fun _ => clone base

end StateTC
end Rustica
