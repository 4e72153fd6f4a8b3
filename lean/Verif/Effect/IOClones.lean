import Verif.Calls.Clones

/-!
# `IO` with `Clone::clone` as a call that has effects

As in `Calls/Clones`.  The closures of effects may have effects and panic.  Cloning the `Arc` of an effect calls no `Clone`
of the user.
-/

namespace Rustica
open Act (ret mapList)

/-- `enum IO<A>` (`io.rs` 583-586). -/
inductive IOC (σ A : Type)
  | Pure (a : A)
  | Effect (f : Act σ A)

namespace IOC
variable {σ A B F : Type}

/-- `Clone` (`io.rs` 1477-1484). -/
def cloneIO [RClone σ A] : IOC σ A → Act σ (IOC σ A)
  | Pure a => (clone a).seq fun a' => ret (Pure a')
  | Effect f => ret (Effect f)
/-- `new` (`io.rs` 627-632). -/
def new (f : Act σ A) : IOC σ A := Effect f
/-- `pure` (`io.rs` 855-858). -/
def pure (value : A) : IOC σ A := Pure value
/-- `run` (`io.rs` 658-663). -/
def run [RClone σ A] : IOC σ A → Act σ A
  | Pure a => clone a
  | Effect f => f
/-- `is_pure` (`io.rs` 718-720). -/
def isPure : IOC σ A → Bool
  | Pure _ => true
  | Effect _ => false
/-- `fmap` (`io.rs` 821-831). -/
def fmap [RClone σ A] (self : IOC σ A) (f : A → Act σ B) : Act σ (IOC σ B) :=
  match self with
  | Pure a => (clone a).seq fun a' => (f a').seq fun b => ret (Pure b)
  | Effect effect => ret (Effect (effect.seq f))
/-- `bind` (`io.rs` 888-898). -/
def bind [RClone σ A] [RClone σ B] (self : IOC σ A) (f : A → Act σ (IOC σ B)) : Act σ (IOC σ B) :=
  match self with
  | Pure a => (clone a).seq f
  | Effect effect => ret (Effect (effect.seq fun a => (f a).seq fun next => next.run))
/-- `apply` (`io.rs` 1291-1323); `F: Fn(A) -> B`, and `call` is the call of such a function. -/
def apply [RClone σ A] [RClone σ F] (call : F → A → Act σ B) (self : IOC σ A) (mf : IOC σ F) : Act σ (IOC σ B) :=
  match self, mf with
  | Pure v, Pure f => (clone v).seq fun v' => (call f v').seq fun b => ret (Pure b)
  | Pure a, Effect mf => (clone a).seq fun a1 =>
      ret (Effect (mf.seq fun f => (clone a1).seq fun a2 => call f a2))
  | Effect ma, Pure f => (clone f).seq fun f' => ret (Effect (ma.seq fun a => call f' a))
  | Effect ma, Effect mf => ret (Effect (mf.seq fun f => ma.seq fun a => call f a))
/-- `combine` (`io.rs` 1440-1447). -/
def combine [RClone σ A] [RClone σ B] (io1 : IOC σ A) (io2 : IOC σ B) : Act σ (IOC σ (A × B)) :=
  io1.cloneIO.seq fun c1 => io2.cloneIO.seq fun c2 =>
    ret (new (c1.run.seq fun a => c2.run.seq fun b => ret (a, b)))
/-- `sequence` (`io.rs` 1467-1473). -/
def sequence [RClone σ A] (ios : List (IOC σ A)) : IOC σ (List A) := new (mapList run ios)

end IOC
end Rustica
