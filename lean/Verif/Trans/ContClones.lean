import Verif.Calls.Clones
import Verif.Trans.ContT

/-!
# `ContT` and `Cont` with `Clone::clone` as a call that has effects

As in `Calls/Clones`: continuations and closures may have effects and panic.  Cloning the `Arc` of a closure calls no `Clone` of
the user.  The phantom parameter `R` of `ContT` is dropped.
-/

namespace Rustica
open Act (ret)

/-- `struct ContT<R, M, A>` (`cont_t.rs` 42-45). -/
structure ContTC (σ M A : Type) where
  runCont : (A → Act σ M) → Act σ M

namespace ContTC
variable {σ M A B : Type}

/-- `new` (`cont_t.rs` 74-82). -/
def new (f : (A → Act σ M) → Act σ M) : ContTC σ M A := ⟨f⟩
/-- `run` (`cont_t.rs` 107-112). -/
def run (self : ContTC σ M A) (k : A → Act σ M) : Act σ M := self.runCont k
/-- `pure` (`cont_t.rs` 137-144). -/
def pure [RClone σ A] (a : A) : ContTC σ M A := new fun k => (clone a).seq k
/-- `bind` (`cont_t.rs` 172-188). -/
def bind (self : ContTC σ M A) (f : A → Act σ (ContTC σ M B)) : ContTC σ M B :=
  new fun k => self.runCont fun a => (f a).seq fun fb => fb.runCont k
/-- `fmap` (`cont_t.rs` 213-226). -/
def fmap (self : ContTC σ M A) (f : A → Act σ B) : ContTC σ M B := new fun k => self.runCont fun a => (f a).seq k
/-- `apply` (`cont_t.rs` 256-272). -/
def apply (self : ContTC σ M A) (cf : ContTC σ M (A → Act σ B)) : ContTC σ M B :=
  new fun k => cf.runCont fun f => self.runCont fun a => (f a).seq k
/-- `call_cc` (`cont_t.rs` 314-333). -/
def callCC [RClone σ A] (f : (A → ContTC σ M B) → Act σ (ContTC σ M A)) : ContTC σ M A :=
  new fun k => (f fun a => new fun _ignored => (clone a).seq k).seq fun c => c.runCont k
/-- `MonadTransformer::lift` (`cont_t.rs` 343-345). -/
def lift [RClone σ M] (base : M) : ContTC σ M A := new fun _k => clone base

end ContTC

/-- `struct Cont<R, A>` (`cont.rs` 197-200). -/
structure ContC (σ R A : Type) where
  inner : ContTC σ (RId R) A

namespace ContC
variable {σ R A B : Type}

/-- `run` (`cont.rs` 304-309). -/
def run (self : ContC σ R A) (k : A → Act σ R) : Act σ R :=
  (self.inner.run fun a => (k a).seq fun r => ret ⟨r⟩).seq fun i => ret i.value
/-- `return_cont` (`cont.rs` 357-361), `pure` (697-699). -/
def pure [RClone σ A] (a : A) : ContC σ R A := ⟨ContTC.pure a⟩
/-- `fmap` (`cont.rs` 431-439). -/
def fmap (self : ContC σ R A) (f : A → Act σ B) : ContC σ R B := ⟨self.inner.fmap f⟩
/-- `bind` (`cont.rs` 540-548). -/
def bind (self : ContC σ R A) (f : A → Act σ (ContC σ R B)) : ContC σ R B :=
  ⟨self.inner.bind fun a => (f a).seq fun c => ret c.inner⟩
/-- `apply` (`cont.rs` 620-627). -/
def apply (self : ContC σ R A) (cf : ContC σ R (A → Act σ B)) : ContC σ R B := ⟨self.inner.apply cf.inner⟩
/-- `call_cc` (`cont.rs` 670-682): `self` is only used for its type. -/
def callCC [RClone σ B] (_self : ContC σ R A) (f : (B → ContC σ R A) → Act σ (ContC σ R B)) : ContC σ R B :=
  ⟨ContTC.callCC fun k => (f fun b => ⟨k b⟩).seq fun c => ret c.inner⟩

end ContC
end Rustica
