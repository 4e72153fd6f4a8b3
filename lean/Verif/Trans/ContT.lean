import Verif.Data.Id

/-!
# `ContT` (`src/transformers/cont_t.rs`) and `Cont` (`src/datatypes/cont.rs`)

The phantom parameter `R` of `ContT` is dropped.
-/

namespace Rustica

/-- `struct ContT<R, M, A>` (`cont_t.rs` 42-45). -/
structure RContT (M A : Type) where
  runCont : (A → M) → M

namespace RContT
variable {M A B : Type}

/-- `new` (`cont_t.rs` 74-82). -/
def new (f : (A → M) → M) : RContT M A := ⟨f⟩
/-- `run` (`cont_t.rs` 107-112). -/
def run (self : RContT M A) (k : A → M) : M := self.runCont k
/-- `pure` (`cont_t.rs` 137-144). -/
def pure (a : A) : RContT M A := new fun k => k a
/-- `bind` (`cont_t.rs` 172-188). -/
def bind (self : RContT M A) (f : A → RContT M B) : RContT M B :=
  new fun k => self.runCont fun a => (f a).runCont k
/-- `fmap` (`cont_t.rs` 213-226). -/
def fmap (self : RContT M A) (f : A → B) : RContT M B := new fun k => self.runCont fun a => k (f a)
/-- `apply` (`cont_t.rs` 256-272). -/
def apply (self : RContT M A) (cf : RContT M (A → B)) : RContT M B :=
  new fun k => cf.runCont fun f => self.runCont fun a => k (f a)
/-- `call_cc` (`cont_t.rs` 314-333). -/
def callCC (f : (A → RContT M B) → RContT M A) : RContT M A :=
  new fun k => (f fun a => new fun _ignored => k a).runCont k
/-- `MonadTransformer::lift` (`cont_t.rs` 343-345). -/
def lift (base : M) : RContT M A := new fun _k => base

end RContT

/-- `struct Cont<R, A> { inner: ContT<R, Id<R>, A> }` (`cont.rs` 197-200); `From<ContT<…>>` (723-732),
`to_cont`/`from_cont` (`cont_t.rs` 363-383) are the constructor and the projection. -/
structure Cont (R A : Type) where
  inner : RContT (RId R) A

namespace Cont
variable {R A B : Type}

/-- `new` (`cont.rs` 248-256), `new_inner` (271-278). -/
def new (f : (A → R) → R) : Cont R A := ⟨RContT.new fun k => ⟨f fun a => (k a).value⟩⟩
/-- `run` (`cont.rs` 304-309). -/
def run (self : Cont R A) (k : A → R) : R := (self.inner.run fun a => ⟨k a⟩).value
/-- `return_cont` (`cont.rs` 357-361), `pure` (697-699). -/
def pure (a : A) : Cont R A := ⟨RContT.pure a⟩
/-- `fmap` (`cont.rs` 431-439). -/
def fmap (self : Cont R A) (f : A → B) : Cont R B := ⟨self.inner.fmap f⟩
/-- `bind` (`cont.rs` 540-548). -/
def bind (self : Cont R A) (f : A → Cont R B) : Cont R B := ⟨self.inner.bind fun a => (f a).inner⟩
/-- `apply` (`cont.rs` 620-627). -/
def apply (self : Cont R A) (cf : Cont R (A → B)) : Cont R B := ⟨self.inner.apply cf.inner⟩
/-- `call_cc` (`cont.rs` 670-682): `self` is only used for its type. -/
def callCC (_self : Cont R A) (f : (B → Cont R A) → Cont R B) : Cont R B :=
  ⟨RContT.callCC fun k => (f fun b => ⟨k b⟩).inner⟩
/-- `ContT::to_cont` (`cont_t.rs` 363-365). -/
def ofContT (c : RContT (RId R) A) : Cont R A := ⟨c⟩
/-- `ContT::from_cont` (`cont_t.rs` 381-383). -/
def toContT (c : Cont R A) : RContT (RId R) A := c.inner

end Cont

end Rustica
