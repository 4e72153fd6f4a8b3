import Verif.Calls.Clones

/-!
# `ReaderT`, `Reader` and `State` with `Clone::clone` as a call that has effects

As in `Calls/Clones`, `RClone σ A` is any implementation of `Clone`, and closures have effects.  A reader or a state
holds a closure behind an `Arc`; cloning the `Arc` calls no `Clone` of the user and is not modelled, nor are the clones
of the closures given to `fmap`, `bind` and `combine`.  `move` closures take the environment or the state by value.
-/

namespace Rustica
open Act (ret)

/-- `struct ReaderT<E, M, A>` (`reader_t.rs` 218-221). -/
structure ReaderTC (σ E M : Type) where
  runFn : E → Act σ M

namespace ReaderTC
variable {σ E M N A B C : Type} {F : Type → Type}

/-- `new` (`reader_t.rs` 270-278). -/
def new (f : E → Act σ M) : ReaderTC σ E M := ⟨f⟩
/-- `run_reader` (`reader_t.rs` 313-318), `unwrap_with` (831-833). -/
def runReader (self : ReaderTC σ E M) (env : E) : Act σ M := self.runFn env
/-- `ask` (`reader_t.rs` 358-363). -/
def ask (pure : E → Act σ M) : ReaderTC σ E M := new pure
/-- `local` (`reader_t.rs` 403-409). -/
def localE (self : ReaderTC σ E M) (f : E → Act σ E) : ReaderTC σ E M := new fun e => (f e).seq self.runFn
/-- `fmap_with` (`reader_t.rs` 607-622). -/
def fmapWith (self : ReaderTC σ E M) (f : A → Act σ B) (mapFn : M → (A → Act σ B) → Act σ N) : ReaderTC σ E N :=
  new fun e => (self.runFn e).seq fun m => mapFn m f
/-- `bind_with` (`reader_t.rs` 668-692). -/
def bindWith [RClone σ E] (self : ReaderTC σ E M) (f : A → Act σ (ReaderTC σ E N))
    (bindFn : M → (A → Act σ N) → Act σ N) : ReaderTC σ E N :=
  new fun e => (clone e).seq fun e1 => (self.runFn e1).seq fun m => (clone e).seq fun eForClosure =>
    bindFn m fun a => (f a).seq fun readerB => (clone eForClosure).seq fun e2 => readerB.runReader e2
/-- `apply_with` (`reader_t.rs` 706-725). -/
def applyWith [RClone σ E] (self f : ReaderTC σ E M) (apFn : M → M → Act σ M) : ReaderTC σ E M :=
  new fun e => (clone e).seq fun e1 => (self.runFn e1).seq fun ma => (f.runFn e).seq fun mf => apFn ma mf
/-- `combine_with` (`reader_t.rs` 781-816). -/
def combineWith [RClone σ E] [RClone σ A] [RClone σ B] (self other : ReaderTC σ E M) (f : A → B → Act σ C)
    (combineFn : M → M → (A → B → Act σ C) → Act σ M) : ReaderTC σ E M :=
  new fun e => (clone e).seq fun e1 => (self.runFn e1).seq fun ma => (clone e).seq fun e2 =>
    (other.runFn e2).seq fun mb =>
      combineFn ma mb fun a b => (clone a).seq fun aOwned => (clone b).seq fun bOwned => f aOwned bOwned
/-- `fmap` (`reader_t.rs` 879-893). -/
def fmap [RFunctorC σ F] [RClone σ A] [RClone σ B] (self : ReaderTC σ E (F A)) (f : A → Act σ B) : ReaderTC σ E (F B) :=
  new fun e => (self.runFn e).seq fun ma => fmapC (fun a => (clone a).seq f) ma
/-- `bind` (`reader_t.rs` 941-963). -/
def bind [RMonadC σ F] [RClone σ E] [RClone σ A] [RClone σ B] (self : ReaderTC σ E (F A))
    (f : A → Act σ (ReaderTC σ E (F B))) : ReaderTC σ E (F B) :=
  new fun e => (clone e).seq fun e1 => (self.runFn e1).seq fun ma => (clone e).seq fun eClone =>
    bindC ma fun sourceRef => (clone sourceRef).seq fun aOwned => (f aOwned).seq fun readerB =>
      (clone eClone).seq fun e2 => readerB.runReader e2
/-- `combine` (`reader_t.rs` 1033-1051). -/
def combine [RApplicativeC σ F] [RClone σ E] [RClone σ A] [RClone σ B] [RClone σ C] (self : ReaderTC σ E (F A))
    (other : ReaderTC σ E (F B)) (f : A → B → Act σ C) : ReaderTC σ E (F C) :=
  new fun e => (clone e).seq fun e1 => (self.runFn e1).seq fun ma => (clone e).seq fun e2 =>
    (other.runFn e2).seq fun mb => lift2C (fun a b => (clone a).seq fun a' => (clone b).seq fun b' => f a' b') ma mb

end ReaderTC

/-- `struct Reader<E, A> { inner: ReaderT<E, Id<A>, A> }` (`reader.rs` 220-222). -/
structure ReaderC (σ E A : Type) where
  inner : ReaderTC σ E (RId A)

namespace ReaderC
variable {σ E A B C : Type}

/-- `new` (`reader.rs` 250-257), `ask_transform` (410-417), `asks` (449-456), `ask` (381-389) with the conversion
`A: From<E>` as parameter. -/
def new (f : E → Act σ A) : ReaderC σ E A := ⟨ReaderTC.new fun e => (f e).seq fun a => ret ⟨a⟩⟩
/-- `run_reader` (`reader.rs` 278-281). -/
def runReader (self : ReaderC σ E A) (env : E) : Act σ A := (self.inner.runReader env).seq fun idValue => ret idValue.value
/-- `fmap` (`reader.rs` 304-319). -/
def fmap (self : ReaderC σ E A) (f : A → Act σ B) : ReaderC σ E B :=
  ⟨ReaderTC.new fun e => (self.inner.runReader e).seq fun idA => (f idA.value).seq fun b => ret ⟨b⟩⟩
/-- `bind` (`reader.rs` 342-358). -/
def bind [RClone σ E] (self : ReaderC σ E A) (f : A → Act σ (ReaderC σ E B)) : ReaderC σ E B :=
  ⟨ReaderTC.new fun e => (clone e).seq fun e1 => (self.inner.runReader e1).seq fun idA =>
    (f idA.value).seq fun readerB => readerB.inner.runReader e⟩
/-- `local` (`reader.rs` 520-529). -/
def localE (self : ReaderC σ E A) (f : E → Act σ E) : ReaderC σ E A :=
  ⟨ReaderTC.new fun e => (f e).seq self.inner.runReader⟩
/-- `combine` (`reader.rs` 563-581). -/
def combine [RClone σ E] (self : ReaderC σ E A) (other : ReaderC σ E B) (f : A → B → Act σ C) : ReaderC σ E C :=
  ⟨ReaderTC.new fun e => (clone e).seq fun e1 => (self.inner.runReader e1).seq fun a =>
    (other.inner.runReader e).seq fun b => (f a.value b.value).seq fun c => ret ⟨c⟩⟩

end ReaderC

/-- `struct State<S, A>` (`state.rs` 246, 327-330): the closure of the `StateT::Effect` that `State::new` makes; `Id` is
left out.  The other variants, which only `From<StateT<…>>` can bring in (1266-1274), are not modelled here. -/
structure StateC (σ S A : Type) where
  run : S → Act σ (A × S)

namespace StateC
variable {σ S A B C : Type}

/-- `new` (`state.rs` 379-386). -/
def new (f : S → Act σ (A × S)) : StateC σ S A := ⟨f⟩
/-- `run_state` (`state.rs` 424-427); `StateT::run_state` (`state_t.rs` 199-208) calls the closure, `Id::unwrap`
(`id.rs` 311-313) moves. -/
def runState (self : StateC σ S A) (s : S) : Act σ (A × S) := self.run s
/-- `eval_state` (`state.rs` 480-482). -/
def evalState (self : StateC σ S A) (s : S) : Act σ A := (self.runState s).seq fun r => ret r.1
/-- `exec_state` (`state.rs` 523-525), `exec_pure` (865-867). -/
def execState (self : StateC σ S A) (s : S) : Act σ S := (self.runState s).seq fun r => ret r.2
/-- `fmap` (`state.rs` 596-605). -/
def fmap (self : StateC σ S A) (f : A → Act σ B) : StateC σ S B :=
  new fun s => (self.runState s).seq fun r => (f r.1).seq fun b => ret (b, r.2)
/-- `bind` (`state.rs` 708-717). -/
def bind (self : StateC σ S A) (f : A → Act σ (StateC σ S B)) : StateC σ S B :=
  new fun s => (self.runState s).seq fun r => (f r.1).seq fun next => next.runState r.2
/-- `pure` (`state.rs` 766-768). -/
def pure [RClone σ A] (a : A) : StateC σ S A := new fun s => (clone a).seq fun a' => ret (a', s)
/-- `apply` (`state.rs` 827-838). -/
def apply (self : StateC σ S (A → Act σ B)) (other : StateC σ S A) : StateC σ S B :=
  new fun s => (self.runState s).seq fun r1 => (other.runState r1.2).seq fun r2 => (r1.1 r2.1).seq fun b => ret (b, r2.2)
/-- `get` (`state.rs` 908-913). -/
def get [RClone σ S] : StateC σ S S := new fun s => (clone s).seq fun s' => ret (s', s)
/-- `put` (`state.rs` 952-957). -/
def put [RClone σ S] (s : S) : StateC σ S Unit := new fun _ => (clone s).seq fun s' => ret ((), s')
/-- `modify` (`state.rs` 993-999). -/
def modify (f : S → Act σ S) : StateC σ S Unit := new fun s => (f s).seq fun s' => ret ((), s')

end StateC
end Rustica
