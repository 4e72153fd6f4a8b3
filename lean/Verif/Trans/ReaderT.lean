import Verif.Data.Id
import Verif.Error.Convert

/-!
# `ReaderT` (`src/transformers/reader_t.rs`) and `Reader` (`src/datatypes/reader.rs`)

The result type `M` of the run function is a type; the methods that need a monad use `M = F A` with an `RMonad`
`F`.  In Rust those methods require `M::Output<B> = M`, i.e. the value type does not change; the model allows
`F A → F B`, which includes that case.  `transmute_copy` in `bind` is the identity on data here; its effect on
ownership is modelled in `Trans/Ownership.lean`.
-/

namespace Rustica

/-- `struct ReaderT<E, M, A>` (`reader_t.rs` 218-221); the phantom `A` is kept as an index. -/
structure RReaderT (E M : Type) (A : Type) where
  runFn : E → M

namespace RReaderT
variable {E E1 E2 M N A B C σ : Type} {F : Type → Type}

/-- `new` (`reader_t.rs` 270-278). -/
def new (f : E → M) : RReaderT E M A := ⟨f⟩
/-- `run_reader` (`reader_t.rs` 313-318), `unwrap_with` (831-833). -/
def runReader (self : RReaderT E M A) (env : E) : M := self.runFn env
/-- `ask` (`reader_t.rs` 358-363). -/
def ask (pure : E → M) : RReaderT E M E := new pure
/-- `local` (`reader_t.rs` 403-409). -/
def localE (self : RReaderT E M A) (f : E → E) : RReaderT E M A := new fun e => self.runFn (f e)
/-- `asks` (`reader_t.rs` 450-456), `ask_with` (500-507). -/
def asks (f : E → B) (pure : B → M) : RReaderT E M B := new fun e => pure (f e)
/-- `asks_with` (`reader_t.rs` 555-564). -/
def asksWith (select : E → B) (transform : B → C) (pure : C → M) : RReaderT E M C :=
  new fun e => pure (transform (select e))
/-- `fmap_with` (`reader_t.rs` 607-622). -/
def fmapWith (self : RReaderT E M A) (f : A → B) (mapFn : M → (A → B) → M) : RReaderT E M B :=
  new fun e => mapFn (self.runFn e) f
/-- `bind_with` (`reader_t.rs` 668-692). -/
def bindWith (self : RReaderT E M A) (f : A → RReaderT E N B) (bindFn : M → (A → N) → N) : RReaderT E N B :=
  new fun e => bindFn (self.runFn e) fun a => (f a).runReader e
/-- `apply_with` (`reader_t.rs` 706-725). -/
def applyWith (self : RReaderT E M A) (f : RReaderT E M (A → B)) (apFn : M → M → M) : RReaderT E M B :=
  new fun e => apFn (self.runFn e) (f.runFn e)
/-- `lift2` (`reader_t.rs` 741-765): ignores `self` and returns a function on two readers. -/
def lift2 (_self : RReaderT E M A) (f : A → B → C) (combineFn : M → M → (A → B → C) → M) :
    RReaderT E M A → RReaderT E M B → RReaderT E M C :=
  fun r1 r2 => new fun e => combineFn (r1.runFn e) (r2.runFn e) f
/-- `combine_with` (`reader_t.rs` 781-816). -/
def combineWith (self : RReaderT E M A) (other : RReaderT E M B) (f : A → B → C)
    (combineFn : M → M → (A → B → C) → M) : RReaderT E M C :=
  new fun e => combineFn (self.runFn e) (other.runFn e) fun a b => f a b
/-- `fmap` (`reader_t.rs` 879-893). -/
def fmap [RMonad F] (self : RReaderT E (F A) A) (f : A → B) : RReaderT E (F B) B :=
  new fun e => RFunctor.fmap f (self.runFn e)
/-- `bind` (`reader_t.rs` 941-963). -/
def bind [RMonad F] (self : RReaderT E (F A) A) (f : A → RReaderT E (F B) B) : RReaderT E (F B) B :=
  new fun e => RMonad.bind (self.runFn e) fun a => (f a).runReader e
/-- `combine` (`reader_t.rs` 1033-1051). -/
def combine [RMonad F] (self : RReaderT E (F A) A) (other : RReaderT E (F B) B) (f : A → B → C) :
    RReaderT E (F C) C :=
  new fun e => RApplicative.lift2 f (self.runFn e) (other.runFn e)
/-- `apply` (`reader_t.rs` 982-989). -/
def apply [RMonad F] (self : RReaderT E (F A) A) (f : RReaderT E (F (A → B)) (A → B)) : RReaderT E (F B) B :=
  self.combine f fun a func => func a
/-- `try_run_reader` (`reader_t.rs` 1098-1100). -/
def tryRunReader (self : RReaderT E (Except E1 A) A) (env : E) : Except (ComposableError E1) A :=
  mapErr (self.runReader env) ComposableError.new
/-- `try_run_reader_with_context` (`reader_t.rs` 1142-1153): the context is converted first. -/
def tryRunReaderWithContext (self : RReaderT E (Except E1 A) A) (env : E) (c : IntoErrorContext σ) :
    Eff σ (Except (ComposableError E1) A) := fun w =>
  (mapErr (self.runReader env) fun e => ((ComposableError.new e).withContext (ofErrorContext (c w).1) ()).1,
    (c w).2)
/-- `map_error` (`reader_t.rs` 1189-1197). -/
def mapError (self : RReaderT E (Except E1 A) A) (f : E1 → E2) : RReaderT E (Except E2 A) A :=
  new fun e => mapErr (self.runFn e) f
/-- `MonadTransformer::lift` (`reader_t.rs` 1209-1212). -/
def lift (base : M) : RReaderT E M A := new fun _ => base
/-- `pure` (`reader_t.rs` 1249-1257). -/
def pure (value : A) (pureFn : A → M) : RReaderT E M A := new fun _ => pureFn value

end RReaderT

/-- `struct Reader<E, A> { inner: ReaderT<E, Id<A>, A> }` (`reader.rs` 220-222); `From<ReaderT<…>>` (603-611) is
the constructor. -/
structure Reader (E A : Type) where
  inner : RReaderT E (RId A) A

namespace Reader
variable {E A B C : Type}

/-- `new` (`reader.rs` 250-257). -/
def new (f : E → A) : Reader E A := ⟨RReaderT.new fun e => ⟨f e⟩⟩
/-- `run_reader` (`reader.rs` 278-281). -/
def runReader (self : Reader E A) (env : E) : A := (self.inner.runReader env).value
/-- `fmap` (`reader.rs` 304-319). -/
def fmap (self : Reader E A) (f : A → B) : Reader E B :=
  ⟨RReaderT.new fun e => ⟨f (self.inner.runReader e).value⟩⟩
/-- `bind` (`reader.rs` 342-358). -/
def bind (self : Reader E A) (f : A → Reader E B) : Reader E B :=
  ⟨RReaderT.new fun e => (f (self.inner.runReader e).value).inner.runReader e⟩
/-- `ask` (`reader.rs` 381-389), with the conversion `A: From<E>` as parameter. -/
def ask (conv : E → A) : Reader E A := ⟨RReaderT.new fun e => ⟨conv e⟩⟩
/-- `ask_transform` (`reader.rs` 410-417), `asks` (449-456). -/
def asks (f : E → A) : Reader E A := ⟨RReaderT.new fun e => ⟨f e⟩⟩
/-- `ask_with` (`reader.rs` 482-490). -/
def askWith (f : E → A) (transform : A → RId A) : Reader E A := ⟨RReaderT.new fun e => transform (f e)⟩
/-- `local` (`reader.rs` 520-529). -/
def localE (self : Reader E A) (f : E → E) : Reader E A :=
  ⟨RReaderT.new fun e => self.inner.runReader (f e)⟩
/-- `combine` (`reader.rs` 563-581). -/
def combine (self : Reader E A) (other : Reader E B) (f : A → B → C) : Reader E C :=
  ⟨RReaderT.new fun e => ⟨f (self.inner.runReader e).value (other.inner.runReader e).value⟩⟩

end Reader

end Rustica
