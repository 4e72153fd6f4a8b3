import Verif.Trans.StateT
import Verif.Trans.ReaderT
import Verif.Trans.ContT
import Verif.Effect.IO
import Verif.Effect.Async
import Verif.Data.Writer
import Verif.Data.Maybe
import Verif.Data.Validated
import Verif.Data.Choice
import Verif.Data.Wrappers
import Verif.Optics.Category

/-!
# How deep the calls nest

`Run A` is what running a piece of code gives: its value and the greatest number of stored closures (`Arc<dyn Fn>`,
`Rc<dyn Fn>`, `Box<dyn Fn>`, polls of boxed futures) that were active at the same time.  Calls through such a pointer
are not inlined, so each of them keeps a frame on the stack.  User closures are `A → Run B`: they may use the stack
themselves.  Direct calls are not counted.  Effects, panics and suspended futures are left out here; the values are
those of the models without depth (`Theorems/Depth.lean`, `c94_values`).
-/

namespace Rustica.Depth

/-- A value and the deepest nesting of stored closures on the way to it. -/
structure Run (A : Type) where
  value : A
  depth : Nat

namespace Run
variable {A B : Type}

/-- No call. -/
def ret (a : A) : Run A := ⟨a, 0⟩
/-- One piece of code after the other: the frames of the first are gone when the second starts. -/
def seq (m : Run A) (k : A → Run B) : Run B := ⟨(k m.value).value, max m.depth (k m.value).depth⟩
/-- The code runs inside a call through a pointer. -/
def call (m : Run A) : Run A := ⟨m.value, m.depth + 1⟩
/-- A loop over items, one after the other. -/
def loop (f : B → A → Run B) : List A → B → Run B
  | [], acc => ret acc
  | x :: xs, acc => (f acc x).seq (loop f xs)
/-- `iter().map(f).collect()`. -/
def mapAll (f : A → Run B) : List A → Run (List B)
  | [] => ret []
  | x :: xs => (f x).seq fun y => (mapAll f xs).seq fun ys => ret (y :: ys)

end Run

/-! ## Computations that are stored closures -/

/-- `State<S, A>`, i.e. `StateT::Effect` with its `Arc<dyn Fn>` (`state.rs` 326-330, `state_t.rs` 99-103). -/
structure DState (S A : Type) where
  fn : S → Run (A × S)

namespace DState
variable {S A B C : Type}

/-- `run_state` (`state.rs` 424-427). -/
def runState (self : DState S A) (s : S) : Run (A × S) := (self.fn s).call
/-- `fmap` (`state.rs` 596-605). -/
def fmap (self : DState S A) (f : A → Run B) : DState S B :=
  ⟨fun s => (self.runState s).seq fun (a, s) => (f a).seq fun b => .ret (b, s)⟩
/-- `bind` (`state.rs` 708-717). -/
def bind (self : DState S A) (f : A → Run (DState S B)) : DState S B :=
  ⟨fun s => (self.runState s).seq fun (a, s) => (f a).seq fun m => m.runState s⟩
/-- `pure` (`state.rs` 766-768). -/
def pure (a : A) : DState S A := ⟨fun s => .ret (a, s)⟩
/-- `apply` (`state.rs` 827-838). -/
def apply (self : DState S (B → Run C)) (other : DState S B) : DState S C :=
  ⟨fun s => (self.runState s).seq fun (f, s1) => (other.runState s1).seq fun (a, s2) =>
    (f a).seq fun c => .ret (c, s2)⟩

end DState

/-- `StateT::Effect` over any base (`state_t.rs` 99-103). -/
structure DStateT (S M A : Type) where
  fn : S → Run M

namespace DStateT
variable {S M N A B : Type}

/-- `run_state` (`state_t.rs` 199-209). -/
def runState (self : DStateT S M A) (s : S) : Run M := (self.fn s).call
/-- `fmap_with` (`state_t.rs` 358-367). -/
def fmapWith (self : DStateT S M A) (f : A → Run B) (mapFn : M → (S × A → Run (S × B)) → Run M) : DStateT S M B :=
  ⟨fun s => (self.fn s).call.seq fun m => mapFn m fun (state, a) => ((f a).seq fun b => .ret (state, b)).call⟩
/-- `bind_with` (`state_t.rs` 442-456). -/
def bindWith (self : DStateT S M A) (f : A → Run (DStateT S N B)) (bindFn : M → (S × A → Run N) → Run N) :
    DStateT S N B :=
  ⟨fun s => (self.fn s).call.seq fun m => bindFn m fun (state, a) => ((f a).seq fun n => n.runState state).call⟩

end DStateT

/-- `ReaderT<E, M, A>` (`reader_t.rs` 218-221). -/
structure DReaderT (E M A : Type) where
  fn : E → Run M

namespace DReaderT
variable {E M N A B : Type}

/-- `run_reader` (`reader_t.rs` 313-318). -/
def runReader (self : DReaderT E M A) (env : E) : Run M := (self.fn env).call
/-- `local` (`reader_t.rs` 403-409). -/
def localE (self : DReaderT E M A) (f : E → Run E) : DReaderT E M A := ⟨fun e => (f e).seq fun e => (self.fn e).call⟩
/-- `fmap_with` (`reader_t.rs` 607-622). -/
def fmapWith (self : DReaderT E M A) (f : A → Run B) (mapFn : M → (A → Run B) → Run M) : DReaderT E M B :=
  ⟨fun e => (self.fn e).call.seq fun m => mapFn m f⟩
/-- `bind_with` (`reader_t.rs` 668-692); the binder is an `Arc<dyn Fn>` too. -/
def bindWith (self : DReaderT E M A) (f : A → Run (DReaderT E N B)) (bindFn : M → (A → Run N) → Run N) :
    DReaderT E N B :=
  ⟨fun e => (self.fn e).call.seq fun m => bindFn m fun a => ((f a).seq fun r => r.runReader e).call⟩

end DReaderT

/-- `Reader<E, A>` (`reader.rs` 220-222). -/
structure DReader (E A : Type) where
  fn : E → Run A

namespace DReader
variable {E A B C : Type}

/-- `run_reader` (`reader.rs` 278-281). -/
def runReader (self : DReader E A) (env : E) : Run A := (self.fn env).call
/-- `fmap` (`reader.rs` 304-319). -/
def fmap (self : DReader E A) (f : A → Run B) : DReader E B := ⟨fun e => (self.runReader e).seq f⟩
/-- `bind` (`reader.rs` 342-358). -/
def bind (self : DReader E A) (f : A → Run (DReader E B)) : DReader E B :=
  ⟨fun e => (self.runReader e).seq fun a => (f a).seq fun r => r.runReader e⟩
/-- `local` (`reader.rs` 520-529). -/
def localE (self : DReader E A) (f : E → Run E) : DReader E A := ⟨fun e => (f e).seq self.runReader⟩
/-- `combine` (`reader.rs` 563-581). -/
def combine (self : DReader E A) (other : DReader E B) (f : A → B → Run C) : DReader E C :=
  ⟨fun e => (self.runReader e).seq fun a => (other.runReader e).seq fun b => f a b⟩

end DReader

/-- `ContT<R, M, A>` (`cont_t.rs` 42-45); the continuations are `Arc<dyn Fn>` as well. -/
structure DContT (M A : Type) where
  fn : (A → Run M) → Run M

namespace DContT
variable {M A B : Type}

/-- `run` (`cont_t.rs` 107-112). -/
def run (self : DContT M A) (k : A → Run M) : Run M := (self.fn k).call
/-- `pure` (`cont_t.rs` 137-144). -/
def pure (a : A) : DContT M A := ⟨fun k => (k a).call⟩
/-- `bind` (`cont_t.rs` 172-188). -/
def bind (self : DContT M A) (f : A → Run (DContT M B)) : DContT M B :=
  ⟨fun k => (self.fn fun a => (f a).seq fun fb => (fb.fn k).call).call⟩
/-- `fmap` (`cont_t.rs` 213-226). -/
def fmap (self : DContT M A) (f : A → Run B) : DContT M B :=
  ⟨fun k => (self.fn fun a => (f a).seq fun b => (k b).call).call⟩

end DContT

/-- `IO<A>` (`io.rs` 583-586). -/
inductive DIO (A : Type)
  | Pure (a : A)
  | Effect (f : Run A)

namespace DIO
variable {A B : Type}

/-- `run` (`io.rs` 658-663). -/
def run : DIO A → Run A
  | .Pure a => .ret a
  | .Effect f => f.call
/-- `fmap` (`io.rs` 821-831): on a pure value `f` runs at once. -/
def fmap (self : DIO A) (f : A → Run B) : Run (DIO B) :=
  match self with
  | .Pure a => (f a).seq fun b => .ret (.Pure b)
  | .Effect effect => .ret (.Effect (effect.call.seq f))
/-- `bind` (`io.rs` 888-898). -/
def bind (self : DIO A) (f : A → Run (DIO B)) : Run (DIO B) :=
  match self with
  | .Pure a => f a
  | .Effect effect => .ret (.Effect (effect.call.seq fun a => (f a).seq run))
/-- `sequence` (`io.rs` 1467-1473). -/
def sequence (ios : List (DIO A)) : DIO (List A) := .Effect (Run.mapAll run ios)

end DIO

/-- `AsyncM<A>` (`async_monad.rs` 218-223, 461-464), for futures that are ready when polled; the stored `Run` is the
poll of the boxed future. -/
inductive DAsync (A : Type)
  | Pure (a : A)
  | Effect (f : Run A)

namespace DAsync
variable {A B : Type}

/-- `try_get` (`async_monad.rs` 573-581). -/
def tryGet : DAsync A → Run A
  | .Pure a => .ret a
  | .Effect f => f.call
/-- `fmap` (`async_monad.rs` 620-658). -/
def fmap (self : DAsync A) (f : A → Run B) : DAsync B :=
  match self with
  | .Pure value => .Effect (f value)
  | .Effect run => .Effect (run.call.seq f)
/-- `bind` (`async_monad.rs` 700-750). -/
def bind (self : DAsync A) (f : A → Run (DAsync B)) : DAsync B :=
  match self with
  | .Pure value => .Effect ((f value).seq tryGet)
  | .Effect run => .Effect (run.call.seq fun a => (f a).seq tryGet)

end DAsync

/-- `Predicate<A>` (`predicate.rs` 104-108). -/
structure DPredicate (A : Type) where
  func : A → Run Bool

namespace DPredicate
variable {A : Type}

/-- `contains` (`predicate.rs` 168-170). -/
def contains (self : DPredicate A) (a : A) : Run Bool := (self.func a).call
/-- `union` (`predicate.rs` 206-215), `combine` (450-452). -/
def union (self other : DPredicate A) : DPredicate A :=
  ⟨fun a => (self.func a).call.seq fun b => if b then .ret true else (other.func a).call⟩
/-- `intersection` (`predicate.rs` 251-260). -/
def intersection (self other : DPredicate A) : DPredicate A :=
  ⟨fun a => (self.func a).call.seq fun b => if b then (other.func a).call else .ret false⟩
/-- `negate` (`predicate.rs` 332-340). -/
def negate (self : DPredicate A) : DPredicate A := ⟨fun a => (self.func a).call.seq fun b => .ret !b⟩

end DPredicate

/-- `FunctionMorphism<A, B>` (`function_category.rs` 140). -/
structure DMor (A B : Type) where
  fn : A → Run B

namespace DMor
variable {A B C : Type}

/-- Calling a morphism. -/
def app (self : DMor A B) (x : A) : Run B := (self.fn x).call
/-- `compose_morphisms` (`function_category.rs` 153-164). -/
def compose (g : DMor B C) (f : DMor A B) : DMor A C := ⟨fun x => (f.fn x).call.seq fun y => (g.fn y).call⟩
/-- `sequence` (`function_category.rs` 393-399): one closure with a loop in it; the functions are called directly. -/
def sequence (functions : List (A → Run A)) : DMor A A := ⟨fun initial => Run.loop (fun acc f => f acc) functions initial⟩

end DMor

/-- `compose_all` (`hkt_utils.rs` 510-519), with the conversion `B::from`: the functions are boxed. -/
def composeAll {A B : Type} (transformations : List (A → Run A)) (conv : A → Run B) : DMor A B :=
  ⟨fun input => (Run.loop (fun acc f => (f acc).call) transformations input).seq conv⟩

/-! ## Computations that are data -/

variable {W A B : Type}

/-- `Writer::fmap` (`writer.rs` 508-517). -/
def writerFmap (w : Writer W A) (f : A → Run B) : Run (Writer W B) := (f w.value).seq fun b => .ret ⟨w.log, b⟩
/-- `Writer::bind` (`writer.rs` 1004-1013); the combination of the logs may use the stack as well. -/
def writerBind (comb : W → W → Run W) (w : Writer W A) (f : A → Run (Writer W B)) : Run (Writer W B) :=
  (f w.value).seq fun r => (comb w.log r.log).seq fun log => .ret ⟨log, r.value⟩

/-- `Maybe::bind` (`maybe.rs` 1005-1013). -/
def maybeBind (m : Maybe A) (f : A → Run (Maybe B)) : Run (Maybe B) :=
  match m with
  | .Just a => f a
  | .Nothing => .ret .Nothing

/-- `Validated::bind` (`traits.rs` 590-599). -/
def validatedBind {E : Type} (m : Validated E A) (f : A → Run (Validated E B)) : Run (Validated E B) :=
  match m with
  | .Valid a => f a
  | .Invalid e => .ret (.Invalid e)

/-- `Choice::bind` (`choice.rs` 1444-1477). -/
def choiceBind (c : Choice A) (f : A → Run (Choice B)) : Run (Choice B) :=
  match c.values with
  | [] => .ret ⟨[]⟩
  | v :: vs => (f v).seq fun first => match first.values with
    | [] => .ret ⟨[]⟩
    | x :: xs => (Run.loop (fun acc alt => (f alt).seq fun r => .ret (acc ++ r.values)) vs xs).seq fun rest =>
        .ret (Choice.new x rest)

/-- One call on an `ErrorPipeline` (`context.rs` 204-350) that keeps its types. -/
inductive PStep (T E : Type)
  | withContext (msg : Run String)
  | mapError (f : E → Run E)
  | recover (f : E → Run (Except E T))
  | andThen (f : T → Run (Except E T))
  | map (f : T → Run T)

/-- `with_context` (`context.rs` 204-215), `map_error` (241-249), `recover` (274-282), `and_then` (308-316), `map`
(342-350). -/
def PStep.run {T E : Type} (p : ErrorPipeline T E) : PStep T E → Run (ErrorPipeline T E)
  | .withContext msg => match p.result with
    | .ok _ => .ret p
    | .error _ => msg.seq fun m => .ret ⟨p.result, p.pendingContexts ++ [m]⟩
  | .mapError f => match p.result with
    | .ok v => .ret ⟨.ok v, p.pendingContexts⟩
    | .error e => (f e).seq fun e => .ret ⟨.error e, p.pendingContexts⟩
  | .recover f => match p.result with
    | .ok v => .ret ⟨.ok v, p.pendingContexts⟩
    | .error e => (f e).seq fun r => .ret ⟨r, p.pendingContexts⟩
  | .andThen f => match p.result with
    | .ok v => (f v).seq fun r => .ret ⟨r, p.pendingContexts⟩
    | .error e => .ret ⟨.error e, p.pendingContexts⟩
  | .map f => match p.result with
    | .ok v => (f v).seq fun v => .ret ⟨.ok v, p.pendingContexts⟩
    | .error e => .ret ⟨.error e, p.pendingContexts⟩

end Rustica.Depth
