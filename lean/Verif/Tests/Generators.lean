import Verif.Data.Choice
import Verif.Data.Either
import Verif.Data.Id
import Verif.Data.Maybe
import Verif.Data.Validated
import Verif.Data.Writer
import Verif.Effect.Async
import Verif.Effect.IO
import Verif.Trans.ContT
import Verif.Trans.ReaderT
import Verif.Trans.StateT

/-!
# The `Arbitrary` implementations

`quickcheck::Gen` is an external source of randomness.  A generator is a function of the state `G` of that source
which returns a value and the next state.  The generators of the element types (and of `bool` and `Vec<T>`, which
belong to the crate) are parameters.  Sizes and probabilities are not modelled: only which values can come out.
-/

namespace Rustica.QC

/-- `fn arbitrary(g: &mut Gen) -> A`. -/
abbrev Arb (G A : Type) := G → A × G

namespace Arb
variable {G A B E L R S T W σ : Type}

/-- One draw, then the rest. -/
def andThen (m : Arb G A) (f : A → Arb G B) : Arb G B := fun g => f (m g).1 (m g).2
/-- No draw. -/
def done (a : A) : Arb G A := fun g => (a, g)

/-- `Arbitrary for AsyncM<A>` (`async_monad.rs` 1253-1258). -/
def asyncM (a : Arb G A) : Arb G (AsyncM σ A) := a.andThen fun value => done (AsyncM.pure value)
/-- `Arbitrary for Choice<T>` (`choice.rs` 2105-2110); the argument draws a `Vec<T>`. -/
def choice (items : Arb G (List T)) : Arb G (Choice T) := items.andThen fun items => done (Choice.ofMany items)
/-- `Arbitrary for Cont<R, A>` (`cont.rs` 734-743). -/
def cont (a : Arb G A) : Arb G (Cont R A) := a.andThen fun val => done (Cont.pure val)
/-- `Arbitrary for Either<L, R>` (`either.rs` 1352-1366): both sides are drawn, then the coin. -/
def either (l : Arb G L) (r : Arb G R) (coin : Arb G Bool) : Arb G (Either L R) :=
  l.andThen fun left => r.andThen fun right => coin.andThen fun b =>
    done (if b then .Left left else .Right right)
/-- `Arbitrary for Id<T>` (`id.rs` 830-834). -/
def id (a : Arb G T) : Arb G (RId T) := a.andThen fun value => done ⟨value⟩
/-- `Arbitrary for IO<A>` (`io.rs` 1500-1505). -/
def io (a : Arb G A) : Arb G (RIO σ A) := a.andThen fun value => done (RIO.pure value)
/-- `Arbitrary for Maybe<T>`, `arbitrary` (`maybe.rs` 1491-1497): the coin first. -/
def maybe (a : Arb G T) (coin : Arb G Bool) : Arb G (Maybe T) :=
  coin.andThen fun b => if b then done .Nothing else a.andThen fun value => done (.Just value)
/-- `Arbitrary for Reader<E, A>` (`reader.rs` 621-628). -/
def reader (a : Arb G A) : Arb G (Reader E A) := a.andThen fun value => done (Reader.new fun _ => value)
/-- `Arbitrary for State<S, A>` (`state.rs` 1276-1285). -/
def state (a : Arb G A) : Arb G (State S A) := a.andThen fun value => done (State.new fun s => some (value, s))
/-- `Arbitrary for Validated<E, A>` (`validated/traits.rs` 965-979): value and error are drawn, then the coin. -/
def validated (a : Arb G A) (e : Arb G E) (coin : Arb G Bool) : Arb G (Validated E A) :=
  a.andThen fun x => e.andThen fun y => coin.andThen fun b =>
    done (if b then .Valid x else Validated.invalid y)
/-- `Arbitrary for Writer<W, A>` (`writer.rs` 1221-1230): the value is drawn before the log. -/
def writer (w : Arb G W) (a : Arb G A) : Arb G (Writer W A) :=
  a.andThen fun x => w.andThen fun y => done ⟨y, x⟩

end Arb

/-- `Arbitrary for Maybe<T>`, `shrink` (`maybe.rs` 1499-1508); `sh` is `T::shrink`. -/
def Maybe.shrink {T : Type} (sh : T → List T) : Maybe T → List (Maybe T)
  | .Just a => (sh a).map .Just ++ [.Nothing]
  | .Nothing => []

end Rustica.QC
