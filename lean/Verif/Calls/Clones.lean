import Verif.Calls.Model
import Verif.Data.Maps

/-!
# The same functions, with `Clone::clone` as a call that has effects and may panic

Everywhere else `clone` is the identity.  Here `RClone σ A` is an implementation of `Clone` for `A` whose `clone` may
read and write a world `σ`, may panic, and may return anything.  Which values a function clones, in which order, and
which values it moves instead, becomes part of its meaning.  One definition per function; `C` for clones.  Closures
have effects as in `Calls/Model`.  A `Clone` bound is an instance argument; the bounds of the Rust function are among
the arguments of the definition, some definitions have more.  `#[derive(Clone)]` clones the fields in the order of
their declaration; `Vec` and `SmallVec` clone their elements in order.  Values that a panicking function leaves
behind are dropped, which is not modelled.  For a `Copy` type `std` may copy bytes instead of calling `clone`
(`to_vec`, `extend_from_slice`); the model always calls it.
-/

namespace Rustica
open Act (ret mapList foldList)

/-- An implementation of `Clone`. -/
class RClone (σ A : Type) where
  clone : A → Act σ A
export RClone (clone)

variable {σ : Type}

/-! ## `Clone` of the containers -/

/-- `Vec<T>`, `SmallVec<[T; 8]>`, `[T]::to_vec`, `iter().cloned().collect()`. -/
instance {A : Type} [RClone σ A] : RClone σ (List A) := ⟨mapList clone⟩
/-- `Option<T>`. -/
instance {A : Type} [RClone σ A] : RClone σ (Option A) where
  clone x := match x with
    | some a => (clone a).seq fun a' => ret (some a')
    | none => ret none
/-- `Result<T, E>`. -/
instance {E A : Type} [RClone σ E] [RClone σ A] : RClone σ (Except E A) where
  clone x := match x with
    | .ok a => (clone a).seq fun a' => ret (.ok a')
    | .error e => (clone e).seq fun e' => ret (.error e')
/-- `(A, B)`. -/
instance {A B : Type} [RClone σ A] [RClone σ B] : RClone σ (A × B) where
  clone x := (clone x.1).seq fun a => (clone x.2).seq fun b => ret (a, b)
/-- `#[derive(Clone)] enum Maybe` (`maybe.rs` 233). -/
instance {A : Type} [RClone σ A] : RClone σ (Maybe A) where
  clone x := match x with
    | .Just a => (clone a).seq fun a' => ret (.Just a')
    | .Nothing => ret .Nothing
/-- `#[derive(Clone)] enum Either` (`either.rs` 262). -/
instance {L R : Type} [RClone σ L] [RClone σ R] : RClone σ (Either L R) where
  clone x := match x with
    | .Left l => (clone l).seq fun l' => ret (.Left l')
    | .Right r => (clone r).seq fun r' => ret (.Right r')
/-- `#[derive(Clone)] enum Validated` (`core.rs` 137). -/
instance {E A : Type} [RClone σ E] [RClone σ A] : RClone σ (Validated E A) where
  clone x := match x with
    | .Valid a => (clone a).seq fun a' => ret (.Valid a')
    | .Invalid es => (clone es).seq fun es' => ret (.Invalid es')
/-- `#[derive(Clone)] struct Choice` (`choice.rs` 196). -/
instance {A : Type} [RClone σ A] : RClone σ (Choice A) where
  clone x := (clone x.values).seq fun vs => ret ⟨vs⟩
/-- `#[derive(Clone)] struct Id` (`id.rs` 246). -/
instance {A : Type} [RClone σ A] : RClone σ (RId A) where
  clone x := (clone x.value).seq fun v => ret ⟨v⟩
/-- `#[derive(Clone)] struct Writer { log, value }` (`writer.rs` 196-203). -/
instance {W A : Type} [RClone σ W] [RClone σ A] : RClone σ (Writer W A) where
  clone x := (clone x.log).seq fun l => (clone x.value).seq fun v => ret ⟨l, v⟩
/-- `#[derive(Clone)] struct First` (`first.rs` 173). -/
instance {A : Type} [RClone σ A] : RClone σ (First A) where
  clone x := (clone x.val).seq fun v => ret ⟨v⟩
/-- `#[derive(Clone)] struct Last` (`last.rs` 174). -/
instance {A : Type} [RClone σ A] : RClone σ (Last A) where
  clone x := (clone x.val).seq fun v => ret ⟨v⟩
/-- `#[derive(Clone)] struct Min` (`min.rs` 145). -/
instance {A : Type} [RClone σ A] : RClone σ (Min A) where
  clone x := (clone x.val).seq fun v => ret ⟨v⟩
/-- `#[derive(Clone)] struct Max` (`max.rs` 149). -/
instance {A : Type} [RClone σ A] : RClone σ (Max A) where
  clone x := (clone x.val).seq fun v => ret ⟨v⟩

/-! ## The traits -/

/-- `trait Functor` (`functor.rs` 127-161). -/
class RFunctorC (σ : Type) (F : Type → Type) where
  fmapC {A B : Type} [RClone σ A] [RClone σ B] : (A → Act σ B) → F A → Act σ (F B)
  fmapOwnedC {A B : Type} [RClone σ A] [RClone σ B] : (A → Act σ B) → F A → Act σ (F B)

/-- `trait Pure` (`pure.rs` 132-184). -/
class RPureC (σ : Type) (F : Type → Type) where
  pureC {A : Type} [RClone σ A] : A → Act σ (F A)
  /-- the default body is `Self::pure(&value)` (`pure.rs` 181-183) -/
  pureOwnedC {A : Type} [RClone σ A] : A → Act σ (F A) := fun a => pureC a

/-- `trait Applicative` (`applicative.rs` 189-606). -/
class RApplicativeC (σ : Type) (F : Type → Type) where
  applyC {A B : Type} [RClone σ (A → Act σ B)] [RClone σ A] [RClone σ B] :
    F (A → Act σ B) → F A → Act σ (F B)
  lift2C {A B C : Type} [RClone σ A] [RClone σ B] [RClone σ C] :
    (A → B → Act σ C) → F A → F B → Act σ (F C)
  lift3C {A B C D : Type} [RClone σ A] [RClone σ B] [RClone σ C] [RClone σ D] :
    (A → B → C → Act σ D) → F A → F B → F C → Act σ (F D)
  applyOwnedC {A B : Type} [RClone σ (A → Act σ B)] [RClone σ A] [RClone σ B] :
    F (A → Act σ B) → F A → Act σ (F B)
  lift2OwnedC {A B C : Type} [RClone σ A] [RClone σ B] [RClone σ C] :
    (A → B → Act σ C) → F A → F B → Act σ (F C)
  lift3OwnedC {A B C D : Type} [RClone σ A] [RClone σ B] [RClone σ C] [RClone σ D] :
    (A → B → C → Act σ D) → F A → F B → F C → Act σ (F D)

/-- `trait Monad` (`monad.rs` 143-208); `into` is the conversion `Self::Source: Into<Self::Output<U>>`. -/
class RMonadC (σ : Type) (F : Type → Type) where
  bindC {A B : Type} [RClone σ A] [RClone σ B] : F A → (A → Act σ (F B)) → Act σ (F B)
  bindOwnedC {A B : Type} [RClone σ A] [RClone σ B] : F A → (A → Act σ (F B)) → Act σ (F B)
  joinC {A B : Type} [RClone σ A] [RClone σ B] : (A → Act σ (F B)) → F A → Act σ (F B)
  joinOwnedC {A B : Type} [RClone σ A] [RClone σ B] : (A → Act σ (F B)) → F A → Act σ (F B)

/-- `trait MonadPlus` (`monad_plus.rs` 88-123). -/
class RMonadPlusC (σ : Type) (F : Type → Type) where
  mplusC {A : Type} [RClone σ A] : F A → F A → Act σ (F A)
  mplusOwnedC {A : Type} [RClone σ A] : F A → F A → Act σ (F A)

/-- `trait Semigroup` (`semigroup.rs` 96-148). -/
class RSemigroupC (σ A : Type) where
  combineC : A → A → Act σ A
  combineOwnedC : A → A → Act σ A

export RFunctorC (fmapC fmapOwnedC)
export RPureC (pureC pureOwnedC)
export RApplicativeC (applyC lift2C lift3C applyOwnedC lift2OwnedC lift3OwnedC)
export RMonadC (bindC bindOwnedC joinC joinOwnedC)
export RMonadPlusC (mplusC mplusOwnedC)
export RSemigroupC (combineC combineOwnedC)

/-- `Functor::replace` (`functor.rs` 176-181). -/
def replaceC {F : Type → Type} {A B : Type} [RFunctorC σ F] [RClone σ A] [RClone σ B] (x : F A) (value : B) :
    Act σ (F B) := fmapC (fun _ => clone value) x
/-- `Functor::replace_owned` (`functor.rs` 197-203); its body is that of `replace`. -/
def replaceOwnedC {F : Type → Type} {A B : Type} [RFunctorC σ F] [RClone σ A] [RClone σ B] (x : F A) (value : B) :
    Act σ (F B) := fmapC (fun _ => clone value) x
/-- `Functor::void_owned` (`functor.rs` 229-234). -/
def voidOwnedC {F : Type → Type} {A : Type} [RFunctorC σ F] [RClone σ A] [RClone σ Unit] (x : F A) :
    Act σ (F Unit) := fmapOwnedC (fun _ => ret ()) x
/-- `Applicative::sequence_right` (`applicative.rs` 379-385). -/
def sequenceRightC {F : Type → Type} {A B : Type} [RApplicativeC σ F] [RClone σ A] [RClone σ B] (fa : F A)
    (fb : F B) : Act σ (F B) := lift2C (fun _ b => clone b) fa fb
/-- `Applicative::sequence_left` (`applicative.rs` 424-430). -/
def sequenceLeftC {F : Type → Type} {A B : Type} [RApplicativeC σ F] [RClone σ A] [RClone σ B] (fa : F A)
    (fb : F B) : Act σ (F A) := lift2C (fun a _ => clone a) fa fb
/-- `Applicative::sequence_right_owned` (`applicative.rs` 640-646). -/
def sequenceRightOwnedC {F : Type → Type} {A B : Type} [RApplicativeC σ F] [RClone σ A] [RClone σ B] (fa : F A)
    (fb : F B) : Act σ (F B) := lift2OwnedC (fun _ b => ret b) fa fb
/-- `Applicative::sequence_left_owned` (`applicative.rs` 680-686). -/
def sequenceLeftOwnedC {F : Type → Type} {A B : Type} [RApplicativeC σ F] [RClone σ A] [RClone σ B] (fa : F A)
    (fb : F B) : Act σ (F A) := lift2OwnedC (fun a _ => ret a) fa fb

/-! ## `Option` -/

/-- `functor.rs` 592-610. -/
instance : RFunctorC σ Option where
  fmapC f x := match x with
    | some v => (f v).seq fun b => ret (some b)
    | none => ret none
  fmapOwnedC f x := match x with
    | some v => (f v).seq fun b => ret (some b)
    | none => ret none
/-- `pure.rs` 188-198. -/
instance : RPureC σ Option where
  pureC a := (clone a).seq fun a' => ret (some a')
  pureOwnedC a := ret (some a)
/-- `applicative.rs` 690-781. -/
instance : RApplicativeC σ Option where
  applyC f a := match f, a with
    | some func, some a => (func a).seq fun b => ret (some b)
    | _, _ => ret none
  lift2C f fa fb := match fa, fb with
    | some a, some b => (f a b).seq fun c => ret (some c)
    | _, _ => ret none
  lift3C f fa fb fc := match fa, fb, fc with
    | some a, some b, some c => (f a b c).seq fun d => ret (some d)
    | _, _, _ => ret none
  applyOwnedC f a := match f, a with
    | some func, some a => (func a).seq fun b => ret (some b)
    | _, _ => ret none
  lift2OwnedC f fa fb := match fa, fb with
    | some a, some b => (f a b).seq fun c => ret (some c)
    | _, _ => ret none
  lift3OwnedC f fa fb fc := match fa, fb, fc with
    | some a, some b, some c => (f a b c).seq fun d => ret (some d)
    | _, _, _ => ret none
/-- `monad.rs` 315-350. -/
instance : RMonadC σ Option where
  bindC m f := match m with
    | some a => f a
    | none => ret none
  bindOwnedC m f := match m with
    | some a => f a
    | none => ret none
  joinC into m := match m with
    | some x => (clone x).seq into
    | none => ret none
  joinOwnedC into m := match m with
    | some x => into x
    | none => ret none
/-- `monad_plus.rs` 126-144. -/
instance : RMonadPlusC σ Option where
  mplusC x other := match x with
    | some _ => clone x
    | none => clone other
  mplusOwnedC x other := match x with
    | some a => ret (some a)
    | none => ret other

/-! ## `Result` -/

/-- `functor.rs` 612-636; `fmap_owned` clones the error it owns (633). -/
instance {E : Type} [RClone σ E] : RFunctorC σ (Except E) where
  fmapC f x := match x with
    | .ok v => (f v).seq fun b => ret (.ok b)
    | .error e => (clone e).seq fun e' => ret (.error e')
  fmapOwnedC f x := match x with
    | .ok v => (f v).seq fun b => ret (.ok b)
    | .error e => (clone e).seq fun e' => ret (.error e')
/-- `pure.rs` 200-210. -/
instance {E : Type} [RClone σ E] : RPureC σ (Except E) where
  pureC a := (clone a).seq fun a' => ret (.ok a')
  pureOwnedC a := ret (.ok a)
/-- `applicative.rs` 784-883. -/
instance {E : Type} [RClone σ E] : RApplicativeC σ (Except E) where
  applyC f a := match f, a with
    | .ok func, .ok a => (func a).seq fun b => ret (.ok b)
    | .error e, _ => (clone e).seq fun e' => ret (.error e')
    | _, .error e => (clone e).seq fun e' => ret (.error e')
  lift2C f fa fb := match fa, fb with
    | .ok a, .ok b => (f a b).seq fun c => ret (.ok c)
    | .error e, _ => (clone e).seq fun e' => ret (.error e')
    | _, .error e => (clone e).seq fun e' => ret (.error e')
  lift3C f fa fb fc := match fa, fb, fc with
    | .ok a, .ok b, .ok c => (f a b c).seq fun d => ret (.ok d)
    | .error e, _, _ => (clone e).seq fun e' => ret (.error e')
    | _, .error e, _ => (clone e).seq fun e' => ret (.error e')
    | _, _, .error e => (clone e).seq fun e' => ret (.error e')
  applyOwnedC f a := match f, a with
    | .ok func, .ok a => (func a).seq fun b => ret (.ok b)
    | .error e, _ => ret (.error e)
    | _, .error e => ret (.error e)
  lift2OwnedC f fa fb := match fa, fb with
    | .ok a, .ok b => (f a b).seq fun c => ret (.ok c)
    | .error e, _ => ret (.error e)
    | _, .error e => ret (.error e)
  lift3OwnedC f fa fb fc := match fa, fb, fc with
    | .ok a, .ok b, .ok c => (f a b c).seq fun d => ret (.ok d)
    | .error e, _, _ => ret (.error e)
    | _, .error e, _ => ret (.error e)
    | _, _, .error e => ret (.error e)
/-- `monad.rs` 353-394. -/
instance {E : Type} [RClone σ E] : RMonadC σ (Except E) where
  bindC m f := match m with
    | .ok a => f a
    | .error e => (clone e).seq fun e' => ret (.error e')
  bindOwnedC m f := match m with
    | .ok a => f a
    | .error e => ret (.error e)
  joinC into m := match m with
    | .ok x => (clone x).seq into
    | .error e => (clone e).seq fun e' => ret (.error e')
  joinOwnedC into m := match m with
    | .ok x => into x
    | .error e => ret (.error e)
/-- `monad_plus.rs` 147-165. -/
instance {E : Type} [RClone σ E] : RMonadPlusC σ (Except E) where
  mplusC x other := match x with
    | .ok _ => clone x
    | .error _ => clone other
  mplusOwnedC x other := match x with
    | .ok a => ret (.ok a)
    | .error _ => ret other

/-! ## `Vec` -/

/-- `functor.rs` 446-463. -/
instance : RFunctorC σ List where
  fmapC f x := mapList f x
  fmapOwnedC f x := mapList f x
/-- `pure.rs` 212-222. -/
instance : RPureC σ List where
  pureC a := (clone a).seq fun a' => ret [a']
  pureOwnedC a := ret [a]
/-- `applicative.rs` 886-1000; the owned methods clone the inner vectors in every round and more (953, 971-972,
992-994). -/
instance : RApplicativeC σ List where
  applyC fs xs := vecLoopE (fun f x => f x) fs xs
  lift2C f xs ys := vecLoopE f xs ys
  lift3C f xs ys zs :=
    foldList (fun result abc => (f abc.1.1 abc.1.2 abc.2).seq fun d => ret (result ++ [d]))
      (((xs.flatMap fun a => ys.map fun b => (a, b)).flatMap fun ab => zs.map fun c => (ab, c))) []
  applyOwnedC fs value :=
    foldList (fun result func => (clone value).seq fun vals =>
      foldList (fun result val => (func val).seq fun b => ret (result ++ [b])) vals result) fs []
  lift2OwnedC f fa fb :=
    foldList (fun result a => (clone fb).seq fun bs =>
      foldList (fun result b => (clone a).seq fun a' => (f a' b).seq fun c => ret (result ++ [c])) bs result) fa []
  lift3OwnedC f fa fb fc :=
    foldList (fun result a => (clone fb).seq fun bs =>
      foldList (fun result b => (clone fc).seq fun cs =>
        foldList (fun result c =>
          (clone a).seq fun a' => (clone b).seq fun b' => (clone c).seq fun c' =>
            (f a' b' c').seq fun d => ret (result ++ [d])) cs result) bs result) fa []

/-! ## `Maybe` -/

/-- `maybe.rs` 772-822. -/
instance : RFunctorC σ Maybe where
  fmapC f x := match x with
    | .Just v => (f v).seq fun b => ret (.Just b)
    | .Nothing => ret .Nothing
  fmapOwnedC f x := match x with
    | .Just v => (f v).seq fun b => ret (.Just b)
    | .Nothing => ret .Nothing
/-- `maybe.rs` 765-770; `pure_owned` is the default. -/
instance : RPureC σ Maybe where
  pureC a := (clone a).seq fun a' => ret (.Just a')
/-- `maybe.rs` 824-963. -/
instance : RApplicativeC σ Maybe where
  applyC f a := match f, a with
    | .Just func, .Just a => (func a).seq fun b => ret (.Just b)
    | _, _ => ret .Nothing
  lift2C f fa fb := match fa, fb with
    | .Just a, .Just b => (f a b).seq fun c => ret (.Just c)
    | _, _ => ret .Nothing
  lift3C f fa fb fc := match fa, fb, fc with
    | .Just a, .Just b, .Just c => (f a b c).seq fun d => ret (.Just d)
    | _, _, _ => ret .Nothing
  applyOwnedC f a := match f, a with
    | .Just func, .Just a => (func a).seq fun b => ret (.Just b)
    | _, _ => ret .Nothing
  lift2OwnedC f fa fb := match fa, fb with
    | .Just a, .Just b => (f a b).seq fun c => ret (.Just c)
    | _, _ => ret .Nothing
  lift3OwnedC f fa fb fc := match fa, fb, fc with
    | .Just a, .Just b, .Just c => (f a b c).seq fun d => ret (.Just d)
    | _, _, _ => ret .Nothing
/-- `maybe.rs` 965-1161. -/
instance : RMonadC σ Maybe where
  bindC m f := match m with
    | .Just a => f a
    | .Nothing => ret .Nothing
  bindOwnedC m f := match m with
    | .Just a => f a
    | .Nothing => ret .Nothing
  joinC into m := match m with
    | .Just x => (clone x).seq into
    | .Nothing => ret .Nothing
  joinOwnedC into m := match m with
    | .Just x => into x
    | .Nothing => ret .Nothing
/-- `maybe.rs` 1163-1213. -/
instance : RMonadPlusC σ Maybe where
  mplusC x other := match x, other with
    | .Just _, _ => clone x
    | .Nothing, .Just _ => clone other
    | _, _ => ret .Nothing
  mplusOwnedC x other := match x with
    | .Just a => ret (.Just a)
    | .Nothing => ret other

/-! ## `Either` -/

/-- `either.rs` 808-830. -/
instance {L : Type} [RClone σ L] : RFunctorC σ (Either L) where
  fmapC f x := match x with
    | .Left l => (clone l).seq fun l' => ret (.Left l')
    | .Right r => (f r).seq fun b => ret (.Right b)
  fmapOwnedC f x := match x with
    | .Left l => ret (.Left l)
    | .Right r => (f r).seq fun b => ret (.Right b)
/-- `either.rs` 832-837; `pure_owned` is the default. -/
instance {L : Type} : RPureC σ (Either L) where
  pureC a := (clone a).seq fun a' => ret (.Right a')
/-- `either.rs` 839-931. -/
instance {L : Type} [RClone σ L] : RApplicativeC σ (Either L) where
  applyC f a := match f, a with
    | .Right func, .Right a => (func a).seq fun b => ret (.Right b)
    | .Left l, _ => (clone l).seq fun l' => ret (.Left l')
    | _, .Left l => (clone l).seq fun l' => ret (.Left l')
  lift2C f fa fb := match fa, fb with
    | .Right a, .Right b => (f a b).seq fun c => ret (.Right c)
    | .Left l, _ => (clone l).seq fun l' => ret (.Left l')
    | _, .Left l => (clone l).seq fun l' => ret (.Left l')
  lift3C f fa fb fc := match fa, fb, fc with
    | .Right a, .Right b, .Right c => (f a b c).seq fun d => ret (.Right d)
    | .Left l, _, _ => (clone l).seq fun l' => ret (.Left l')
    | _, .Left l, _ => (clone l).seq fun l' => ret (.Left l')
    | _, _, .Left l => (clone l).seq fun l' => ret (.Left l')
  applyOwnedC f a := match f, a with
    | .Right func, .Right a => (func a).seq fun b => ret (.Right b)
    | .Left l, _ => ret (.Left l)
    | _, .Left l => ret (.Left l)
  lift2OwnedC f fa fb := match fa, fb with
    | .Right a, .Right b => (f a b).seq fun c => ret (.Right c)
    | .Left l, _ => ret (.Left l)
    | _, .Left l => ret (.Left l)
  lift3OwnedC f fa fb fc := match fa, fb, fc with
    | .Right a, .Right b, .Right c => (f a b c).seq fun d => ret (.Right d)
    | .Left l, _, _ => ret (.Left l)
    | _, .Left l, _ => ret (.Left l)
    | _, _, .Left l => ret (.Left l)
/-- `either.rs` 933-979. -/
instance {L : Type} [RClone σ L] : RMonadC σ (Either L) where
  bindC m f := match m with
    | .Left l => (clone l).seq fun l' => ret (.Left l')
    | .Right r => f r
  bindOwnedC m f := match m with
    | .Left l => ret (.Left l)
    | .Right r => f r
  joinC into m := match m with
    | .Left l => (clone l).seq fun l' => ret (.Left l')
    | .Right r => (clone r).seq into
  joinOwnedC into m := match m with
    | .Left l => ret (.Left l)
    | .Right r => into r
/-- `either.rs` 1116-1153. -/
instance {L : Type} [RClone σ L] : RMonadPlusC σ (Either L) where
  mplusC x other := match x, other with
    | .Right _, _ => clone x
    | .Left _, .Right _ => clone other
    | .Left _, .Left _ => clone x
  mplusOwnedC x other := match x, other with
    | .Right r, _ => ret (.Right r)
    | .Left _, .Right r => ret (.Right r)
    | .Left l, .Left _ => ret (.Left l)

/-! ## `Validated` -/

/-- `traits.rs` 128-152. -/
instance {E : Type} [RClone σ E] : RFunctorC σ (Validated E) where
  fmapC f x := match x with
    | .Valid v => (f v).seq fun b => ret (.Valid b)
    | .Invalid e => (clone e).seq fun e' => ret (.Invalid e')
  fmapOwnedC f x := match x with
    | .Valid v => (f v).seq fun b => ret (.Valid b)
    | .Invalid e => ret (.Invalid e)
/-- `traits.rs` 57-67. -/
instance {E : Type} : RPureC σ (Validated E) where
  pureC a := (clone a).seq fun a' => ret (.Valid a')
  pureOwnedC a := ret (.Valid a)
/-- `if let Validated::Invalid(es) = v { errors.extend(es.iter().cloned()); }` (`traits.rs` 419-421 and others). -/
def Validated.addClonedC {E A : Type} [RClone σ E] (buf : List E) (v : Validated E A) : Act σ (List E) :=
  match v with
  | .Valid _ => ret buf
  | .Invalid es => (mapList clone es).seq fun es' => ret (buf ++ es')
/-- `traits.rs` 365-530. -/
instance {E : Type} [RClone σ E] : RApplicativeC σ (Validated E) where
  applyC f a := match f, a with
    | .Valid f, .Valid a => (f a).seq fun b => ret (.Valid b)
    | .Valid _, .Invalid e => (clone e).seq fun e' => ret (.Invalid e')
    | .Invalid e, .Valid _ => (clone e).seq fun e' => ret (.Invalid e')
    | .Invalid e1, .Invalid e2 => (mapList clone (e1 ++ e2)).seq fun errors => ret (.Invalid errors)
  lift2C f fa fb := match fa, fb with
    | .Valid a, .Valid b => (f a b).seq fun c => ret (.Valid c)
    | fa, fb => (Validated.addClonedC [] fa).seq fun errors => (Validated.addClonedC errors fb).seq fun errors =>
        ret (.Invalid errors)
  lift3C f fa fb fc := match fa, fb, fc with
    | .Valid a, .Valid b, .Valid c => (f a b c).seq fun d => ret (.Valid d)
    | fa, fb, fc => (Validated.addClonedC [] fa).seq fun errors => (Validated.addClonedC errors fb).seq fun errors =>
        (Validated.addClonedC errors fc).seq fun errors => ret (.Invalid errors)
  applyOwnedC f a := match f, a with
    | .Valid f, .Valid a => (f a).seq fun b => ret (.Valid b)
    | a, b => ret (.Invalid (Validated.addErrors (Validated.addErrors [] a) b))
  lift2OwnedC f fa fb := match fa, fb with
    | .Valid a, .Valid b => (f a b).seq fun c => ret (.Valid c)
    | fa, fb => ret (.Invalid (Validated.addErrors (Validated.addErrors [] fa) fb))
  lift3OwnedC f fa fb fc := match fa, fb, fc with
    | .Valid a, .Valid b, .Valid c => (f a b c).seq fun d => ret (.Valid d)
    | .Invalid e1, .Invalid e2, .Invalid e3 => ret (.Invalid (e1 ++ e2 ++ e3))
    | fa, fb, fc => ret (.Invalid (Validated.addErrors (Validated.addErrors (Validated.addErrors [] fa) fb) fc))
/-- `traits.rs` 588-636. -/
instance {E : Type} [RClone σ E] : RMonadC σ (Validated E) where
  bindC m f := match m with
    | .Valid a => f a
    | .Invalid e => (clone e).seq fun e' => ret (.Invalid e')
  bindOwnedC m f := match m with
    | .Valid a => f a
    | .Invalid e => ret (.Invalid e)
  joinC into m := match m with
    | .Valid inner => (clone inner).seq into
    | .Invalid e => (clone e).seq fun e' => ret (.Invalid e')
  joinOwnedC into m := match m with
    | .Valid inner => into inner
    | .Invalid e => ret (.Invalid e)
/-- `combine` (`traits.rs` 935-945), `mplus` (907-917). -/
def Validated.combineC' {E A : Type} [RClone σ E] [RClone σ A] (x other : Validated E A) : Act σ (Validated E A) :=
  match x, other with
  | .Valid _, _ => clone x
  | .Invalid _, .Valid _ => clone other
  | .Invalid e1, .Invalid e2 => (mapList clone (e1 ++ e2)).seq fun errors => ret (.Invalid errors)
/-- `combine_owned` (`traits.rs` 947-957), `mplus_owned` (919-931). -/
def Validated.combineOwnedC' {E A : Type} [RClone σ E] [RClone σ A] (x other : Validated E A) :
    Act σ (Validated E A) :=
  match x, other with
  | .Valid a, _ => ret (.Valid a)
  | .Invalid _, .Valid a => ret (.Valid a)
  | .Invalid e1, .Invalid e2 => ret (.Invalid (e1 ++ e2))
/-- `traits.rs` 934-957. -/
instance {E A : Type} [RClone σ E] [RClone σ A] : RSemigroupC σ (Validated E A) where
  combineC x other := x.combineC' other
  combineOwnedC x other := x.combineOwnedC' other
/-- `traits.rs` 902-932. -/
instance {E : Type} [RClone σ E] : RMonadPlusC σ (Validated E) where
  mplusC x other := x.combineC' other
  mplusOwnedC x other := x.combineOwnedC' other

namespace Validated
variable {E A B G : Type} [RClone σ E] [RClone σ A]

/-- `errors` (`core.rs` 339-344). -/
def errorsC (v : Validated E A) : Act σ (List E) := mapList clone v.errorSlice
/-- `fmap_invalid` (`core.rs` 815-827), `second` (`traits.rs` 243-255), `map_second` (158-172). -/
def fmapInvalidC (v : Validated E A) (f : E → Act σ G) : Act σ (Validated G A) :=
  match v with
  | .Valid x => (clone x).seq fun x' => ret (.Valid x')
  | .Invalid es => (mapList f es).seq fun gs => ret (.Invalid gs)
/-- `fmap_invalid_owned` (`core.rs` 853-865), `map_second_owned` (`traits.rs` 174-186). -/
def fmapInvalidOwnedC (v : Validated E A) (f : E → Act σ G) : Act σ (Validated G A) :=
  match v with
  | .Valid x => ret (.Valid x)
  | .Invalid es => (mapList f es).seq fun gs => ret (.Invalid gs)
/-- `ErrorAccumulator::extend_cloned` (`core.rs` 37-43). -/
def extendClonedC (buffer errors : List E) : Act σ (List E) :=
  if errors.isEmpty then ret buffer else (mapList clone errors).seq fun es => ret (buffer ++ es)
/-- `combine_errors` (`core.rs` 920-932); two valid values reach `unreachable!()`. -/
def combineErrorsC (x other : Validated E A) : Act σ (Validated E A) :=
  match x, other with
  | .Valid _, .Valid _ => fun w => (.error (.str "internal error: entered unreachable code"), w)
  | .Valid _, .Invalid _ => clone other
  | .Invalid _, .Valid _ => clone x
  | .Invalid e1, .Invalid e2 => (extendClonedC [] e1).seq fun acc => (extendClonedC acc e2).seq fun acc =>
      ret (.Invalid acc)
/-- `combine_errors_owned` (`core.rs` 955-965). -/
def combineErrorsOwnedC (x other : Validated E A) : Act σ (Validated E A) :=
  match x, other with
  | .Valid _, .Valid _ => fun w => (.error (.str "internal error: entered unreachable code"), w)
  | .Valid _, .Invalid e => ret (.Invalid e)
  | .Invalid e, .Valid _ => ret (.Invalid e)
  | .Invalid e1, .Invalid e2 => ret (.Invalid (e1 ++ e2))
/-- `from_result_owned` (`core.rs` 1044-1047). -/
def fromResultOwnedC (r : Except E A) : Act σ (Validated E A) :=
  match r with
  | .ok a => ret (.Valid a)
  | .error e => ret (.Invalid [e])
/-- `from_result` (`core.rs` 1001-1008). -/
def fromResultC (r : Except E A) : Act σ (Validated E A) := (clone r).seq fromResultOwnedC
/-- `to_result_owned` (`core.rs` 1088-1091): `unwrap` on no errors panics. -/
def toResultOwnedC (v : Validated E A) : Act σ (Except E A) :=
  match v with
  | .Valid a => ret (.ok a)
  | .Invalid (e :: _) => ret (.error e)
  | .Invalid [] => fun w => (.error (.str "called `Option::unwrap()` on a `None` value"), w)
/-- `to_result` (`core.rs` 1064-1071). -/
def toResultC (v : Validated E A) : Act σ (Except E A) := (clone v).seq toResultOwnedC
/-- `from_option` (`core.rs` 1117-1122). -/
def fromOptionC (o : Option A) (e : E) : Act σ (Validated E A) :=
  match o with
  | some a => (clone a).seq fun a' => ret (.Valid a')
  | none => (clone e).seq fun e' => ret (.Invalid [e'])
/-- `from_option_owned` (`core.rs` 1148-1153). -/
def fromOptionOwnedC (o : Option A) (e : E) : Act σ (Validated E A) :=
  match o with
  | some a => ret (.Valid a)
  | none => ret (.Invalid [e])
/-- `unwrap_or` (`core.rs` 1276-1281). -/
def unwrapOrC (v : Validated E A) (d : A) : Act σ A :=
  match v with
  | .Valid x => clone x
  | .Invalid _ => clone d
/-- `into_value` (`core.rs` 562-567). -/
def intoValueC (v : Validated E A) : Act σ (Except (List E) A) :=
  match v with
  | .Valid a => ret (.ok a)
  | .Invalid es => ret (.error es)
/-- `into_error_payload` (`core.rs` 616-621). -/
def intoErrorPayloadC (v : Validated E A) : Act σ (Except A (List E)) :=
  match v with
  | .Valid a => ret (.error a)
  | .Invalid es => ret (.ok es)
/-- `to_option` (`core.rs` 1614-1619). -/
def toOptionC (v : Validated E A) : Act σ (Option A) :=
  match v with
  | .Valid x => (clone x).seq fun x' => ret (some x')
  | .Invalid _ => ret none
/-- `sequence` (`core.rs` 1386-1417). -/
def sequenceC (values : List (Validated E A)) (f : List A → Act σ B) : Act σ (Validated E B) :=
  if values.isEmpty then (f []).seq fun b => ret (.Valid b)
  else if values.all isValid then
    (Act.filterMapList (fun v => match v with
      | .Valid x => (clone x).seq fun x' => ret (some x')
      | .Invalid _ => ret none) values).seq fun xs => (f xs).seq fun b => ret (.Valid b)
  else
    (foldList (fun acc v => match v with
      | .Invalid es => extendClonedC acc es
      | .Valid _ => ret acc) values []).seq fun errors => ret (.Invalid errors)
/-- `sequence_owned` (`core.rs` 1447-1478). -/
def sequenceOwnedC (values : List (Validated E A)) (f : List A → Act σ B) : Act σ (Validated E B) :=
  if values.isEmpty then (f []).seq fun b => ret (.Valid b)
  else if values.all isValid then (f (validOnly values)).seq fun b => ret (.Valid b)
  else ret (.Invalid (values.foldl (fun acc v => addErrors acc v) []))

end Validated

/-! ## `Choice` -/

/-- `choice.rs` 1319-1388. -/
instance : RFunctorC σ Choice where
  fmapC f c := match c.values with
    | [] => ret .newEmpty
    | v :: vs => (f v).seq fun primary => (mapList f vs).seq fun alternatives =>
        ret (.new primary alternatives)
  fmapOwnedC f c := match c.values with
    | [] => ret .newEmpty
    | v :: vs => (f v).seq fun primary => (mapList f vs).seq fun alternatives =>
        ret (.new primary alternatives)
/-- `choice.rs` 1294-1302. -/
instance : RPureC σ Choice where
  pureC a := (clone a).seq fun a' => ret (.ofMany [a'])
  pureOwnedC a := ret (.ofMany [a])

namespace Choice
variable {A B C D : Type}
/-- `generate_apply_alternatives` (`choice.rs` 1266-1286): `func(val.clone())`. -/
def generateApplyAlternativesC [RClone σ A] (fs : List (A → Act σ B)) (xs : List A) : Act σ (List B) :=
  (mapList (fun xi : A × Nat => Act.filterMapList (fun fj : (A → Act σ B) × Nat =>
    if xi.2 == 0 && fj.2 == 0 then ret none else (clone xi.1).seq fun x => (fj.1 x).seq fun b => ret (some b))
      fs.zipIdx) xs.zipIdx).seq fun bss => ret bss.flatten
/-- `apply_owned` (`choice.rs` 1717-1733). -/
def applyOwnedC' [RClone σ A] (fs : Choice (A → Act σ B)) (value : Choice A) : Act σ (Choice B) :=
  match fs.values, value.values with
  | f :: fs', x :: xs =>
    (clone x).seq fun x' => (f x').seq fun primary =>
    (generateApplyAlternativesC (f :: fs') (x :: xs)).seq fun alternatives => ret (new primary alternatives)
  | _, _ => ret newEmpty
/-- `lift2_owned` (`choice.rs` 1768-1796). -/
def lift2OwnedC' [RClone σ A] [RClone σ B] (f : A → B → Act σ C) (fa : Choice A) (fb : Choice B) :
    Act σ (Choice C) :=
  match fa.values, fb.values with
  | a :: as, b :: bs =>
    (clone a).seq fun a' => (clone b).seq fun b' => (f a' b').seq fun primary =>
    (foldList (fun acc (ai : A × Nat) => foldList (fun acc (bj : B × Nat) =>
      if ai.2 == 0 && bj.2 == 0 then ret acc
      else (clone ai.1).seq fun a' => (clone bj.1).seq fun b' => (f a' b').seq fun c => ret (acc ++ [c]))
        (b :: bs).zipIdx acc) (a :: as).zipIdx []).seq fun alternatives => ret (new primary alternatives)
  | _, _ => ret newEmpty
/-- `lift3_owned` (`choice.rs` 1838-1874). -/
def lift3OwnedC' [RClone σ A] [RClone σ B] [RClone σ C] (f : A → B → C → Act σ D) (fa : Choice A) (fb : Choice B)
    (fc : Choice C) : Act σ (Choice D) :=
  match fa.values, fb.values, fc.values with
  | a :: as, b :: bs, c :: cs =>
    (clone a).seq fun a' => (clone b).seq fun b' => (clone c).seq fun c' => (f a' b' c').seq fun primary =>
    (foldList (fun acc (ai : A × Nat) => foldList (fun acc (bj : B × Nat) => foldList (fun acc (ck : C × Nat) =>
      if ai.2 == 0 && bj.2 == 0 && ck.2 == 0 then ret acc
      else (clone ai.1).seq fun a' => (clone bj.1).seq fun b' => (clone ck.1).seq fun c' =>
        (f a' b' c').seq fun d => ret (acc ++ [d]))
        (c :: cs).zipIdx acc) (b :: bs).zipIdx acc) (a :: as).zipIdx []).seq fun alternatives =>
      ret (new primary alternatives)
  | _, _, _ => ret newEmpty
/-- `bind` (`choice.rs` 1444-1477): the values of every answer are cloned (1461, 1468, 1473). -/
def bindC' [RClone σ B] (c : Choice A) (f : A → Act σ (Choice B)) : Act σ (Choice B) :=
  match c.values with
  | [] => ret newEmpty
  | v :: vs => (f v).seq fun firstChoice =>
    match firstChoice.values with
    | [] => ret newEmpty
    | x :: rest => (clone x).seq fun first => (mapList clone rest).seq fun alternatives =>
      (foldList (fun alternatives alt => (f alt).seq fun c => (mapList clone c.values).seq fun vs =>
        ret (alternatives ++ vs)) vs alternatives).seq fun alternatives => ret (new first alternatives)
/-- `bind_owned` (`choice.rs` 1479-1509): the values of the first answer are cloned (1496, 1501), the others moved. -/
def bindOwnedC' [RClone σ B] (c : Choice A) (f : A → Act σ (Choice B)) : Act σ (Choice B) :=
  match c.values with
  | [] => ret newEmpty
  | v :: vs => (f v).seq fun primaryChoice =>
    match primaryChoice.values with
    | [] => ret newEmpty
    | x :: rest => (clone x).seq fun first => (mapList clone rest).seq fun alternatives =>
      (foldList (fun alternatives alt => (f alt).seq fun c => ret (alternatives ++ c.values)) vs alternatives).seq
        fun alternatives => ret (new first alternatives)
/-- `join` (`choice.rs` 1512-1544): the inner value is cloned, converted, and its values cloned again. -/
def joinC' [RClone σ A] [RClone σ B] (into : A → Act σ (Choice B)) (c : Choice A) : Act σ (Choice B) :=
  match c.values with
  | [] => ret newEmpty
  | v :: vs => (clone v).seq fun v' => (into v').seq fun primaryChoice =>
    match primaryChoice.values with
    | [] => ret newEmpty
    | x :: rest => (clone x).seq fun first => (mapList clone rest).seq fun alternatives =>
      (foldList (fun alternatives alt => (clone alt).seq fun alt' => (into alt').seq fun c =>
        (mapList clone c.values).seq fun vs => ret (alternatives ++ vs)) vs alternatives).seq fun alternatives =>
          ret (new first alternatives)
/-- `join_owned` (`choice.rs` 1547-1580): the values of every inner choice are cloned (1564, 1571, 1576). -/
def joinOwnedC' [RClone σ A] [RClone σ B] (into : A → Act σ (Choice B)) (c : Choice A) : Act σ (Choice B) :=
  match c.values with
  | [] => ret newEmpty
  | v :: vs => (into v).seq fun primaryChoice =>
    match primaryChoice.values with
    | [] => ret newEmpty
    | x :: rest => (clone x).seq fun first => (mapList clone rest).seq fun alternatives =>
      (foldList (fun alternatives alt => (into alt).seq fun c => (mapList clone c.values).seq fun vs =>
        ret (alternatives ++ vs)) vs alternatives).seq fun alternatives => ret (new first alternatives)
/-- `combine` (`choice.rs` 1584-1607). -/
def combineC' [RClone σ A] (x other : Choice A) : Act σ (Choice A) :=
  match x.values, other.values with
  | [], _ => clone other
  | _ :: _, [] => clone x
  | v :: vs, us => (clone v).seq fun primary => (mapList clone (vs ++ us)).seq fun rest => ret (new primary rest)
/-- `combine_owned` (`choice.rs` 1609-1621). -/
def combineOwnedC' [RClone σ A] (x other : Choice A) : Act σ (Choice A) :=
  match x.values, other.values with
  | [], _ => ret other
  | _ :: _, [] => ret x
  | v :: vs, us => ret (new v (vs ++ us))
/-- `sequence` (`choice.rs` 1973-1976): `self.values.iter().cloned().collect()` stops at the first `None`. -/
def sequenceLoopC [RClone σ A] : List (Option A) → Act σ (Option (List A))
  | [] => ret (some [])
  | x :: xs => (clone x).seq fun x' => match x' with
    | none => ret none
    | some a => (sequenceLoopC xs).seq fun r => ret (r.map (a :: ·))
/-- `sequence` (`choice.rs` 1973-1976). -/
def sequenceC [RClone σ A] (c : Choice (Option A)) : Act σ (Option (Choice A)) :=
  (sequenceLoopC c.values).seq fun r => ret (r.map fun vs => ⟨vs⟩)
/-- `From<Choice<T>> for Vec<T>` (`choice.rs` 2087-2091): `choice.values.to_vec()` of the owned choice. -/
def intoVecC [RClone σ A] (c : Choice A) : Act σ (List A) := mapList clone c.values
/-- `IntoIterator for Choice` (`choice.rs` 1988-1995). -/
def intoIterC [RClone σ A] (c : Choice A) : Act σ (List A) := ret c.values
end Choice

/-- `choice.rs` 1630-1875. -/
instance : RApplicativeC σ Choice where
  applyC f a := Choice.applyE' f a
  lift2C f a b := Choice.lift2E' f a b
  lift3C f a b c := Choice.lift3E' f a b c
  applyOwnedC f a := Choice.applyOwnedC' f a
  lift2OwnedC f a b := Choice.lift2OwnedC' f a b
  lift3OwnedC f a b c := Choice.lift3OwnedC' f a b c
/-- `choice.rs` 1390-1581. -/
instance : RMonadC σ Choice where
  bindC m f := Choice.bindC' m f
  bindOwnedC m f := Choice.bindOwnedC' m f
  joinC into m := Choice.joinC' into m
  joinOwnedC into m := Choice.joinOwnedC' into m
/-- `choice.rs` 1583-1622. -/
instance {A : Type} [RClone σ A] : RSemigroupC σ (Choice A) where
  combineC x other := x.combineC' other
  combineOwnedC x other := x.combineOwnedC' other
/-- `choice.rs` 1928-1952. -/
instance : RMonadPlusC σ Choice where
  mplusC x other := match x.values, other.values with
    | [], _ => clone other
    | _ :: _, [] => clone x
    | _ :: _, _ :: _ => x.combineC' other
  mplusOwnedC x other := match x.values, other.values with
    | [], _ => ret other
    | _ :: _, [] => ret x
    | _ :: _, _ :: _ => x.combineOwnedC' other

/-! ## `Id` -/

/-- `id.rs` 412-428. -/
instance : RFunctorC σ RId where
  fmapC f x := (f x.value).seq fun b => ret ⟨b⟩
  fmapOwnedC f x := (f x.value).seq fun b => ret ⟨b⟩
/-- `id.rs` 430-435; `pure_owned` is the default. -/
instance : RPureC σ RId where
  pureC a := (clone a).seq fun a' => ret ⟨a'⟩
/-- `id.rs` 437-509. -/
instance : RApplicativeC σ RId where
  applyC f a := (f.value a.value).seq fun b => ret ⟨b⟩
  lift2C f a b := (f a.value b.value).seq fun c => ret ⟨c⟩
  lift3C f a b c := (f a.value b.value c.value).seq fun d => ret ⟨d⟩
  applyOwnedC f a := (f.value a.value).seq fun b => ret ⟨b⟩
  lift2OwnedC f a b := (f a.value b.value).seq fun c => ret ⟨c⟩
  lift3OwnedC f a b c := (f a.value b.value c.value).seq fun d => ret ⟨d⟩
/-- `id.rs` 511-596. -/
instance : RMonadC σ RId where
  bindC m f := f m.value
  bindOwnedC m f := f m.value
  joinC into m := (clone m.value).seq into
  joinOwnedC into m := into m.value

/-! ## `Writer`.  The fields of a struct literal are evaluated in the order in which they are written. -/

section
variable {W : Type} [RClone σ W] [RSemigroupC σ W]

/-- `writer.rs` 506-528. -/
instance : RFunctorC σ (Writer W) where
  fmapC f x := (clone x.log).seq fun log => (f x.value).seq fun b => ret ⟨log, b⟩
  fmapOwnedC f x := (f x.value).seq fun b => ret ⟨x.log, b⟩
/-- `writer.rs` 460-476. -/
instance [RMonoid W] : RPureC σ (Writer W) where
  pureC a := (clone a).seq fun a' => ret ⟨RMonoid.empty, a'⟩
  pureOwnedC a := ret ⟨RMonoid.empty, a⟩
/-- `writer.rs` 530-944. -/
instance : RApplicativeC σ (Writer W) where
  applyC f a := (combineC f.log a.log).seq fun log => (f.value a.value).seq fun b => ret ⟨log, b⟩
  lift2C f a b := (combineC a.log b.log).seq fun log => (f a.value b.value).seq fun c => ret ⟨log, c⟩
  lift3C f a b c := (combineC a.log b.log).seq fun ab => (combineC ab c.log).seq fun log =>
    (f a.value b.value c.value).seq fun d => ret ⟨log, d⟩
  applyOwnedC f a := (combineOwnedC f.log a.log).seq fun log => (f.value a.value).seq fun b => ret ⟨log, b⟩
  lift2OwnedC f a b := (combineOwnedC a.log b.log).seq fun log => (f a.value b.value).seq fun c => ret ⟨log, c⟩
  lift3OwnedC f a b c := (combineOwnedC a.log b.log).seq fun ab => (combineOwnedC ab c.log).seq fun log =>
    (f a.value b.value c.value).seq fun d => ret ⟨log, d⟩
/-- `writer.rs` 946-1192. -/
instance : RMonadC σ (Writer W) where
  bindC m f := (f m.value).seq fun r => (combineC m.log r.log).seq fun log => ret ⟨log, r.value⟩
  bindOwnedC m f := (f m.value).seq fun r => (combineOwnedC m.log r.log).seq fun log => ret ⟨log, r.value⟩
  joinC into m := (clone m.value).seq fun v => (into v).seq fun inner =>
    (combineC m.log inner.log).seq fun log => ret ⟨log, inner.value⟩
  joinOwnedC into m := (into m.value).seq fun inner =>
    (combineOwnedC m.log inner.log).seq fun log => ret ⟨log, inner.value⟩
end

/-! ## Wrappers -/

/-- `first.rs` 463-511. -/
instance : RFunctorC σ First where
  fmapC f x := match x.val with
    | some v => (f v).seq fun b => ret ⟨some b⟩
    | none => ret ⟨none⟩
  fmapOwnedC f x := match x.val with
    | some v => (f v).seq fun b => ret ⟨some b⟩
    | none => ret ⟨none⟩
/-- `last.rs` 482-530. -/
instance : RFunctorC σ Last where
  fmapC f x := match x.val with
    | some v => (f v).seq fun b => ret ⟨some b⟩
    | none => ret ⟨none⟩
  fmapOwnedC f x := match x.val with
    | some v => (f v).seq fun b => ret ⟨some b⟩
    | none => ret ⟨none⟩
/-- `min.rs` 501-545. -/
instance : RFunctorC σ Min where
  fmapC f x := (f x.val).seq fun b => ret ⟨b⟩
  fmapOwnedC f x := (f x.val).seq fun b => ret ⟨b⟩
/-- `max.rs` 492-539. -/
instance : RFunctorC σ Max where
  fmapC f x := (f x.val).seq fun b => ret ⟨b⟩
  fmapOwnedC f x := (f x.val).seq fun b => ret ⟨b⟩
/-- `sum.rs` 532-622. -/
instance : RFunctorC σ Sum where
  fmapC f x := (f x.val).seq fun b => ret ⟨b⟩
  fmapOwnedC f x := (f x.val).seq fun b => ret ⟨b⟩
/-- `product.rs` 470-559. -/
instance : RFunctorC σ Product where
  fmapC f x := (f x.val).seq fun b => ret ⟨b⟩
  fmapOwnedC f x := (f x.val).seq fun b => ret ⟨b⟩

/-! ## `Semigroup` -/

/-- `Vec` (`semigroup.rs` 289-303). -/
instance {A : Type} [RClone σ A] : RSemigroupC σ (List A) where
  combineC x other := (clone x).seq fun result => (mapList clone other).seq fun ys => ret (result ++ ys)
  combineOwnedC x other := ret (x ++ other)
/-- `(A, B)` (`semigroup.rs` 400-410). -/
instance {A B : Type} [RSemigroupC σ A] [RSemigroupC σ B] : RSemigroupC σ (A × B) where
  combineC x y := (combineC x.1 y.1).seq fun a => (combineC x.2 y.2).seq fun b => ret (a, b)
  combineOwnedC x y := (combineOwnedC x.1 y.1).seq fun a => (combineOwnedC x.2 y.2).seq fun b => ret (a, b)
/-- `Option` (`semigroup.rs` 456-476). -/
instance {A : Type} [RClone σ A] [RSemigroupC σ A] : RSemigroupC σ (Option A) where
  combineC x y := match x, y with
    | some a, some b => (combineC a b).seq fun c => ret (some c)
    | some a, none => (clone a).seq fun a' => ret (some a')
    | none, some b => (clone b).seq fun b' => ret (some b')
    | none, none => ret none
  combineOwnedC x y := match x, y with
    | some a, some b => (combineOwnedC a b).seq fun c => ret (some c)
    | some a, none => ret (some a)
    | none, some b => ret (some b)
    | none, none => ret none
/-- `First` (`first.rs` 225-307). -/
instance {A : Type} [RClone σ A] : RSemigroupC σ (First A) where
  combineC x y := match x.val with
    | some _ => (clone x.val).seq fun v => ret ⟨v⟩
    | none => (clone y.val).seq fun v => ret ⟨v⟩
  combineOwnedC x y := match x.val with
    | some _ => ret x
    | none => ret y
/-- `Last` (`last.rs` 226-320). -/
instance {A : Type} [RClone σ A] : RSemigroupC σ (Last A) where
  combineC x y := match y.val with
    | some _ => (clone y.val).seq fun v => ret ⟨v⟩
    | none => (clone x.val).seq fun v => ret ⟨v⟩
  combineOwnedC x y := match y.val with
    | some _ => ret y
    | none => ret x
/-- `Min` (`min.rs` 190-310). -/
instance {A : Type} [RClone σ A] [ROrd A] : RSemigroupC σ (Min A) where
  combineC x y := match ROrd.cmp x.val y.val with
    | .lt | .eq => (clone x.val).seq fun v => ret ⟨v⟩
    | .gt => (clone y.val).seq fun v => ret ⟨v⟩
  combineOwnedC x y := match ROrd.cmp x.val y.val with
    | .lt | .eq => ret x
    | .gt => ret y
/-- `Max` (`max.rs` 194-314). -/
instance {A : Type} [RClone σ A] [ROrd A] : RSemigroupC σ (Max A) where
  combineC x y := match ROrd.cmp x.val y.val with
    | .gt | .eq => (clone x.val).seq fun v => ret ⟨v⟩
    | .lt => (clone y.val).seq fun v => ret ⟨v⟩
  combineOwnedC x y := match ROrd.cmp x.val y.val with
    | .gt | .eq => ret x
    | .lt => ret y
/-- `Sum` (`sum.rs` 236-348): `+` takes both values, so both are cloned. -/
instance {A : Type} [RClone σ A] [Add A] : RSemigroupC σ (Sum A) where
  combineC x y := (clone x.val).seq fun a => (clone y.val).seq fun b => ret ⟨a + b⟩
  combineOwnedC x y := ret ⟨x.val + y.val⟩
/-- `Product` (`product.rs` 174-286). -/
instance {A : Type} [RClone σ A] [Mul A] : RSemigroupC σ (Product A) where
  combineC x y := (clone x.val).seq fun a => (clone y.val).seq fun b => ret ⟨a * b⟩
  combineOwnedC x y := ret ⟨x.val * y.val⟩
/-- `Id` (`id.rs` 680-740). -/
instance {A : Type} [RSemigroupC σ A] : RSemigroupC σ (RId A) where
  combineC x y := (combineC x.value y.value).seq fun v => ret ⟨v⟩
  combineOwnedC x y := (combineOwnedC x.value y.value).seq fun v => ret ⟨v⟩
/-- `Writer` (`writer.rs` 478-494). -/
instance {W A : Type} [RSemigroupC σ W] [RSemigroupC σ A] : RSemigroupC σ (Writer W A) where
  combineC x y := (combineC x.log y.log).seq fun l => (combineC x.value y.value).seq fun v => ret ⟨l, v⟩
  combineOwnedC x y := (combineOwnedC x.log y.log).seq fun l => (combineOwnedC x.value y.value).seq fun v =>
    ret ⟨l, v⟩

/-- One step of `combine` for `HashMap`/`BTreeMap` (`semigroup.rs` 309-314, 355-360):
`entry(k.clone()).and_modify(|e| *e = e.combine(v)).or_insert(v.clone())`; the argument of `or_insert` is evaluated
whether it is needed or not.  A cloned key is the same key (the map would be inconsistent otherwise). -/
def AMap.entryStepC {K V : Type} [DecidableEq K] [RClone σ K] [RClone σ V] [RSemigroupC σ V] (m : AMap K V)
    (e : K × V) : Act σ (AMap K V) :=
  (clone e.1).seq fun _ => match m.get e.1 with
    | some old => (combineC old e.2).seq fun v => (clone e.2).seq fun _ => ret (m.insert e.1 v)
    | none => (clone e.2).seq fun v => ret (m.insert e.1 v)
/-- One step of `combine_owned` (`semigroup.rs` 321-331, 367-377): `existing.clone().combine_owned(v)`. -/
def AMap.ownedStepC {K V : Type} [DecidableEq K] [RClone σ K] [RClone σ V] [RSemigroupC σ V] (m : AMap K V)
    (e : K × V) : Act σ (AMap K V) :=
  match m.get e.1 with
  | some existing => (clone existing).seq fun old => (combineOwnedC old e.2).seq fun v => ret (m.insert e.1 v)
  | none => ret (m.insert e.1 e.2)
/-- `HashMap::clone`, `BTreeMap::clone`: every entry in turn, the key before the value. -/
def AMap.cloneC {K V : Type} [DecidableEq K] [RClone σ K] [RClone σ V] (m : AMap K V) : Act σ (AMap K V) :=
  foldList (fun acc e => (clone e.1).seq fun _ => (clone e.2).seq fun v => ret (acc.insert e.1 v)) m.entries .new
/-- `combine` (`semigroup.rs` 307-316, 353-362), visiting the other map in `order`. -/
def AMap.combineInC {K V : Type} [DecidableEq K] [RClone σ K] [RClone σ V] [RSemigroupC σ V] (m : AMap K V)
    (order : List (K × V)) : Act σ (AMap K V) :=
  m.cloneC.seq fun result => foldList AMap.entryStepC order result
/-- `combine_owned` (`semigroup.rs` 319-333, 365-379), visiting the other map in `order`. -/
def AMap.combineOwnedInC {K V : Type} [DecidableEq K] [RClone σ K] [RClone σ V] [RSemigroupC σ V] (m : AMap K V)
    (order : List (K × V)) : Act σ (AMap K V) := foldList AMap.ownedStepC order m

/-- `SemigroupExt::combine_all` (`semigroup.rs` 181-187), `combine_values` (547-555). -/
def combineAllC {A : Type} [RSemigroupC σ A] (x : A) (others : List A) : Act σ A :=
  foldList (fun acc y => combineOwnedC acc y) others x
/-- `for _ in 0..n`. -/
def Act.repeatN {A : Type} (f : A → Act σ A) : Nat → A → Act σ A
  | 0, a => ret a
  | n + 1, a => (f a).seq (Act.repeatN f n)
/-- `SemigroupExt::combine_n` (`semigroup.rs` 214-226). -/
def combineNC {A : Type} [RClone σ A] [RSemigroupC σ A] (x : A) (n : Nat) : Act σ A :=
  if n = 0 then clone x else (clone x).seq fun acc => Act.repeatN (fun acc => combineC acc x) (n - 1) acc
/-- `SemigroupExt::combine_n_owned` (`semigroup.rs` 230-242). -/
def combineNOwnedC {A : Type} [RClone σ A] [RSemigroupC σ A] (x : A) (n : Nat) : Act σ A :=
  if n = 0 then ret x
  else Act.repeatN (fun acc => (clone acc).seq fun acc' => combineOwnedC acc' acc) (n - 1) x

/-! ## `MonadError` and `ErrorMapper` -/

/-- `catch` for `Result` (`monad_error.rs` 255-264). -/
def Res.catchC {E A : Type} [RClone σ E] [RClone σ A] (x : Except E A) (f : E → Act σ (Except E A)) :
    Act σ (Except E A) :=
  match x with
  | .ok v => (clone v).seq fun v' => ret (.ok v')
  | .error e => f e
/-- `catch_owned` for `Result` (`monad_error.rs` 267-277). -/
def Res.catchOwnedC {E A : Type} [RClone σ E] [RClone σ A] (x : Except E A) (f : E → Act σ (Except E A)) :
    Act σ (Except E A) :=
  match x with
  | .ok v => ret (.ok v)
  | .error e => f e
/-- `map_error_to` for `Result` (`monad_error.rs` 286-295). -/
def Res.mapErrorToC {E G A : Type} [RClone σ E] [RClone σ A] (x : Except E A) (f : E → Act σ G) :
    Act σ (Except G A) :=
  match x with
  | .ok v => (clone v).seq fun v' => ret (.ok v')
  | .error e => (f e).seq fun g => ret (.error g)
/-- `map_error_to_owned` for `Result` (`monad_error.rs` 298-308). -/
def Res.mapErrorToOwnedC {E G A : Type} [RClone σ E] [RClone σ A] (x : Except E A) (f : E → Act σ G) :
    Act σ (Except G A) :=
  match x with
  | .ok v => ret (.ok v)
  | .error e => (f e).seq fun g => ret (.error g)
/-- `catch` for `Option` (`monad_error.rs` 320-329). -/
def Opt.catchC {A : Type} [RClone σ A] (x : Option A) (f : Unit → Act σ (Option A)) : Act σ (Option A) :=
  match x with
  | some v => (clone v).seq fun v' => ret (some v')
  | none => f ()
/-- `catch_owned` for `Option` (`monad_error.rs` 332-342). -/
def Opt.catchOwnedC {A : Type} [RClone σ A] (x : Option A) (f : Unit → Act σ (Option A)) : Act σ (Option A) :=
  match x with
  | some v => ret (some v)
  | none => f ()

end Rustica
