/-!
# The traits of `src/traits`, as Lean type classes

Each Rust trait becomes a class with one field per required method, and one ordinary definition per
provided (default) method.  Conventions used throughout (see DESIGN.md, section 1):

* `&T` and `T` are the same Lean type, `Clone::clone` is the identity, so `pure`/`pure_owned`,
  `fmap`/`fmap_owned` … only differ in their bodies; both bodies are modelled.
* the higher-kinded encoding `HKT { type Source; type Output<U> }` (`traits/hkt.rs` 134-146) is the type
  constructor `F : Type → Type` with `Self = F Source` and `Self::Output<U> = F U`.
* closures are pure total functions.
-/

namespace Rustica

/-- `trait Semigroup` (`src/traits/semigroup.rs` 96-148): `combine` and `combine_owned`. -/
class RSemigroup (α : Type) where
  combine : α → α → α
  combineOwned : α → α → α

/-- `trait Monoid: Semigroup` (`src/traits/monoid.rs` 111-140): `empty`. -/
class RMonoid (α : Type) extends RSemigroup α where
  empty : α

/-- `trait Functor: HKT` (`src/traits/functor.rs` 127-161), required methods. -/
class RFunctor (F : Type → Type) where
  fmap {A B : Type} : (A → B) → F A → F B
  fmapOwned {A B : Type} : (A → B) → F A → F B

/-- `trait Pure: HKT` (`src/traits/pure.rs` 132-184). -/
class RPure (F : Type → Type) where
  pure {A : Type} : A → F A
  /-- default body `Self::pure(&value)` (`pure.rs` 181-183), overridden by some instances -/
  pureOwned {A : Type} : A → F A := fun a => pure a

/-- `trait Applicative: Functor + Pure` (`src/traits/applicative.rs` 189-606), required methods. -/
class RApplicative (F : Type → Type) extends RFunctor F, RPure F where
  apply {A B : Type} : F (A → B) → F A → F B
  lift2 {A B C : Type} : (A → B → C) → F A → F B → F C
  lift3 {A B C D : Type} : (A → B → C → D) → F A → F B → F C → F D
  applyOwned {A B : Type} : F (A → B) → F A → F B
  lift2Owned {A B C : Type} : (A → B → C) → F A → F B → F C
  lift3Owned {A B C D : Type} : (A → B → C → D) → F A → F B → F C → F D

/-- `trait Monad: Applicative` (`src/traits/monad.rs` 143-208), required methods.  The bound
`Self::Source: Into<Self::Output<U>>` of `join` is a conversion function argument. -/
class RMonad (F : Type → Type) extends RApplicative F where
  bind {A B : Type} : F A → (A → F B) → F B
  bindOwned {A B : Type} : F A → (A → F B) → F B
  join {A B : Type} : (A → F B) → F A → F B
  joinOwned {A B : Type} : (A → F B) → F A → F B

/-- `trait Alternative: Applicative` (`src/traits/alternative.rs` 77-152). -/
class RAlternative (F : Type → Type) where
  emptyAlt {A : Type} : F A
  alt {A : Type} : F A → F A → F A
  guard : Bool → F Unit
  many {A : Type} : F A → F (List A)

/-- `trait MonadPlus: Monad` (`src/traits/monad_plus.rs` 88-123). -/
class RMonadPlus (F : Type → Type) where
  mzero {A : Type} : F A
  mplus {A : Type} : F A → F A → F A
  mplusOwned {A : Type} : F A → F A → F A

/-- `trait Foldable: HKT` (`src/traits/foldable.rs` 108-187), required methods. -/
class RFoldable (F : Type → Type) where
  foldLeft {A U : Type} : F A → U → (U → A → U) → U
  foldRight {A U : Type} : F A → U → (A → U → U) → U

export RSemigroup (combine combineOwned)

variable {F : Type → Type} {A B C : Type}

/-- `Functor::replace` (`functor.rs` 176-181). -/
def replace [RFunctor F] (x : F A) (value : B) : F B := RFunctor.fmap (fun _ => value) x

/-- `Functor::replace_owned` (`functor.rs` 197-203). -/
def replaceOwned [RFunctor F] (x : F A) (value : B) : F B := RFunctor.fmap (fun _ => value) x

/-- `Functor::void` (`functor.rs` 215-217). -/
def void [RFunctor F] (x : F A) : F Unit := RFunctor.fmap (fun _ => ()) x

/-- `Functor::void_owned` (`functor.rs` 229-234). -/
def voidOwned [RFunctor F] (x : F A) : F Unit := RFunctor.fmapOwned (fun _ => ()) x

/-- `FunctorExt::try_map_or`, default body (`functor.rs` 331-340). -/
def tryMapOr {E : Type} [RFunctor F] (x : F A) (dflt : B) (f : A → Except E B) : F B :=
  RFunctor.fmap (fun a => match f a with | .ok b => b | .error _ => dflt) x

/-- `FunctorExt::try_map_or_else`, default body (`functor.rs` 389-399). -/
def tryMapOrElse {E : Type} [RFunctor F] (x : F A) (dflt : E → B) (f : A → Except E B) : F B :=
  RFunctor.fmap (fun a => match f a with | .ok b => b | .error e => dflt e) x

/-- `Applicative::sequence_right` (`applicative.rs` 379-385). -/
def sequenceRight [RApplicative F] (fa : F A) (fb : F B) : F B :=
  RApplicative.lift2 (fun _ b => b) fa fb

/-- `Applicative::sequence_left` (`applicative.rs` 424-430). -/
def sequenceLeft [RApplicative F] (fa : F A) (fb : F B) : F A :=
  RApplicative.lift2 (fun a _ => a) fa fb

/-- `Applicative::ap2` (`applicative.rs` 468-476). -/
def ap2 [RApplicative F] (f : A → B → C) (fa : F A) (fb : F B) : F C := RApplicative.lift2 f fa fb

/-- `Applicative::sequence_right_owned` (`applicative.rs` 640-646). -/
def sequenceRightOwned [RApplicative F] (fa : F A) (fb : F B) : F B :=
  RApplicative.lift2Owned (fun _ b => b) fa fb

/-- `Applicative::sequence_left_owned` (`applicative.rs` 680-686). -/
def sequenceLeftOwned [RApplicative F] (fa : F A) (fb : F B) : F A :=
  RApplicative.lift2Owned (fun a _ => a) fa fb

/-- `Monad::flat_map` (`monad.rs` 224-231). -/
def flatMap [RMonad F] (m : F A) (f : A → F B) : F B := RMonad.bind m f

/-- `Monad::flat_map_owned` (`monad.rs` 248-255). -/
def flatMapOwned [RMonad F] (m : F A) (f : A → F B) : F B := RMonad.bindOwned m f

/-- `Monad::map_and_pure` (`monad.rs` 272-282). -/
def mapAndPure [RMonad F] (m : F A) (f : A → B) : F B :=
  RMonad.bind m (fun x => RPure.pure (f x))

/-- `Monad::try_bind` (`monad.rs` 301-311). -/
def tryBind {E : Type} [RMonad F] (m : F A) (dflt : B) (f : A → Except E (F B)) : F B :=
  RMonad.bind m (fun x => match f x with | .ok m => m | .error _ => RPure.pure dflt)

end Rustica
