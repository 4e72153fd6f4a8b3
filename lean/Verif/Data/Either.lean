import Verif.Traits.Classes

/-!
# `Either<L, R>` (`src/datatypes/either.rs`)

The mutable iterators are in `Data/Access`.
-/

namespace Rustica

/-- `enum Either<L, R>` (`either.rs` 264-269). -/
inductive Either (L R : Type) where
  | Left : L → Either L R
  | Right : R → Either L R
deriving DecidableEq, Repr

namespace Either
variable {L R T U C D : Type}

/-- `is_left` (`either.rs` 323-325). -/
def isLeft : Either L R → Bool
  | Left _ => true
  | _ => false
/-- `is_right` (`either.rs` 342-344). -/
def isRight : Either L R → Bool
  | Right _ => true
  | _ => false
/-- `fmap_left` (`either.rs` 367-375). -/
def fmapLeft (e : Either L R) (f : L → T) : Either T R :=
  match e with
  | Left l => Left (f l)
  | Right r => Right r
/-- `fmap_right` (`either.rs` 400-408). -/
def fmapRight (e : Either L R) (f : R → T) : Either L T :=
  match e with
  | Left l => Left l
  | Right r => Right (f r)
/-- `unwrap_left` (`either.rs` 424-429), `left_value` (519-527), `left_ref` (563-568); `none` = panic. -/
def unwrapLeft : Either L R → Option L
  | Left l => some l
  | Right _ => none
/-- `unwrap_right` (`either.rs` 447-452), `unwrap` (475-480), `right_value` (544-549), `right_ref` (582-586),
`value`/`into_value` (1063-1084); `none` = panic. -/
def unwrapRight : Either L R → Option R
  | Right r => some r
  | Left _ => none
/-- `unwrap_or` (`either.rs` 496-501), `right_or` (608-610). -/
def unwrapOr (e : Either L R) (d : R) : R :=
  match e with
  | Right r => r
  | Left _ => d
/-- `left_or` (`either.rs` 632-637). -/
def leftOr (e : Either L R) (d : L) : L :=
  match e with
  | Left l => l
  | Right _ => d
/-- `into_iter` (`either.rs` 1266-1271, 1302-1307) drained. -/
def iter : Either L R → List R
  | Right r => [r]
  | Left _ => []
/-- `left_iter` (`either.rs` 713-718, 721-726) drained. -/
def leftIter : Either L R → List L
  | Left l => [l]
  | Right _ => []
/-- `right_option` (`either.rs` 659-661). -/
def rightOption (e : Either L R) : Option R := e.iter.head?
/-- `left_option` (`either.rs` 755-757). -/
def leftOption (e : Either L R) : Option L := e.leftIter.head?

/-- `Functor` (`either.rs` 808-830), `Pure` (832-837), `Applicative` (839-931), `Monad` (933-979). -/
instance instMonad : RMonad (Either L) where
  fmap f
    | Left l => Left l
    | Right r => Right (f r)
  fmapOwned f
    | Left l => Left l
    | Right r => Right (f r)
  pure a := Right a
  apply
    | Right f, Right a => Right (f a)
    | Left l, _ => Left l
    | _, Left l => Left l
  lift2 f
    | Right a, Right b => Right (f a b)
    | Left l, _ => Left l
    | _, Left l => Left l
  lift3 f
    | Right a, Right b, Right c => Right (f a b c)
    | Left l, _, _ => Left l
    | _, Left l, _ => Left l
    | _, _, Left l => Left l
  applyOwned
    | Right f, Right a => Right (f a)
    | Left l, _ => Left l
    | _, Left l => Left l
  lift2Owned f
    | Right a, Right b => Right (f a b)
    | Left l, _ => Left l
    | _, Left l => Left l
  lift3Owned f
    | Right a, Right b, Right c => Right (f a b c)
    | Left l, _, _ => Left l
    | _, Left l, _ => Left l
    | _, _, Left l => Left l
  bind m f := match m with
    | Left l => Left l
    | Right r => f r
  bindOwned m f := match m with
    | Left l => Left l
    | Right r => f r
  join into m := match m with
    | Left l => Left l
    | Right r => into r
  joinOwned into m := match m with
    | Left l => Left l
    | Right r => into r

/-- `MonadPlus` (`either.rs` 1116-1153). -/
instance [Inhabited L] : RMonadPlus (Either L) where
  mzero := Left default
  mplus
    | Right a, _ => Right a
    | Left _, Right b => Right b
    | Left a, Left _ => Left a
  mplusOwned
    | Right a, _ => Right a
    | Left _, Right b => Right b
    | Left a, Left _ => Left a

/-- `Alternative` (`either.rs` 1183-1240). -/
instance [Inhabited L] : RAlternative (Either L) where
  emptyAlt := Left default
  alt
    | Right a, _ => Right a
    | Left _, other => other
  guard c := if c then Right () else Left default
  many
    | Right x => Right [x]
    | Left _ => Left default

/-- `BinaryHKT::map_second` (`either.rs` 985-994). -/
def mapSecond (e : Either L R) (f : L → T) : Either T R :=
  match e with
  | Left l => Left (f l)
  | Right r => Right r
/-- `map_second_owned` (`either.rs` 996-1004). -/
def mapSecondOwned (e : Either L R) (f : L → T) : Either T R :=
  match e with
  | Left l => Left (f l)
  | Right r => Right r
/-- `Bifunctor::first` (`either.rs` 1008-1017): acts on the `Right` side. -/
def first (e : Either L R) (f : R → C) : Either L C :=
  match e with
  | Left l => Left l
  | Right r => Right (f r)
/-- `Bifunctor::second` (`either.rs` 1019-1028): acts on the `Left` side. -/
def second (e : Either L R) (g : L → D) : Either D R :=
  match e with
  | Left l => Left (g l)
  | Right r => Right r
/-- `Bifunctor::bimap` (`either.rs` 1030-1041). -/
def bimap (e : Either L R) (f : R → C) (g : L → D) : Either D C :=
  match e with
  | Left l => Left (g l)
  | Right r => Right (f r)

end Either
end Rustica
