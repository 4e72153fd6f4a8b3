import Verif.Traits.Classes

/-!
# `Maybe<T>` (`src/datatypes/maybe.rs`)

`tap` and `iter_mut` are in `Data/Access`, Display in `Data/Text`, `try_unwrap` is in the error
model.
-/

namespace Rustica

/-- `enum Maybe<T>` (`maybe.rs` 235-240). -/
inductive Maybe (T : Type) where
  | Just : T → Maybe T
  | Nothing : Maybe T
deriving DecidableEq, Repr

/-- `enum MaybeError` (`maybe.rs` 244-249). -/
inductive MaybeError where
  | ValueNotPresent
  | Custom (msg : String)
deriving DecidableEq, Repr

namespace Maybe
variable {T U : Type}

/-- `when` (`maybe.rs` 307-313). -/
def mkWhen (c : Bool) (v : T) : Maybe T := if c then Just v else Nothing
/-- `is_just` (`maybe.rs` 329-331). -/
def isJust : Maybe T → Bool
  | Just _ => true
  | _ => false
/-- `is_nothing` (`maybe.rs` 347-349). -/
def isNothing : Maybe T → Bool
  | Nothing => true
  | _ => false
/-- `from_option` (`maybe.rs` 370-375), `From<Option<T>>` (1311-1319). -/
def fromOption : Option T → Maybe T
  | some x => Just x
  | none => Nothing
/-- `to_option` (`maybe.rs` 396-401), `as_ref` (582-587), `as_option` (633-638), `Into<Option>` (1321-1329). -/
def toOption : Maybe T → Option T
  | Just x => some x
  | Nothing => none
/-- `to_result` (`maybe.rs` 427-432, 1376-1381). -/
def toResult {E : Type} (m : Maybe T) (error : E) : Except E T :=
  match m with
  | Just x => .ok x
  | Nothing => .error error
/-- `From<Result<T, E>>` (`maybe.rs` 1355-1363). -/
def fromResult {E : Type} : Except E T → Maybe T
  | .ok v => Just v
  | .error _ => Nothing
/-- `to_standard_result` (`maybe.rs` 454-456). -/
def toStandardResult (m : Maybe T) : Except MaybeError T := m.toResult .ValueNotPresent
/-- `unwrap` (`maybe.rs` 511-516), `value` (1412-1417), `into_value` (1420-1422); `none` is the panic. -/
def unwrap : Maybe T → Option T
  | Just v => some v
  | Nothing => none
/-- `unwrap_or` (`maybe.rs` 532-537). -/
def unwrapOr (m : Maybe T) (d : T) : T :=
  match m with
  | Just v => v
  | Nothing => d
/-- `unwrap_or_else` (`maybe.rs` 607-615). -/
def unwrapOrElse (m : Maybe T) (f : Unit → T) : T :=
  match m with
  | Just v => v
  | Nothing => f ()
/-- `fmap_or` (`maybe.rs` 556-564). -/
def fmapOr (m : Maybe T) (d : U) (f : T → U) : U :=
  match m with
  | Just v => f v
  | Nothing => d
/-- `filter` (`maybe.rs` 655-663). -/
def filter (m : Maybe T) (p : T → Bool) : Maybe T :=
  match m with
  | Just v => if p v then Just v else Nothing
  | Nothing => Nothing
/-- `to_vec` (`maybe.rs` 744-749), `iter` (703-705), `into_iter` (1455-1460, 1467-1472). -/
def toVec : Maybe T → List T
  | Just x => [x]
  | Nothing => []
/-- `FromIterator` (`maybe.rs` 1305-1309): the first element. -/
def fromIter (xs : List T) : Maybe T :=
  match xs with
  | [] => Nothing
  | x :: _ => Just x

/-- `Pure` (`maybe.rs` 765-770), `Functor` (772-822), `Applicative` (824-963), `Monad` (965-1161). -/
instance instMonad : RMonad Maybe where
  fmap f
    | Just x => Just (f x)
    | Nothing => Nothing
  fmapOwned f
    | Just x => Just (f x)
    | Nothing => Nothing
  pure a := Just a
  apply
    | Just g, Just x => Just (g x)
    | _, _ => Nothing
  lift2 f
    | Just a, Just b => Just (f a b)
    | _, _ => Nothing
  lift3 f
    | Just a, Just b, Just c => Just (f a b c)
    | _, _, _ => Nothing
  applyOwned
    | Just g, Just x => Just (g x)
    | _, _ => Nothing
  lift2Owned f
    | Just a, Just b => Just (f a b)
    | _, _ => Nothing
  lift3Owned f
    | Just a, Just b, Just c => Just (f a b c)
    | _, _, _ => Nothing
  bind m f := match m with
    | Just x => f x
    | Nothing => Nothing
  bindOwned m f := match m with
    | Just x => f x
    | Nothing => Nothing
  join into m := match m with
    | Just m => into m
    | Nothing => Nothing
  joinOwned into m := match m with
    | Just m => into m
    | Nothing => Nothing

/-- `MonadPlus` (`maybe.rs` 1163-1213). -/
instance : RMonadPlus Maybe where
  mzero := Nothing
  mplus
    | Just a, _ => Just a
    | Nothing, Just b => Just b
    | _, _ => Nothing
  mplusOwned
    | Just a, _ => Just a
    | Nothing, other => other

/-- `Alternative` (`maybe.rs` 1215-1286). -/
instance : RAlternative Maybe where
  emptyAlt := Nothing
  alt
    | Just a, _ => Just a
    | Nothing, other => other
  guard c := if c then Just () else Nothing
  many
    | Just x => Just [x]
    | Nothing => Nothing

/-- `WithError::fmap_error` (`maybe.rs` 1336-1345): maps `Just(_)` to `Just(f(ValueNotPresent))`. -/
def fmapError {G : Type} (m : Maybe T) (f : MaybeError → G) : Maybe G :=
  match m with
  | Just _ => Just (f .ValueNotPresent)
  | Nothing => Nothing

/-- `WithError::to_result` (`maybe.rs` 1347-1352). -/
def withErrorToResult : Maybe T → Except MaybeError T
  | Just x => .ok x
  | Nothing => .error .ValueNotPresent

end Maybe
end Rustica
