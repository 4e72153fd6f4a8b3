import Verif.Traits.Classes

/-!
# `Validated<E, A>` (`src/datatypes/validated/`)

`SmallVec<[E; 8]>` is a list.  `Option` results marked "panic" use `none` for the panicking path.
The `&mut` accessors, the iterators and the async variants are in `Verif/Data/Access.lean`.  `Arbitrary` is in
`Verif/Tests/Generators.lean`, serde in `Verif/Data/Serde.lean`.
-/

namespace Rustica

/-- `enum Validated<E, A>` (`validated/core.rs` 139-145). -/
inductive Validated (E A : Type) where
  | Valid : A → Validated E A
  | Invalid : List E → Validated E A
deriving DecidableEq, Repr

namespace Validated
variable {E A B C D G : Type}

/-- `is_valid` (`core.rs` 162-164). -/
def isValid : Validated E A → Bool
  | Valid _ => true
  | _ => false
/-- `is_invalid` (`core.rs` 180-182). -/
def isInvalid (v : Validated E A) : Bool := !v.isValid
/-- The loop of `recover_all` (`core.rs` 233-243), `acc` being `accumulated`. -/
def recoverLoop (recovery : E → Validated E A) : List E → List E → Validated E A
  | [], acc => Invalid acc
  | e :: es, acc =>
    match recovery e with
    | Valid v => Valid v
    | Invalid more => recoverLoop recovery es (acc ++ more)
/-- `recover_all` (`core.rs` 224-248). -/
def recoverAll (v : Validated E A) (recovery : E → Validated E A) : Validated E A :=
  match v with
  | Valid v => Valid v
  | Invalid errors => recoverLoop recovery errors []
/-- `recover_all_at_once` (`core.rs` 283-291). -/
def recoverAllAtOnce (v : Validated E A) (recovery : List E → Validated E A) : Validated E A :=
  match v with
  | Valid v => Valid v
  | Invalid errors => recovery errors
/-- `recover_with` (`core.rs` 312-317). -/
def recoverWith (v : Validated E A) (d : A) : Validated E A :=
  match v with
  | Valid v => Valid v
  | Invalid _ => Valid d
/-- `error_slice` (`core.rs` 362-367), `iter_errors` (411-413). -/
def errorSlice : Validated E A → List E
  | Valid _ => []
  | Invalid es => es
/-- `errors` (`core.rs` 339-344). -/
def errors (v : Validated E A) : List E := v.errorSlice
/-- `error_payload` (`core.rs` 442-447). -/
def errorPayload : Validated E A → Option (List E)
  | Valid _ => none
  | Invalid es => some es
/-- `unwrap_owned` (`core.rs` 476-486), `unwrap` (1248-1253), `value`/`into_value` of `Identity`
(`traits.rs` 640-653), `AsRef` (`traits.rs` 20-25); `none` = panic. -/
def unwrap : Validated E A → Option A
  | Valid a => some a
  | Invalid _ => none
/-- `unwrap_invalid_owned` (`core.rs` 515-525), `unwrap_invalid` (1329-1337); `none` = panic. -/
def unwrapInvalid : Validated E A → Option (List E)
  | Valid _ => none
  | Invalid es => some es
/-- `into_value` (`core.rs` 562-567). -/
def intoValue : Validated E A → Except (List E) A
  | Valid a => .ok a
  | Invalid es => .error es
/-- `into_error_payload` (`core.rs` 616-621). -/
def intoErrorPayload : Validated E A → Except A (List E)
  | Valid a => .error a
  | Invalid es => .ok es
/-- `invalid` (`core.rs` 657-659). -/
def invalid (e : E) : Validated E A := Invalid [e]
/-- `invalid_many` (`core.rs` 697-738): all branches collect the iterator. -/
def invalidMany (errors : List E) : Validated E A := Invalid errors
/-- `invalid_vec` (`core.rs` 774-789); `none` = panic on the empty iterator. -/
def invalidVec : List E → Option (Validated E A)
  | first :: rest => some (Invalid (first :: rest))
  | [] => none
/-- `fmap_invalid` (`core.rs` 815-827). -/
def fmapInvalid (v : Validated E A) (f : E → G) : Validated G A :=
  match v with
  | Valid x => Valid x
  | Invalid _ => Invalid (v.errorSlice.map f)
/-- `fmap_invalid_owned` (`core.rs` 853-865). -/
def fmapInvalidOwned (v : Validated E A) (f : E → G) : Validated G A :=
  match v with
  | Valid x => Valid x
  | Invalid es => Invalid (es.map f)
/-- `ErrorAccumulator::extend_cloned` (`core.rs` 37-43) with its early return. -/
def extendCloned (buffer errors : List E) : List E :=
  if errors.isEmpty then buffer else buffer ++ errors
/-- `combine_errors` (`core.rs` 920-932); `none` = `unreachable!()`. -/
def combineErrors (a b : Validated E A) : Option (Validated E A) :=
  match a, b with
  | Valid _, Valid _ => none
  | Valid _, Invalid e => some (Invalid e)
  | Invalid e, Valid _ => some (Invalid e)
  | Invalid e1, Invalid e2 => some (Invalid (extendCloned (extendCloned [] e1) e2))
/-- `combine_errors_owned` (`core.rs` 955-965); `none` = `unreachable!()`. -/
def combineErrorsOwned (a b : Validated E A) : Option (Validated E A) :=
  match a, b with
  | Valid _, Valid _ => none
  | Valid _, Invalid e => some (Invalid e)
  | Invalid e, Valid _ => some (Invalid e)
  | Invalid e1, Invalid e2 => some (Invalid (e1 ++ e2))
/-- `from_option` (`core.rs` 1117-1122), `from_option_owned` (1148-1153). -/
def fromOption (o : Option A) (e : E) : Validated E A :=
  match o with
  | some v => Valid v
  | none => Invalid [e]
/-- `from_option_with` (`core.rs` 1179-1187), `from_option_with_owned` (1213-1221). -/
def fromOptionWith (o : Option A) (ef : Unit → E) : Validated E A :=
  match o with
  | some v => Valid v
  | none => Invalid [ef ()]
/-- `unwrap_or` (`core.rs` 1276-1281). -/
def unwrapOr (v : Validated E A) (d : A) : A :=
  match v with
  | Valid x => x
  | Invalid _ => d
/-- `as_ref` (`core.rs` 1297-1302), `to_option` (1614-1619). -/
def toOption : Validated E A → Option A
  | Valid x => some x
  | Invalid _ => none

/-- The `Valid` payloads, in order: the `filter_map` of `sequence` (`core.rs` 1398-1404, 1459-1465). -/
def validOnly (values : List (Validated E A)) : List A :=
  values.filterMap (fun v => match v with
    | Valid x => some x
    | Invalid _ => none)

/-- `sequence` (`core.rs` 1386-1417). -/
def sequence (values : List (Validated E A)) (f : List A → B) : Validated E B :=
  if values.isEmpty then Valid (f [])
  else if values.all isValid then Valid (f (validOnly values))
  else Invalid (values.foldl (fun acc v => match v with
    | Invalid es => extendCloned acc es
    | Valid _ => acc) [])

/-- `sequence_owned` (`core.rs` 1447-1478). -/
def sequenceOwned (values : List (Validated E A)) (f : List A → B) : Validated E B :=
  if values.isEmpty then Valid (f [])
  else if values.all isValid then Valid (f (validOnly values))
  else Invalid (values.foldl (fun acc v => match v with
    | Invalid es => acc ++ es
    | Valid _ => acc) [])

/-- The fold step of `collect` (`core.rs` 1552-1558) and `collect_owned` (1599-1604). -/
def collectStep (st : List A × List E) (item : Validated E A) : List A × List E :=
  match item with
  | Valid a => (st.1 ++ [a], st.2)
  | Invalid es => (st.1, st.2 ++ es)

/-- `collect` (`core.rs` 1543-1566), with `C = Vec<A>`: `Valid` whenever no *error* was collected. -/
def collect (items : List (Validated E A)) : Validated E (List A) :=
  let r := items.foldl collectStep ([], [])
  if r.2.isEmpty then Valid r.1 else Invalid r.2

/-- `collect_owned` (`core.rs` 1591-1611). -/
def collectOwned (items : List (Validated E A)) : Validated E (List A) :=
  let r := items.foldl collectStep ([], [])
  if r.2.isEmpty then Valid r.1 else Invalid r.2

/-- `iter` (`iter.rs` 107-112), `into_iter` (67-72), drained. -/
def iter : Validated E A → List A
  | Valid a => [a]
  | Invalid _ => []

/-- `Some(e)`'s error buffer, `[]` for a `Valid`: the `if let Validated::Invalid(e) = a { errors.extend(e) }`
blocks (`traits.rs` 394-399, 419-425, 445-450, 476-484, 516-524). -/
def addErrors (buf : List E) : Validated E A → List E
  | Invalid e => buf ++ e
  | Valid _ => buf

/-- `Pure` (`traits.rs` 57-67), `Functor` (128-152), `Applicative` (365-530), `Monad` (588-636). -/
instance instMonad : RMonad (Validated E) where
  fmap f
    | Valid x => Valid (f x)
    | Invalid e => Invalid e
  fmapOwned f
    | Valid x => Valid (f x)
    | Invalid e => Invalid e
  pure a := Valid a
  pureOwned a := Valid a
  apply
    | Valid f, Valid a => Valid (f a)
    | Valid _, Invalid e => Invalid e
    | Invalid e, Valid _ => Invalid e
    | Invalid e1, Invalid e2 => Invalid (e1 ++ e2)
  lift2 f fa fb := match fa, fb with
    | Valid a, Valid b => Valid (f a b)
    | fa, fb => Invalid (addErrors (addErrors [] fa) fb)
  lift3 f fa fb fc := match fa, fb, fc with
    | Valid a, Valid b, Valid c => Valid (f a b c)
    | fa, fb, fc => Invalid (addErrors (addErrors (addErrors [] fa) fb) fc)
  applyOwned ff fa := match ff, fa with
    | Valid f, Valid x => Valid (f x)
    | a, b => Invalid (addErrors (addErrors [] a) b)
  lift2Owned f fa fb := match fa, fb with
    | Valid a, Valid b => Valid (f a b)
    | a, b => Invalid (addErrors (addErrors [] a) b)
  lift3Owned f fa fb fc := match fa, fb, fc with
    | Valid a, Valid b, Valid c => Valid (f a b c)
    | Invalid e1, Invalid e2, Invalid e3 => Invalid (e1 ++ e2 ++ e3)
    | a, b, c => Invalid (addErrors (addErrors (addErrors [] a) b) c)
  bind m f := match m with
    | Valid a => f a
    | Invalid e => Invalid e
  bindOwned m f := match m with
    | Valid a => f a
    | Invalid e => Invalid e
  join into m := match m with
    | Valid inner => into inner
    | Invalid e => Invalid e
  joinOwned into m := match m with
    | Valid inner => into inner
    | Invalid e => Invalid e

/-- `Semigroup` (`traits.rs` 934-957): first valid, otherwise the errors concatenated. -/
instance : RSemigroup (Validated E A) where
  combine
    | Valid a, _ => Valid a
    | Invalid _, Valid b => Valid b
    | Invalid e1, Invalid e2 => Invalid (e1 ++ e2)
  combineOwned
    | Valid a, _ => Valid a
    | Invalid _, Valid b => Valid b
    | Invalid e1, Invalid e2 => Invalid (e1 ++ e2)

/-- `Monoid` (`traits.rs` 959-963). -/
instance : RMonoid (Validated E A) where
  empty := Invalid []

/-- `MonadPlus` (`traits.rs` 902-932). -/
instance : RMonadPlus (Validated E) where
  mzero := Invalid []
  mplus
    | Valid a, _ => Valid a
    | Invalid _, Valid b => Valid b
    | Invalid e1, Invalid e2 => Invalid (e1 ++ e2)
  mplusOwned
    | Valid a, _ => Valid a
    | Invalid _, Valid b => Valid b
    | Invalid e1, Invalid e2 => Invalid (e1 ++ e2)

/-- `Alternative` (`traits.rs` 811-840). -/
instance [Inhabited E] : RAlternative (Validated E) where
  emptyAlt := Invalid [default]
  alt
    | Valid a, _ => Valid a
    | Invalid _, other => other
  guard c := if c then Valid () else Invalid [default]
  many
    | Valid x => Valid [x]
    | Invalid _ => Invalid [default]

/-- `Foldable` (`traits.rs` 682-706). -/
instance : RFoldable (Validated E) where
  foldLeft x init f := match x with
    | Valid a => f init a
    | Invalid _ => init
  foldRight x init f := match x with
    | Valid a => f a init
    | Invalid _ => init

/-- `Bifunctor::bimap` (`traits.rs` 216-230). -/
def bimap (v : Validated E A) (f : A → C) (g : E → D) : Validated D C :=
  match v with
  | Valid x => Valid (f x)
  | Invalid es => Invalid (es.map g)
/-- `Bifunctor::first` (`traits.rs` 232-241). -/
def first (v : Validated E A) (f : A → C) : Validated E C :=
  match v with
  | Valid x => Valid (f x)
  | Invalid e => Invalid e
/-- `Bifunctor::second` (`traits.rs` 243-255). -/
def second (v : Validated E A) (g : E → D) : Validated D A :=
  match v with
  | Valid x => Valid x
  | Invalid es => Invalid (es.map g)
/-- `BinaryHKT::map_second` (`traits.rs` 158-172), `map_second_owned` (174-186). -/
def mapSecond (v : Validated E A) (f : E → C) : Validated C A :=
  match v with
  | Valid x => Valid x
  | Invalid es => Invalid (es.map f)

end Validated
end Rustica
