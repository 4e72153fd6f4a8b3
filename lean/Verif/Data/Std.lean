import Verif.Traits.Classes

/-!
# Trait instances for the standard types

`Option`, `Result` (as `Except E`), `Vec` (as `List`), `String` and tuples.
Standard-library methods (`Option::map`, `Vec::extend`, `String::push_str`, iterators) are replaced by
their documented meaning.
-/

namespace Rustica

/-! ## `Semigroup` -/

/-- `impl Semigroup for Vec<T>` (`semigroup.rs` 289-303): `combine` clones and extends by `other`,
`combine_owned` extends `self`. -/
instance instSemigroupVec {T : Type} : RSemigroup (List T) where
  combine a b := a ++ b
  combineOwned a b := a ++ b

/-- `impl Monoid for Vec<T>` (`monoid.rs` 142-147). -/
instance instMonoidVec {T : Type} : RMonoid (List T) where
  empty := []

/-- `impl Semigroup for String` (`semigroup.rs` 277-287): string concatenation. -/
instance instSemigroupString : RSemigroup String where
  combine a b := a ++ b
  combineOwned a b := a ++ b

/-- `impl Monoid for String` (`monoid.rs` 149-154). -/
instance instMonoidString : RMonoid String where
  empty := ""

/-- `impl Semigroup for (A, B)` (`semigroup.rs` 400-411). -/
instance instSemigroupPair {A B : Type} [RSemigroup A] [RSemigroup B] : RSemigroup (A × B) where
  combine a b := (combine a.1 b.1, combine a.2 b.2)
  combineOwned a b := (combineOwned a.1 b.1, combineOwned a.2 b.2)

/-- A Rust triple `(A, B, C)`; a structure of its own because Lean's `A × B × C` is a nested pair. -/
structure Triple (A B C : Type) where
  f0 : A
  f1 : B
  f2 : C
deriving DecidableEq, Repr

/-- A Rust quadruple `(A, B, C, D)`. -/
structure Quad (A B C D : Type) where
  f0 : A
  f1 : B
  f2 : C
  f3 : D
deriving DecidableEq, Repr

/-- `impl Semigroup for (A, B, C)` (`semigroup.rs` 413-431). -/
instance instSemigroupTriple {A B C : Type} [RSemigroup A] [RSemigroup B] [RSemigroup C] :
    RSemigroup (Triple A B C) where
  combine a b := ⟨combine a.f0 b.f0, combine a.f1 b.f1, combine a.f2 b.f2⟩
  combineOwned a b := ⟨combineOwned a.f0 b.f0, combineOwned a.f1 b.f1, combineOwned a.f2 b.f2⟩

/-- `impl Semigroup for (A, B, C, D)` (`semigroup.rs` 433-452). -/
instance instSemigroupQuad {A B C D : Type} [RSemigroup A] [RSemigroup B] [RSemigroup C]
    [RSemigroup D] : RSemigroup (Quad A B C D) where
  combine a b := ⟨combine a.f0 b.f0, combine a.f1 b.f1, combine a.f2 b.f2, combine a.f3 b.f3⟩
  combineOwned a b :=
    ⟨combineOwned a.f0 b.f0, combineOwned a.f1 b.f1, combineOwned a.f2 b.f2, combineOwned a.f3 b.f3⟩

/-- `impl Semigroup for Option<T>` (`semigroup.rs` 456-476). -/
instance instSemigroupOption {T : Type} [RSemigroup T] : RSemigroup (Option T) where
  combine
    | some a, some b => some (combine a b)
    | some a, none => some a
    | none, some b => some b
    | none, none => none
  combineOwned
    | some a, some b => some (combineOwned a b)
    | some a, none => some a
    | none, some b => some b
    | none, none => none

/-! ## `Functor`, `Pure`, `Applicative`, `Monad`, `Alternative`, `MonadPlus` -/

/-- `Option`: `Functor` (`functor.rs` 592-610), `Pure` (`pure.rs` 188-198), `Applicative`
(`applicative.rs` 690-781), `Monad` (`monad.rs` 315-350). -/
instance instMonadOption : RMonad Option where
  fmap f x := x.map f
  fmapOwned f x := x.map f
  pure a := some a
  pureOwned a := some a
  apply
    | some f, some a => some (f a)
    | _, _ => none
  lift2 f
    | some a, some b => some (f a b)
    | _, _ => none
  lift3 f
    | some a, some b, some c => some (f a b c)
    | _, _, _ => none
  applyOwned
    | some f, some a => some (f a)
    | _, _ => none
  lift2Owned f
    | some a, some b => some (f a b)
    | _, _ => none
  lift3Owned f
    | some a, some b, some c => some (f a b c)
    | _, _, _ => none
  bind m f := m.bind f
  bindOwned m f := m.bind f
  join into m := m.bind into
  joinOwned into m := m.bind into

/-- `Alternative for Option` (`alternative.rs` 154-176). -/
instance instAlternativeOption : RAlternative Option where
  emptyAlt := none
  alt
    | some a, _ => some a
    | none, other => other
  guard c := if c then some () else none
  many x := x.map (fun v => [v])

/-- `MonadPlus for Option` (`monad_plus.rs` 126-144). -/
instance instMonadPlusOption : RMonadPlus Option where
  mzero := none
  mplus
    | some a, _ => some a
    | none, other => other
  mplusOwned
    | some a, _ => some a
    | none, other => other

/-- `Result`: `Functor` (`functor.rs` 612-636), `Pure` (`pure.rs` 200-210), `Applicative`
(`applicative.rs` 784-883), `Monad` (`monad.rs` 353-394).  `Result<T, E>` is `Except E T`. -/
instance instMonadResult {E : Type} : RMonad (Except E) where
  fmap f
    | .ok v => .ok (f v)
    | .error e => .error e
  fmapOwned f
    | .ok v => .ok (f v)
    | .error e => .error e
  pure a := .ok a
  pureOwned a := .ok a
  apply
    | .ok f, .ok a => .ok (f a)
    | .error e, _ => .error e
    | _, .error e => .error e
  lift2 f
    | .ok a, .ok b => .ok (f a b)
    | .error e, _ => .error e
    | _, .error e => .error e
  lift3 f
    | .ok a, .ok b, .ok c => .ok (f a b c)
    | .error e, _, _ => .error e
    | _, .error e, _ => .error e
    | _, _, .error e => .error e
  applyOwned
    | .ok f, .ok a => .ok (f a)
    | .error e, _ => .error e
    | _, .error e => .error e
  lift2Owned f
    | .ok a, .ok b => .ok (f a b)
    | .error e, _ => .error e
    | _, .error e => .error e
  lift3Owned f
    | .ok a, .ok b, .ok c => .ok (f a b c)
    | .error e, _, _ => .error e
    | _, .error e, _ => .error e
    | _, _, .error e => .error e
  bind m f := match m with
    | .ok x => f x
    | .error e => .error e
  bindOwned m f := match m with
    | .ok x => f x
    | .error e => .error e
  join into m := match m with
    | .ok x => into x
    | .error e => .error e
  joinOwned into m := match m with
    | .ok x => into x
    | .error e => .error e

/-- `MonadPlus for Result` (`monad_plus.rs` 147-165); `E::default()` is Lean's `default`. -/
instance instMonadPlusResult {E : Type} [Inhabited E] : RMonadPlus (Except E) where
  mzero := .error default
  mplus
    | .ok a, _ => .ok a
    | .error _, other => other
  mplusOwned
    | .ok a, _ => .ok a
    | .error _, other => other

/-- The nested push loops of `Applicative for Vec` (`applicative.rs` 893-899, 911-917, 951-957, 969-975):
`for a in xs { for b in ys { result.push(f(a, b)) } }`, each loop a left fold pushing at the back. -/
def vecLoop {A B C : Type} (f : A → B → C) (xs : List A) (ys : List B) : List C :=
  xs.foldl (fun result a => ys.foldl (fun result b => result ++ [f a b]) result) []

/-- The triple loop of `Vec::lift3_owned` (`applicative.rs` 990-998). -/
def vecLoop3 {A B C D : Type} (f : A → B → C → D) (xs : List A) (ys : List B) (zs : List C) : List D :=
  xs.foldl (fun result a => ys.foldl (fun result b =>
    zs.foldl (fun result c => result ++ [f a b c]) result) result) []

/-- `Vec`: `Functor` (`functor.rs` 446-463), `Pure` (`pure.rs` 212-222), `Applicative`
(`applicative.rs` 886-1000; the borrowing `lift3` is the iterator pipeline of lines 933-939). -/
instance instApplicativeVec : RApplicative List where
  fmap f x := x.map f
  fmapOwned f x := x.map f
  pure a := [a]
  pureOwned a := [a]
  apply fs xs := vecLoop (fun f x => f x) fs xs
  lift2 f xs ys := vecLoop f xs ys
  lift3 f xs ys zs :=
    (((xs.flatMap fun a => ys.map fun b => (a, b)).flatMap
      fun ab => zs.map fun c => (ab, c))).foldl (fun result abc => result ++ [f abc.1.1 abc.1.2 abc.2]) []
  applyOwned fs xs := vecLoop (fun f x => f x) fs xs
  lift2Owned f xs ys := vecLoop f xs ys
  lift3Owned f xs ys zs := vecLoop3 f xs ys zs

/-- `Alternative for Vec` (`alternative.rs` 178-208). -/
instance instAlternativeVec : RAlternative List where
  emptyAlt := []
  alt xs ys := if xs.isEmpty then ys else xs
  guard c := if c then [()] else []
  many xs := if xs.isEmpty then [] else [xs]

/-! ## `FunctorExt` overrides -/

/-- `Vec::try_map_or` (`functor.rs` 475-486). -/
def Vec.tryMapOr {A B E : Type} (x : List A) (dflt : B) (f : A → Except E B) : List B :=
  x.map (fun a => match f a with | .ok b => b | .error _ => dflt)

/-- `Vec::try_map_or_else` (`functor.rs` 489-500). -/
def Vec.tryMapOrElse {A B E : Type} (x : List A) (dflt : E → B) (f : A → Except E B) : List B :=
  x.map (fun a => match f a with | .ok b => b | .error e => dflt e)

/-- `Vec::filter_map` (`functor.rs` 467-472). -/
def Vec.filterMap {A B : Type} (x : List A) (f : A → Option B) : List B := x.filterMap f

/-- `Option::try_map_or` (`functor.rs` 513-525). -/
def Opt.tryMapOr {A B E : Type} (x : Option A) (dflt : B) (f : A → Except E B) : Option B :=
  match x with
  | some v => match f v with
    | .ok b => some b
    | .error _ => some dflt
  | none => none

/-- `Option::try_map_or_else` (`functor.rs` 528-540). -/
def Opt.tryMapOrElse {A B E : Type} (x : Option A) (dflt : E → B) (f : A → Except E B) : Option B :=
  match x with
  | some v => match f v with
    | .ok b => some b
    | .error e => some (dflt e)
  | none => none

/-- `Option::filter_map` (`functor.rs` 505-510). -/
def Opt.filterMap {A B : Type} (x : Option A) (f : A → Option B) : Option B := x.bind f

/-- `Result::try_map_or` (`functor.rs` 562-574). -/
def Res.tryMapOr {A B E E2 : Type} (x : Except E A) (dflt : B) (f : A → Except E2 B) : Except E B :=
  match x with
  | .ok v => match f v with
    | .ok b => .ok b
    | .error _ => .ok dflt
  | .error e => .error e

/-- `Result::try_map_or_else` (`functor.rs` 577-589). -/
def Res.tryMapOrElse {A B E E2 : Type} (x : Except E A) (dflt : E2 → B) (f : A → Except E2 B) :
    Except E B :=
  match x with
  | .ok v => match f v with
    | .ok b => .ok b
    | .error e => .ok (dflt e)
  | .error e => .error e

/-- `Result::filter_map` (`functor.rs` 548-559); `E::default()` is `default`. -/
def Res.filterMap {A B E : Type} [Inhabited E] (x : Except E A) (f : A → Option B) : Except E B :=
  match x with
  | .ok v => match f v with
    | some b => .ok b
    | none => .error default
  | .error e => .error e

/-! ## `Foldable` -/

/-- `Foldable for Vec` (`foldable.rs` 692-716). -/
instance instFoldableVec : RFoldable List where
  foldLeft xs init f := xs.foldl f init
  foldRight xs init f := xs.reverse.foldl (fun acc x => f x acc) init

/-- `Foldable for Option` (`foldable.rs` 719-741). -/
instance instFoldableOption : RFoldable Option where
  foldLeft x init f := match x with
    | some v => f init v
    | none => init
  foldRight x init f := match x with
    | some v => f v init
    | none => init

/-- `Foldable for Result` (`foldable.rs` 744-766). -/
instance instFoldableResult {E : Type} : RFoldable (Except E) where
  foldLeft x init f := match x with
    | .ok v => f init v
    | .error _ => init
  foldRight x init f := match x with
    | .ok v => f v init
    | .error _ => init

end Rustica
