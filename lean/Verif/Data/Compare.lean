import Verif.Optics.Optics
import Verif.Data.Choice
import Verif.Data.Wrappers
import Verif.Traits.Helpers

/-!
# The same code with the element's own `==` (C90)

`Optics/Optics`, `Data/Choice`, `Data/Maps` and `Traits/Helpers` take `==` of elements to be identity.  Rust asks less:
`PartialEq` is symmetric and transitive (`f64`: a NaN is not equal to itself, `-0.0 == 0.0`), `Eq` is reflexive as well,
and values may be equal without being the same.  Here every function that compares elements takes the comparison `eq` as
an argument, in the operand order of the source.

Hash sets and hash maps compare a key with the stored keys by `Eq`; which operand comes first is not documented, and does
not matter for a symmetric `eq`.  Documented by the standard library and used here: inserting an element equal to one
present leaves the set as it is, and an occupied map entry keeps its stored key.
-/

namespace Rustica

/-- What `PartialEq` promises: symmetric and transitive. -/
structure PartialEqLaws {A : Type} (eq : A → A → Bool) : Prop where
  symm : ∀ a b, eq a b = true → eq b a = true
  trans : ∀ a b c, eq a b = true → eq b c = true → eq a c = true

/-- What `Eq` promises: reflexive as well. -/
structure EqLaws {A : Type} (eq : A → A → Bool) : Prop extends PartialEqLaws eq where
  refl : ∀ a, eq a a = true

namespace RLens
variable {S A : Type}
/-- `set` (`lens.rs` 443-452): `self.get(&source) == value`. -/
def setBy (eq : A → A → Bool) (l : RLens S A) (source : S) (value : A) : S :=
  if eq (l.get source) value then source else l.setAlways source value
/-- `modify` (`lens.rs` 563-571). -/
def modifyBy (eq : A → A → Bool) (l : RLens S A) (source : S) (f : A → A) : S :=
  let current := l.get source
  let newValue := f current
  l.setBy eq source newValue
end RLens

namespace RPrism
variable {S A : Type}
/-- `modify` (`prism.rs` 743-759): `new_value == current_value`. -/
def modifyBy (eq : A → A → Bool) (p : RPrism S A) (source : S) (f : A → A) : S :=
  match p.preview source with
  | some currentValue =>
    let newValue := f currentValue
    if eq newValue currentValue then source else p.review newValue
  | none => source
/-- `set_if_different` (`prism.rs` 817-831). -/
def setIfDifferentBy (eq : A → A → Bool) (p : RPrism S A) (source : S) (newValue : A) : S :=
  match p.preview source with
  | some currentValue => if eq newValue currentValue then source else p.review newValue
  | none => p.review newValue
end RPrism

/-- `IsoExt::verify_laws` (`iso.rs` 653-662): `round_trip_from == *a && round_trip_to == *b`. -/
def RIso.verifyLawsBy {A B : Type} (eqA : A → A → Bool) (eqB : B → B → Bool) (i : RIso A B) (a : A) (b : B) : Bool :=
  let roundTripFrom := i.backward (i.forward a)
  let roundTripTo := i.forward (i.backward b)
  eqA roundTripFrom a && eqB roundTripTo b

namespace Choice
variable {T K : Type}
/-- The loop of `dedup_by_key` (`choice.rs` 482-487) and, with `key = id`, of `dedup` (455-459): `seen.insert(key)` says
whether no equal key was there. -/
def dedupLoopBy (eq : K → K → Bool) (key : T → K) : List T → List K → List T
  | [], _ => []
  | v :: vs, seen =>
    if seen.any (fun k => eq (key v) k) then dedupLoopBy eq key vs seen
    else v :: dedupLoopBy eq key vs (key v :: seen)
/-- `dedup_by_key` (`choice.rs` 469-490). -/
def dedupByKeyBy (eq : K → K → Bool) (c : Choice T) (key : T → K) : Choice T :=
  if c.isEmpty then c else ⟨dedupLoopBy eq key c.values []⟩
/-- `dedup` (`choice.rs` 444-462). -/
def dedupBy (eq : T → T → Bool) (c : Choice T) : Choice T :=
  if c.isEmpty then c else ⟨dedupLoopBy eq (fun v => v) c.values []⟩
end Choice

/-- `Foldable::contains` (`foldable.rs` 439-444): `self.any(|x| x == value)`. -/
def fcontainsBy {F : Type → Type} [RFoldable F] {A : Type} (eq : A → A → Bool) (x : F A) (value : A) : Bool :=
  fany x (fun a => eq a value)

/-! ## Maps and sets: lists of entries, at most one for each class of equal keys -/

namespace Entries
variable {K V : Type}

/-- `get`: the value stored under a key equal to `k`. -/
def look (eq : K → K → Bool) (k : K) : List (K × V) → Option V
  | [] => none
  | e :: es => if eq k e.1 then some e.2 else look eq k es

/-- Replace the value of an occupied entry; the stored key stays. -/
def setAt (eq : K → K → Bool) (k : K) (v : V) : List (K × V) → List (K × V)
  | [] => []
  | e :: es => if eq k e.1 then (e.1, v) :: es else e :: setAt eq k v es

/-- One step of `HashMap::combine`/`BTreeMap::combine` (`semigroup.rs` 310-313, 356-359):
`entry(k).and_modify(|e| *e = e.combine(v)).or_insert(v)`. -/
def entryStep [RSemigroup V] (eq : K → K → Bool) (m : List (K × V)) (e : K × V) : List (K × V) :=
  match look eq e.1 m with
  | some old => setAt eq e.1 (combine old e.2) m
  | none => m ++ [e]

/-- One step of `combine_owned` (`semigroup.rs` 322-330, 368-376): `match result.get_mut(&k)`. -/
def ownedStep [RSemigroup V] (eq : K → K → Bool) (m : List (K × V)) (e : K × V) : List (K × V) :=
  match look eq e.1 m with
  | some existing => setAt eq e.1 (combineOwned existing e.2) m
  | none => m ++ [e]

/-- `combine` (`semigroup.rs` 307-316, 353-362), visiting the other map in `order`. -/
def combineIn [RSemigroup V] (eq : K → K → Bool) (m order : List (K × V)) : List (K × V) := order.foldl (entryStep eq) m

/-- `combine_owned` (`semigroup.rs` 319-333, 365-379), visiting the other map in `order`. -/
def combineOwnedIn [RSemigroup V] (eq : K → K → Bool) (m order : List (K × V)) : List (K × V) :=
  order.foldl (ownedStep eq) m

/-- One step of `Choice::to_map_with_key` (`choice.rs` 516-518): `map.entry(f(value)).or_insert_with(|| value.clone())`. -/
def orInsert (eq : K → K → Bool) (m : List (K × V)) (k : K) (v : V) : List (K × V) :=
  match look eq k m with
  | some _ => m
  | none => m ++ [(k, v)]

/-- `Choice::to_map_with_key` (`choice.rs` 509-521). -/
def ofChoice (eq : K → K → Bool) (c : Choice V) (f : V → K) : List (K × V) :=
  c.values.foldl (fun m v => orInsert eq m (f v) v) []

end Entries

namespace Elems
variable {T : Type}

/-- `insert` of a set. -/
def insert (eq : T → T → Bool) (s : List T) (t : T) : List T := if s.any (fun x => eq t x) then s else s ++ [t]

/-- `HashSet::combine`/`BTreeSet::combine` (`semigroup.rs` 338-342, 384-388), visiting the other set in `order`. -/
def combineIn (eq : T → T → Bool) (s order : List T) : List T := order.foldl (insert eq) s

/-- `combine_owned` (`semigroup.rs` 344-348, 391-395). -/
def combineOwnedIn (eq : T → T → Bool) (s order : List T) : List T := order.foldl (insert eq) s
end Elems

/-! ## A small floating-point type, for the counterexamples -/

/-- Enough of `f64` to show how its `==` differs from identity: NaN, `-0.0`, and whole numbers (`num 0` is `0.0`). -/
inductive Fl where
  | nan
  | negZero
  | num (n : Int)
deriving DecidableEq, Repr

/-- `==` of IEEE 754: NaN equals nothing, the two zeros are equal. -/
def Fl.eq : Fl → Fl → Bool
  | .nan, _ => false
  | _, .nan => false
  | .negZero, .negZero => true
  | .negZero, .num n => decide (n = 0)
  | .num n, .negZero => decide (n = 0)
  | .num n, .num m => decide (n = m)

end Rustica
