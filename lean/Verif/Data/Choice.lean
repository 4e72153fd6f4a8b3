import Verif.Traits.Classes

/-!
# `Choice<T>` (`src/datatypes/choice.rs`)

`SmallVec<[T; 8]>` is a list.  A `Choice` is its list of values; the first is the primary one.
Functions that can panic return `Except String` (the panic message), or `Option` with `none` = panic.
Capacity computations are in `Data/Hints`, `Display` in `Data/Text`.
-/

namespace Rustica

/-- `struct Choice<T> { values: SmallVec<[T; 8]> }` (`choice.rs` 197-199). -/
structure Choice (T : Type) where
  values : List T
deriving DecidableEq, Repr

namespace Choice
variable {T U A B C D I : Type}

/-- `new_empty` (`choice.rs` 213-217). -/
def newEmpty : Choice T := ⟨[]⟩
/-- `new` (`choice.rs` 242-262): push the item, extend by the alternatives. -/
def new (item : T) (alternatives : List T) : Choice T := ⟨[item] ++ alternatives⟩
/-- `first` (`choice.rs` 294-296). -/
def first (c : Choice T) : Option T := c.values.head?
/-- `alternatives` (`choice.rs` 332-339). -/
def alternatives (c : Choice T) : List T :=
  if c.values.length ≤ 1 then [] else c.values.drop 1
/-- `has_alternatives` (`choice.rs` 346-348). -/
def hasAlternatives (c : Choice T) : Bool := decide (c.values.length > 1)
/-- `len` (`choice.rs` 376-378). -/
def len (c : Choice T) : Nat := c.values.length
/-- `is_empty` (`choice.rs` 410-412). -/
def isEmpty (c : Choice T) : Bool := c.values.isEmpty
/-- `to_vec` (`choice.rs` 420-425), `iter` (1095-1097), `into_iter` (1983-1994), `Into<Vec<T>>` (2087-2091). -/
def toVec (c : Choice T) : List T := c.values
/-- `find_first` (`choice.rs` 432-437). -/
def findFirst (c : Choice T) (p : T → Bool) : Option T := c.values.find? p
/-- The loop of `dedup_by_key` (`choice.rs` 482-487); `dedup` (455-459) is the case `key = id`.
`seen` is the hash set of keys met so far. -/
def dedupLoop {K : Type} [DecidableEq K] (key : T → K) : List T → List K → List T
  | [], _ => []
  | v :: vs, seen =>
    if key v ∈ seen then dedupLoop key vs seen else v :: dedupLoop key vs (key v :: seen)
/-- `dedup_by_key` (`choice.rs` 469-490). -/
def dedupByKey {K : Type} [DecidableEq K] (c : Choice T) (key : T → K) : Choice T :=
  if c.isEmpty then c else ⟨dedupLoop key c.values []⟩
/-- `dedup` (`choice.rs` 444-462). -/
def dedup [DecidableEq T] (c : Choice T) : Choice T :=
  if c.isEmpty then c else ⟨dedupLoop (fun v => v) c.values []⟩
/-- `fold` (`choice.rs` 497-502). -/
def fold (c : Choice T) (init : B) (f : B → T → B) : B := c.values.foldl f init
/-- `add_alternatives` (`choice.rs` 528-536). -/
def addAlternatives (c : Choice T) (items : List T) : Choice T := ⟨c.values ++ items⟩
/-- `remove_alternative` (`choice.rs` 614-632); `.error` is the panic. -/
def removeAlternative (c : Choice T) (index : Nat) : Except String (Choice T) :=
  if c.values.length ≤ 1 then .error "Cannot remove alternative from Choice with no alternatives"
  else if index ≥ c.alternatives.length then
    .error s!"Index out of bounds: the len is {c.alternatives.length} but the index is {index}"
  else .ok ⟨c.values.eraseIdx (index + 1)⟩
/-- `try_remove_alternative` (`choice.rs` 639-653). -/
def tryRemoveAlternative (c : Choice T) (index : Nat) : Except String (Choice T) :=
  if c.values.length ≤ 1 then .error "Cannot remove alternative from Choice with no alternatives"
  else if index ≥ c.alternatives.length then .error "Index out of bounds for alternatives"
  else .ok ⟨c.values.eraseIdx (index + 1)⟩
/-- `filter` (`choice.rs` 661-675): keeps the primary unconditionally. -/
def filter (c : Choice T) (p : T → Bool) : Choice T :=
  match c.values with
  | [] => newEmpty
  | v :: vs => ⟨[v] ++ vs.filter p⟩
/-- `fmap_alternatives` (`choice.rs` 683-708). -/
def fmapAlternatives (c : Choice T) (f : T → T) : Choice T :=
  match c.values with
  | [] => newEmpty
  | v :: vs => ⟨[v] ++ vs.foldl (fun acc a => acc ++ [f a]) []⟩
/-- `flatten` (`choice.rs` 773-802); `.error` is the panic on an empty primary. -/
def flatten (c : Choice (List I)) : Except String (Choice I) :=
  match c.values with
  | [] => .ok newEmpty
  | [] :: _ => .error "Primary value was an empty iterator in Choice::flatten"
  | (first :: rest) :: vs => .ok (new first (rest ++ vs.flatMap (fun v => v)))
/-- `try_flatten` (`choice.rs` 830-857). -/
def tryFlatten (c : Choice (List I)) : Except String (Choice I) :=
  match c.values with
  | [] => .ok newEmpty
  | [] :: _ => .error "Primary value was an empty iterator in Choice::try_flatten"
  | (first :: rest) :: vs => .ok (new first (rest ++ vs.flatMap (fun v => v)))
/-- `flatten_sorted` (`choice.rs` 864-894); `slice::sort` is the stable merge sort for `le`. -/
def flattenSorted (c : Choice (List I)) (le : I → I → Bool) : Except String (Choice I) :=
  match c.values with
  | [] => .ok newEmpty
  | [] :: _ => .error "Primary value was an empty iterator in Choice::flatten_sorted"
  | (first :: rest) :: vs => .ok (new first ((vs.flatMap (fun v => v) ++ rest).mergeSort le))
/-- `of_many` (`choice.rs` 952-964), `FromIterator<T>` (2040-2046). -/
def ofMany (many : List T) : Choice T := if many.isEmpty then newEmpty else ⟨many⟩
/-- `FromIterator<Choice<T>>` (`choice.rs` 2050-2057). -/
def ofChoices (cs : List (Choice T)) : Choice T :=
  let values := cs.flatMap (fun c => c.values)
  if values.isEmpty then newEmpty else ⟨values⟩
/-- `filter_values` (`choice.rs` 1038-1054). -/
def filterValues (c : Choice T) (p : T → Bool) : Choice T :=
  let filtered := c.values.filter p
  match filtered.length with
  | 0 => newEmpty
  | _ => ⟨filtered⟩
/-- `iter_alternatives` (`choice.rs` 1141-1143). -/
def iterAlternatives (c : Choice T) : List T := c.values.drop 1
/-- `SmallVec::swap(0, j)` for `0 < j < len`. -/
def swap0 (vs : List T) (j : Nat) : List T :=
  match vs[0]?, vs[j]? with
  | some x, some y => (vs.set 0 y).set j x
  | _, _ => vs
/-- `swap_with_alternative` (`choice.rs` 1150-1170); `.error` is the panic. -/
def swapWithAlternative (c : Choice T) (i : Nat) : Except String (Choice T) :=
  if c.values.length ≤ 1 then .error "Cannot swap with alternative from Choice with no alternatives"
  else if i ≥ c.alternatives.length then
    .error s!"Index out of bounds: the len is {c.alternatives.length} but the index is {i}"
  else .ok ⟨swap0 c.values (i + 1)⟩
/-- `try_swap_with_alternative` (`choice.rs` 1247-1263). -/
def trySwapWithAlternative (c : Choice T) (i : Nat) : Except String (Choice T) :=
  if c.values.length ≤ 1 then .error "Cannot swap with alternative from Choice with no alternatives"
  else if i ≥ c.alternatives.length then .error "Index out of bounds for alternatives"
  else .ok ⟨swap0 c.values (i + 1)⟩
/-- `bind_lazy` (`choice.rs` 1202-1211), drained. -/
def bindLazy (c : Choice T) (f : T → Choice U) : List U := c.values.flatMap (fun v => (f v).values)
/-- `value` / `into_value` (`choice.rs` 1306-1316); `none` = panic. -/
def value (c : Choice T) : Option T := c.values.head?
/-- `From<Vec<T>>` (`choice.rs` 2060-2072), `From<&[T]>` (2074-2085). -/
def fromVec (v : List T) : Choice T :=
  match v with
  | [] => newEmpty
  | p :: as => new p as

/-- `fmap` (`choice.rs` 1358-1372). -/
def fmap (f : T → B) (c : Choice T) : Choice B :=
  match c.values with
  | [] => newEmpty
  | v :: vs => new (f v) (vs.map f)
/-- `fmap_owned` (`choice.rs` 1374-1387). -/
def fmapOwned (f : T → B) (c : Choice T) : Choice B :=
  match c.values with
  | [] => newEmpty
  | v :: vs => new (f v) (vs.map f)

/-- `bind` (`choice.rs` 1444-1477): an empty result for the primary value makes the whole result empty. -/
def bind (c : Choice T) (f : T → Choice U) : Choice U :=
  match c.values with
  | [] => newEmpty
  | v :: vs =>
    match (f v).values with
    | [] => newEmpty
    | first :: rest =>
      new first (vs.foldl (fun alternatives alt => alternatives ++ (f alt).values) rest)
/-- `bind_owned` (`choice.rs` 1479-1509). -/
def bindOwned (c : Choice T) (f : T → Choice U) : Choice U :=
  match c.values with
  | [] => newEmpty
  | v :: vs =>
    match (f v).values with
    | [] => newEmpty
    | first :: rest =>
      new first (vs.foldl (fun alternatives alt => alternatives ++ (f alt).values) rest)
/-- `join` (`choice.rs` 1512-1544), with the `Into` conversion as an argument. -/
def join (into : T → Choice U) (c : Choice T) : Choice U :=
  match c.values with
  | [] => newEmpty
  | v :: _ =>
    match (into v).values with
    | [] => newEmpty
    | first :: _ =>
      new first (c.alternatives.foldl (fun alternatives alt => alternatives ++ (into alt).values)
        (into v).alternatives)
/-- `join_owned` (`choice.rs` 1547-1580). -/
def joinOwned (into : T → Choice U) (c : Choice T) : Choice U :=
  match c.values with
  | [] => newEmpty
  | v :: vs =>
    match (into v).values with
    | [] => newEmpty
    | first :: _ =>
      new first (vs.foldl (fun alternatives alt => alternatives ++ (into alt).values)
        (into v).alternatives)

/-- `combine` (`choice.rs` 1584-1607). -/
def combine' (a b : Choice T) : Choice T :=
  match a.values, b.values with
  | [], _ => b
  | _, [] => a
  | x :: xs, ys => new x (xs ++ ys)
/-- `combine_owned` (`choice.rs` 1609-1621). -/
def combineOwned' (a b : Choice T) : Choice T :=
  match a.values, b.values with
  | [], _ => b
  | _, [] => a
  | x :: xs, ys => new x (xs ++ ys)

/-- `Semigroup for Choice` (`choice.rs` 1583-1622). -/
instance : RSemigroup (Choice T) where
  combine a b := combine' a b
  combineOwned a b := combineOwned' a b

/-- `Monoid for Choice` (`choice.rs` 1624-1628). -/
instance : RMonoid (Choice T) where
  empty := newEmpty

/-- `apply` (`choice.rs` 1689-1715): the outer loop runs over the *values*, the inner over the functions. -/
def apply (fs : Choice (A → B)) (value : Choice A) : Choice B :=
  match fs.values, value.values with
  | f :: fs', x :: xs =>
    new (f x) (fs'.map (fun fAlt => fAlt x) ++
      xs.flatMap (fun valAlt => [f valAlt] ++ fs'.map (fun fAlt => fAlt valAlt)))
  | _, _ => newEmpty

/-- `generate_apply_alternatives` (`choice.rs` 1266-1286). -/
def generateApplyAlternatives (fs : List (A → B)) (xs : List A) : List B :=
  xs.zipIdx.flatMap (fun xi =>
    fs.zipIdx.filterMap (fun fj => if xi.2 == 0 && fj.2 == 0 then none else some (fj.1 xi.1)))

/-- `apply_owned` (`choice.rs` 1717-1733). -/
def applyOwned (fs : Choice (A → B)) (value : Choice A) : Choice B :=
  match fs.values, value.values with
  | f :: fs', x :: xs => new (f x) (generateApplyAlternatives (f :: fs') (x :: xs))
  | _, _ => newEmpty

/-- The double loop of `lift2` (`choice.rs` 1756-1763) and `lift2_owned` (1786-1793), skipping `(0, 0)`. -/
def liftLoop2 (f : A → B → C) (as : List A) (bs : List B) : List C :=
  as.zipIdx.foldl (fun acc ai => bs.zipIdx.foldl (fun acc bj =>
    if ai.2 == 0 && bj.2 == 0 then acc else acc ++ [f ai.1 bj.1]) acc) []

/-- `lift2` (`choice.rs` 1735-1766): the outer loop runs over `fa`. -/
def lift2 (f : A → B → C) (fa : Choice A) (fb : Choice B) : Choice C :=
  match fa.values, fb.values with
  | a :: as, b :: bs => new (f a b) (liftLoop2 f (a :: as) (b :: bs))
  | _, _ => newEmpty

/-- The triple loop of `lift3` (`choice.rs` 1824-1833) and `lift3_owned` (1862-1871). -/
def liftLoop3 (f : A → B → C → D) (as : List A) (bs : List B) (cs : List C) : List D :=
  as.zipIdx.foldl (fun acc ai => bs.zipIdx.foldl (fun acc bj => cs.zipIdx.foldl (fun acc ck =>
    if ai.2 == 0 && bj.2 == 0 && ck.2 == 0 then acc else acc ++ [f ai.1 bj.1 ck.1]) acc) acc) []

/-- `lift3` (`choice.rs` 1798-1836). -/
def lift3 (f : A → B → C → D) (fa : Choice A) (fb : Choice B) (fc : Choice C) : Choice D :=
  match fa.values, fb.values, fc.values with
  | a :: as, b :: bs, c :: cs => new (f a b c) (liftLoop3 f (a :: as) (b :: bs) (c :: cs))
  | _, _, _ => newEmpty

/-- `Functor`, `Pure` (`choice.rs` 1294-1302), `Applicative` (1630-1875; `lift2_owned` 1768-1796 and
`lift3_owned` 1838-1874 have the same loops as the borrowing versions), `Monad`. -/
instance instMonad : RMonad Choice where
  fmap f c := fmap f c
  fmapOwned f c := fmapOwned f c
  pure a := ofMany [a]
  pureOwned a := ofMany [a]
  apply f x := apply f x
  lift2 f a b := lift2 f a b
  lift3 f a b c := lift3 f a b c
  applyOwned f x := applyOwned f x
  lift2Owned f a b := lift2 f a b
  lift3Owned f a b c := lift3 f a b c
  bind m f := bind m f
  bindOwned m f := bindOwned m f
  join into m := join into m
  joinOwned into m := joinOwned into m

/-- `Alternative` (`choice.rs` 1877-1926). -/
instance : RAlternative Choice where
  emptyAlt := newEmpty
  alt a b := match a.values, b.values with
    | [], _ => b
    | _, [] => a
    | x :: xs, ys => new x (xs ++ ys)
  guard c := if c then ofMany [()] else newEmpty
  many c := match c.values with
    | [] => newEmpty
    | x :: _ => new [x] []

/-- `MonadPlus` (`choice.rs` 1928-1952). -/
instance : RMonadPlus Choice where
  mzero := newEmpty
  mplus a b := match a.values, b.values with
    | [], _ => b
    | _, [] => a
    | _, _ => combine' a b
  mplusOwned a b := match a.values, b.values with
    | [], _ => b
    | _, [] => a
    | _, _ => combineOwned' a b

/-- `Foldable` (`choice.rs` 2017-2037). -/
instance : RFoldable Choice where
  foldLeft c init f := c.values.foldl f init
  foldRight c init f := c.values.reverse.foldl (fun acc v => f v acc) init

/-- `Choice<Option<T>>::sequence` (`choice.rs` 1973-1976): collecting an iterator of `Option`s stops at the
first `None`. -/
def sequence (c : Choice (Option T)) : Option (Choice T) :=
  (collectOptions c.values).map (fun vs => ⟨vs⟩)
where
  /-- `Iterator::collect::<Option<_>>` -/
  collectOptions : List (Option T) → Option (List T)
    | [] => some []
    | none :: _ => none
    | some x :: xs => (collectOptions xs).map (x :: ·)

/-- `Sum for Choice` (`choice.rs` 2099-2103). -/
def sum (cs : List (Choice T)) : Choice T :=
  cs.foldl (fun a b => RMonadPlus.mplus a b) RMonoid.empty

end Choice
end Rustica
