import Verif.PVec.Tree

/-!
# `PersistentVector` — model of `/repo/src/pvec/core.rs`, `iter.rs`, `traits.rs`
-/

namespace Rustica.PVec

/-- core.rs:12 `ADAPTIVE_INLINE_SIZE`. -/
abbrev ADAPTIVE_INLINE_SIZE : Nat := 64

/-- core.rs:54-62 `enum VectorImpl<T>`. -/
inductive VectorImpl (α : Type) where
  | inline (elements : List α)
  | tree (tree : Tree α)

/-- core.rs:43-48 `struct PersistentVector<T>`.  `generation: u32` is a `Nat`
here; overflow is treated in `Theorems/Generation.lean`. -/
structure PV (α : Type) where
  inner : VectorImpl α
  len : Nat
  generation : Nat

/-- error.rs:7-26 `enum PVecError`.  No function of the crate constructs `InvalidRange`. -/
inductive PVecError where
  | indexOutOfBounds (index len : Nat)
  | invalidRange (start stop : Nat)
  deriving DecidableEq, Repr

namespace PV

variable {α β γ : Type}

/-- core.rs:75-83 `new` (also `Default::default` 980-984, `Monoid::empty` traits.rs:106-111,
`with_cache_policy` 487). -/
def new : PV α := { inner := .inline [], len := 0, generation := 0 }

/-- core.rs:96-104 `unit`. -/
def unit (value : α) : PV α := { inner := .inline [value], len := 1, generation := 0 }

/-- core.rs:133-135 `is_empty`. -/
def isEmpty (v : PV α) : Bool := v.len == 0

/-- core.rs:204-213 `get`. -/
def get (v : PV α) (index : Nat) : Option α :=
  if index ≥ v.len then none
  else
    match v.inner with
    | .inline elements => elements[index]?
    | .tree tree => tree.get index

/-- core.rs:244-249 `try_get`. -/
def tryGet (v : PV α) (index : Nat) : Except PVecError α :=
  match v.get index with
  | some x => .ok x
  | none => .error (.indexOutOfBounds index v.len)

/-- core.rs:1052-1058 `Index::index`: `none` stands for the panic "index out of bounds". -/
def index (v : PV α) (i : Nat) : Option α := v.get i

/-- core.rs:266-268 `first`. -/
def first (v : PV α) : Option α := v.get 0

/-- core.rs:285-291 `last`. -/
def last (v : PV α) : Option α := if v.len > 0 then v.get (v.len - 1) else none

/-- iter.rs:10-13 and 21-24: the iterator is the vector with a position (both
`iter()` and `into_iter()` start at position 0). -/
structure Iter (α : Type) where
  vector : PV α
  position : Nat

/-- core.rs:148-153 `iter`, 1031-1041 `into_iter`. -/
def iter (v : PV α) : Iter α := ⟨v, 0⟩

/-- iter.rs:29-37 / 50-58 `next`: the item and the iterator afterwards. -/
def Iter.next (it : Iter α) : Option α × Iter α :=
  if it.position < it.vector.len then
    (it.vector.get it.position, { it with position := it.position + 1 })
  else (none, it)

/-- iter.rs:39-42 / 60-63 `size_hint` (the two components are equal).  The Rust
subtraction panics on underflow; `Theorems/Iter.lean` proves it cannot. -/
def Iter.sizeHint (it : Iter α) : Nat := it.vector.len - it.position

/-- Standard-library consumption of an iterator (`for`, `collect`, `map`, ...):
call `next` until it returns `None`.  `fuel` bounds the number of calls. -/
def Iter.collect : Nat → Iter α → List α
  | 0, _ => []
  | fuel + 1, it =>
    match it.next with
    | (some x, it') => x :: Iter.collect fuel it'
    | (none, _) => []

/-- `self.iter()` consumed by a standard adaptor, as the list of items it yields:
`next` is called until it returns `None`, at most `len + 1` times. -/
def items (v : PV α) : List α := Iter.collect (v.len + 1) v.iter

/-- core.rs:986-1009 `FromIterator::from_iter`. -/
def fromIter (elements : List α) : PV α :=
  let len := elements.length
  if len ≤ ADAPTIVE_INLINE_SIZE then
    { inner := .inline elements, len := len, generation := 0 }
  else
    { inner := .tree (Tree.fromElements elements), len := len, generation := 0 }

/-- core.rs:168-170 `from_slice` and 494-496 `from_slice_with_cache_policy`: `slice.iter().cloned().collect()`. -/
def fromSlice (slice : List α) : PV α := fromIter slice

/-- core.rs:1019-1023 `From<Vec<T>>`: `vec.into_iter().collect()`. -/
def fromVec (vec : List α) : PV α := fromIter vec

/-- mod.rs:52-58 `pvec!`: no arguments give `new()`, others `from_iter` of an array. -/
def pvecMacro : List α → PV α
  | [] => new
  | x :: xs => fromIter (x :: xs)

/-- core.rs:975-977 `to_vec` (also `From<PersistentVector<T>> for Vec<T>` 1025-1029). -/
def toVec (v : PV α) : List α := v.items

/-- core.rs:183-189 `map` (= `Functor::fmap`, traits.rs:42-48). -/
def map (v : PV α) (f : α → β) : PV β := fromIter (v.items.map f)

/-- traits.rs:51-58 `fmap_owned`. -/
def fmapOwned (v : PV α) (f : α → β) : PV β := fromIter (v.items.map f)

/-- core.rs:226-231 `filter`. -/
def filter (v : PV α) (p : α → Bool) : PV α := fromIter (v.items.filter p)

/-- core.rs:304-309 `filter_map`. -/
def filterMap (v : PV α) (f : α → Option β) : PV β := fromIter (v.items.filterMap f)

/-- core.rs:322-328 `flat_map`. -/
def flatMap (v : PV α) (f : α → List β) : PV β := fromIter (v.items.flatMap f)

/-- core.rs:348-353, the loop of `dedup`: `last` is the last item kept. -/
def dedupLoop [DecidableEq α] : List α → (last : Option α) → List α
  | [], _ => []
  | item :: rest, last =>
    if last ≠ some item then item :: dedupLoop rest (some item) else dedupLoop rest last

/-- core.rs:341-356 `dedup`. -/
def dedup [DecidableEq α] (v : PV α) : PV α := fromIter (dedupLoop v.items none)

/-- core.rs:369-376 `sorted`.  `Vec::sort` (standard library) is the stable sort
by `≤`; it is modelled by `List.mergeSort` (a stable sort). -/
def sorted (le : α → α → Bool) (v : PV α) : PV α := fromIter (v.items.mergeSort le)

/-- core.rs:389-394 `fold`. -/
def fold (v : PV α) (init : β) (f : β → α → β) : β := v.items.foldl f init

/-- traits.rs:63-72 `Foldable::fold_left`. -/
def foldLeft (v : PV α) (init : β) (f : β → α → β) : β := v.items.foldl f init

/-- traits.rs:80-84: the loop of `fold_right` for indices `n-1, ..., 0`. -/
def foldRightLoop (v : PV α) (f : α → β → β) : Nat → β → β
  | 0, acc => acc
  | i + 1, acc =>
    foldRightLoop v f i (match v.get i with
      | some item => f item acc
      | none => acc)

/-- traits.rs:75-86 `Foldable::fold_right`. -/
def foldRight (v : PV α) (init : β) (f : α → β → β) : β := foldRightLoop v f v.len init

/-- core.rs:410-419 `zip`. -/
def zip (v : PV α) (w : PV β) : PV (α × β) := fromIter (v.items.zip w.items)

/-- core.rs:443-449, the loop of `partition`. -/
def partitionLoop (p : α → Bool) : List α → (trueItems falseItems : List α) → List α × List α
  | [], ts, fs => (ts, fs)
  | item :: rest, ts, fs =>
    if p item then partitionLoop p rest (ts ++ [item]) fs
    else partitionLoop p rest ts (fs ++ [item])

/-- core.rs:436-452 `partition`. -/
def partition (v : PV α) (p : α → Bool) : PV α × PV α :=
  let r := partitionLoop p v.items [] []
  (fromIter r.1, fromIter r.2)

/-- core.rs:471-482 `chunk`. -/
def chunk (v : PV α) (size : Nat) : PV (PV α) :=
  if size = 0 then new
  else fromIter ((chunks size v.items).map fromIter)

/-- core.rs:631-645 `transition_to_tree`. -/
def transitionToTree (v : PV α) : PV α :=
  match v.inner with
  | .inline elements =>
    { inner := .tree (Tree.fromElements elements), len := v.len, generation := v.generation + 1 }
  | .tree _ => v

/-- core.rs:648-662 `tree_push_back` (called on tree vectors only; the other arm is
`unreachable!()`, modelled as the identity and shown unreachable by the callers). -/
def treePushBack (v : PV α) (value : α) : PV α :=
  match v.inner with
  | .tree tree =>
    { inner := .tree (tree.pushBack value), len := v.len + 1, generation := v.generation + 1 }
  | .inline _ => v

/-- core.rs:509-528 `push_back`.  The recursive call after `transition_to_tree`
lands in the tree arm and is unfolded. -/
def pushBack (v : PV α) (value : α) : PV α :=
  match v.inner with
  | .inline elements =>
    if elements.length < ADAPTIVE_INLINE_SIZE then
      { inner := .inline (elements ++ [value]), len := v.len + 1, generation := v.generation + 1 }
    else v.transitionToTree.treePushBack value
  | .tree _ => v.treePushBack value

/-- core.rs:665-679 `tree_push_front`. -/
def treePushFront (v : PV α) (value : α) : PV α :=
  match v.inner with
  | .tree tree =>
    { inner := .tree (tree.pushFront value), len := v.len + 1, generation := v.generation + 1 }
  | .inline _ => v

/-- core.rs:541-561 `push_front`. -/
def pushFront (v : PV α) (value : α) : PV α :=
  match v.inner with
  | .inline elements =>
    if elements.length < ADAPTIVE_INLINE_SIZE then
      { inner := .inline (value :: elements), len := v.len + 1, generation := v.generation + 1 }
    else v.transitionToTree.treePushFront value
  | .tree _ => v.treePushFront value

/-- core.rs:1011-1017 `Extend::extend`. -/
def extend (v : PV α) (items : List α) : PV α := items.foldl pushBack v

/-- core.rs:600-628 `update`.  (`new_elements[index] = value` would panic if `index`
were out of range of the inline elements; `PV.WF` excludes it.) -/
def update (v : PV α) (index : Nat) (value : α) : PV α :=
  if index ≥ v.len then v
  else
    match v.inner with
    | .inline elements =>
      { inner := .inline (elements.set index value), len := v.len, generation := v.generation + 1 }
    | .tree tree =>
      { inner := .tree (tree.update index value), len := v.len, generation := v.generation + 1 }

/-- core.rs:576-584 `try_update`. -/
def tryUpdate (v : PV α) (index : Nat) (value : α) : Except PVecError (PV α) :=
  if index ≥ v.len then .error (.indexOutOfBounds index v.len)
  else .ok (v.update index value)

/-- core.rs:693-734 `concat` (737-742 `ensure_tree` is the identity on trees). -/
def concat (self other : PV α) : PV α :=
  match self.inner, other.inner with
  | .inline left, .inline right => fromIter (left ++ right)
  | .inline elements, .tree tree =>
    { inner := .tree ((Tree.fromElements elements).concat tree), len := self.len + other.len,
      generation := self.generation + 1 }
  | .tree tree, .inline elements =>
    { inner := .tree (tree.concat (Tree.fromElements elements)), len := self.len + other.len,
      generation := self.generation + 1 }
  | .tree left, .tree right =>
    { inner := .tree (left.concat right), len := self.len + other.len,
      generation := self.generation + 1 }

/-- traits.rs:95-98 `Semigroup::combine`. -/
def combine (self other : PV α) : PV α := self.concat other

/-- traits.rs:100-103 `Semigroup::combine_owned`. -/
def combineOwned (self other : PV α) : PV α := self.concat other

/-- traits.rs:106-111 `Monoid::empty`. -/
def empty : PV α := new

/-- core.rs:758-795 `pop_back`. -/
def popBack (v : PV α) : Option (PV α × α) :=
  if v.isEmpty then none
  else
    match v.inner with
    | .inline elements =>
      match elements.getLast? with
      | some last =>
        some ({ inner := .inline elements.dropLast, len := v.len - 1,
                generation := v.generation + 1 }, last)
      | none => none
    | .tree tree =>
      tree.popBack.map fun (newTree, value) =>
        ({ inner := .tree newTree, len := v.len - 1, generation := v.generation + 1 }, value)

/-- core.rs:811-847 `pop_front`. -/
def popFront (v : PV α) : Option (PV α × α) :=
  if v.isEmpty then none
  else
    match v.inner with
    | .inline elements =>
      match elements with
      | first :: rest =>
        some ({ inner := .inline rest, len := v.len - 1, generation := v.generation + 1 }, first)
      | [] => none
    | .tree tree =>
      tree.popFront.map fun (newTree, value) =>
        ({ inner := .tree newTree, len := v.len - 1, generation := v.generation + 1 }, value)

/-- core.rs:864-909 `split_at`. -/
def splitAt (v : PV α) (index : Nat) : PV α × PV α :=
  if index ≥ v.len then (v, new)
  else if index = 0 then (new, v)
  else
    match v.inner with
    | .inline elements =>
      ({ inner := .inline (elements.take index), len := index, generation := v.generation + 1 },
       { inner := .inline (elements.drop index), len := v.len - index,
         generation := v.generation + 1 })
    | .tree tree =>
      let (leftTree, rightTree) := tree.splitAt index
      ({ inner := .tree leftTree, len := index, generation := v.generation + 1 },
       { inner := .tree rightTree, len := v.len - index, generation := v.generation + 1 })

/-- core.rs:922-928 `take`. -/
def take (v : PV α) (n : Nat) : PV α := if n ≥ v.len then v else (v.splitAt n).1

/-- core.rs:941-947 `skip`. -/
def skip (v : PV α) (n : Nat) : PV α := if n ≥ v.len then new else (v.splitAt n).2

/-- core.rs:949-959 `insert`. -/
def insert (v : PV α) (index : Nat) (value : α) : PV α :=
  if index ≥ v.len then v.pushBack value
  else if index = 0 then v.pushFront value
  else
    let (left, right) := v.splitAt index
    (left.pushBack value).concat right

/-- core.rs:961-973 `remove`. -/
def remove (v : PV α) (index : Nat) : Option (PV α) :=
  if index ≥ v.len then none
  else if v.len = 1 then some new
  else
    let (left, right) := v.splitAt index
    some (left.concat (right.skip 1))

/-- traits.rs:25-27, 35-37 `try_value`/`try_into_value` (`value`/`into_value` panic on
`None`). -/
def tryValue (v : PV α) : Option α := v.first

/-- traits.rs:89-91 `Foldable::length`. -/
def length (v : PV α) : Nat := v.len

end PV
end Rustica.PVec
