import Verif.PVec.Core

/-!
# The same functions with every panic explicit

`Core.lean` uses total arithmetic.  The functions below repeat those functions of
`/repo/src/pvec` whose Rust text contains an operation that can panic (checked subtraction in a
build with overflow checks, indexing, `SmallVec::remove`, `unreachable!`), with that operation
returning an explicit error.  Functions of `Core.lean` that are not repeated contain no such
operation (the version counter is treated separately in `Theorems/Generation.lean`).
-/

namespace Rustica.PVec

variable {α : Type}

/-- The ways in which the modelled code can panic. -/
inductive Panic where
  /-- "attempt to subtract with overflow" -/
  | subOverflow
  /-- "index out of bounds" of a slice access `v[i]` -/
  | sliceIndex
  /-- `SmallVec::remove` past the end -/
  | removeIndex
  deriving DecidableEq, Repr

/-- Checked `a - b` on `usize`. -/
def subC (a b : Nat) : Except Panic Nat := if b ≤ a then .ok (a - b) else .error .subOverflow

/-- `v[i] = x` on a slice. -/
def setC (xs : List α) (i : Nat) (x : α) : Except Panic (List α) :=
  if i < xs.length then .ok (xs.set i x) else .error .sliceIndex

namespace Node

/-- node.rs:96-114 `update_size_table_after_removal`, with the panic of `remove(0)`. -/
def updateSizeTableAfterRemovalC (sizes : Option (List Nat)) (index : Nat) :
    Except Panic (Option (List Nat)) :=
  match sizes with
  | some [] => if index = 0 then .error .removeIndex else .ok none
  | sizes => .ok (updateSizeTableAfterRemoval sizes index)

mutual
/-- node.rs:272-328 `pop_back` (line 287 `children[last]` is behind the `is_empty` test). -/
def popBackC : Node α → Except Panic (Option (Node α × α))
  | .leaf elements =>
    match elements.getLast? with
    | none => .ok none
    | some x => .ok (some (.leaf elements.dropLast, x))
  | .branch children sizes => do
    match ← popBackLastC children with
    | none => .ok none
    | some (newChild, popped) =>
      let lastChildIndex := children.length - 1
      if newChild.calculateSize = 0 then
        let newChildren := children.dropLast
        let newSizes ← updateSizeTableAfterRemovalC sizes lastChildIndex
        if newChildren.isEmpty then
          .ok (some (.leaf [], popped))
        else
          .ok (some (.branch newChildren newSizes, popped))
      else
        let newSizes := updateSizeTableAfterUpdate sizes lastChildIndex newChild.calculateSize
        .ok (some (.branch (children.set lastChildIndex newChild) newSizes, popped))
/-- node.rs:288-295. -/
def popBackLastC : List (Node α) → Except Panic (Option (Node α × α))
  | [] => .ok none
  | [c] => popBackC c
  | _ :: c :: cs => popBackLastC (c :: cs)
end

/-- node.rs:380-433 `pop_front`. -/
def popFrontC : Node α → Except Panic (Option (Node α × α))
  | .leaf elements =>
    match elements with
    | [] => .ok none
    | x :: rest => .ok (some (.leaf rest, x))
  | .branch children sizes =>
    match children with
    | [] => .ok none
    | firstChild :: restChildren => do
      match ← popFrontC firstChild with
      | none => .ok none
      | some (newChild, popped) =>
        if newChild.calculateSize = 0 then
          let newSizes ← updateSizeTableAfterRemovalC sizes 0
          if restChildren.isEmpty then
            .ok (some (.leaf [], popped))
          else
            .ok (some (.branch restChildren newSizes, popped))
        else
          let newSizes := updateSizeTableAfterUpdate sizes 0 newChild.calculateSize
          .ok (some (.branch (newChild :: restChildren) newSizes, popped))

end Node

namespace Tree

/-- tree.rs:124, 178, 522, 584: `self.len - self.head.len() - self.tail.len()`. -/
def treeSizeC (t : Tree α) : Except Panic Nat := do subC (← subC t.len t.head.length) t.tail.length

/-- tree.rs:114-132 `get`. -/
def getC (t : Tree α) (index : Nat) : Except Panic (Option α) :=
  if index ≥ t.len then .ok none
  else if index < t.head.length then .ok t.head[index]?
  else do
    let adjustedIndex ← subC index t.head.length
    let treeSize ← t.treeSizeC
    if adjustedIndex < treeSize then .ok (t.getFromTree adjustedIndex)
    else .ok t.tail[← subC adjustedIndex treeSize]?

/-- tree.rs:160-203 `update`. -/
def updateC (t : Tree α) (index : Nat) (value : α) : Except Panic (Tree α) :=
  if index ≥ t.len then .ok t
  else if index < t.head.length then do
    .ok { t with head := ← setC t.head index value }
  else do
    let adjustedIndex ← subC index t.head.length
    let treeSize ← t.treeSizeC
    if adjustedIndex < treeSize then
      .ok { t with root := t.root.update adjustedIndex value }
    else
      let tailIndex ← subC adjustedIndex treeSize
      if tailIndex < t.tail.length then do
        .ok { t with tail := ← setC t.tail tailIndex value }
      else .ok t

/-- tree.rs:459-496 `pop_from_tree`. -/
def popFromTreeC (t : Tree α) : Except Panic (Option (Tree α × α)) :=
  if t.len = 0 then .ok none
  else do
    let treeSize ← subC t.len t.tail.length
    if treeSize = 0 then .ok none
    else do
      let lastTreeIndex ← subC treeSize 1
      match t.root.get lastTreeIndex with
      | none => .ok none
      | some lastElement => do
        let p ←
          if treeSize = 1 then (.ok (Node.leaf [], 0) : Except Panic (Node α × Nat))
          else do
            match ← t.root.popBackC with
            | some (newRoot, _) => .ok (newRoot, t.height)
            | none => .ok (t.root, t.height)
        .ok (some (⟨p.1, t.tail, t.head, p.2, ← subC t.len 1⟩, lastElement))

/-- tree.rs:436-457 `pop_back`. -/
def popBackC (t : Tree α) : Except Panic (Option (Tree α × α)) :=
  if t.len = 0 then .ok none
  else
    match t.tail.getLast? with
    | some popped => do
      .ok (some (⟨t.root, t.tail.dropLast, t.head, t.height, ← subC t.len 1⟩, popped))
    | none => t.popFromTreeC

/-- tree.rs:538-559. -/
def popFrontFromTailC (t : Tree α) : Except Panic (Option (Tree α × α)) :=
  match t.tail.reverse.getLast? with
  | some popped => do
    .ok (some (⟨.leaf [], [], t.tail.reverse.dropLast, 0, ← subC t.len 1⟩, popped))
  | none => .ok none

/-- tree.rs:521-560 `pop_front_from_tree`. -/
def popFrontFromTreeC (t : Tree α) : Except Panic (Option (Tree α × α)) := do
  if (← t.treeSizeC) > 0 then
    match ← t.root.popFrontC with
    | some (newRoot, popped) => do
      .ok (some (⟨newRoot, t.tail, t.head, t.height, ← subC t.len 1⟩, popped))
    | none => t.popFrontFromTailC
  else t.popFrontFromTailC

/-- tree.rs:498-519 `pop_front`. -/
def popFrontC (t : Tree α) : Except Panic (Option (Tree α × α)) :=
  if t.len = 0 then .ok none
  else
    match t.head with
    | popped :: newHead => do
      .ok (some (⟨t.root, t.tail, newHead, t.height, ← subC t.len 1⟩, popped))
    | [] => t.popFrontFromTreeC

/-- tree.rs:562-607 `split_at`.  (`path[0]`, `&path[1..]` at 633-634 are behind the `is_empty`
test, `original_children[i]` at 693/721 runs below `child_index`, which `children.get` has
checked, and up to `len()`; `unreachable!` at 681 sits behind the `Leaf` arm of 618.) -/
def splitAtC (t : Tree α) (index : Nat) : Except Panic (Tree α × Tree α) :=
  if index = 0 then .ok (empty, t)
  else if index ≥ t.len then .ok (t, empty)
  else if index ≤ t.head.length then
    .ok (fromHead (t.head.take index),
     fromHeadAndTreeAndTail (t.head.drop index) t.root t.tail t.height)
  else do
    let treeStart := t.head.length
    let treeSize ← t.treeSizeC
    if index ≥ treeStart + treeSize then do
      let tailIndex ← subC (← subC index treeStart) treeSize
      .ok (fromHeadAndTreeAndTail t.head t.root (t.tail.take tailIndex) t.height,
       fromTail (t.tail.drop tailIndex))
    else do
      let treeIndex ← subC index treeStart
      let p := t.splitTreeAt treeIndex
      .ok (fromHeadAndRoot t.head p.1, fromRootAndTail p.2 t.tail)

end Tree

namespace PV

/-- core.rs:204-213 `get`. -/
def getC (v : PV α) (index : Nat) : Except Panic (Option α) :=
  if index ≥ v.len then .ok none
  else
    match v.inner with
    | .inline elements => .ok elements[index]?
    | .tree tree => tree.getC index

/-- core.rs:600-628 `update`. -/
def updateC (v : PV α) (index : Nat) (value : α) : Except Panic (PV α) :=
  if index ≥ v.len then .ok v
  else
    match v.inner with
    | .inline elements => do
      .ok ⟨.inline (← setC elements index value), v.len, v.generation + 1⟩
    | .tree tree => do
      .ok ⟨.tree (← tree.updateC index value), v.len, v.generation + 1⟩

/-- core.rs:758-795 `pop_back`. -/
def popBackC (v : PV α) : Except Panic (Option (PV α × α)) :=
  if v.isEmpty then .ok none
  else
    match v.inner with
    | .inline elements =>
      match elements.getLast? with
      | some last => do
        .ok (some (⟨.inline elements.dropLast, ← subC v.len 1, v.generation + 1⟩, last))
      | none => .ok none
    | .tree tree => do
      match ← tree.popBackC with
      | some (newTree, value) => do
        .ok (some (⟨.tree newTree, ← subC v.len 1, v.generation + 1⟩, value))
      | none => .ok none

/-- core.rs:811-847 `pop_front`. -/
def popFrontC (v : PV α) : Except Panic (Option (PV α × α)) :=
  if v.isEmpty then .ok none
  else
    match v.inner with
    | .inline elements =>
      match elements with
      | first :: rest => do
        .ok (some (⟨.inline rest, ← subC v.len 1, v.generation + 1⟩, first))
      | [] => .ok none
    | .tree tree => do
      match ← tree.popFrontC with
      | some (newTree, value) => do
        .ok (some (⟨.tree newTree, ← subC v.len 1, v.generation + 1⟩, value))
      | none => .ok none

/-- core.rs:864-909 `split_at`. -/
def splitAtC (v : PV α) (index : Nat) : Except Panic (PV α × PV α) :=
  if index ≥ v.len then .ok (v, new)
  else if index = 0 then .ok (new, v)
  else
    match v.inner with
    | .inline elements => do
      .ok (⟨.inline (elements.take index), index, v.generation + 1⟩,
       ⟨.inline (elements.drop index), ← subC v.len index, v.generation + 1⟩)
    | .tree tree => do
      let p ← tree.splitAtC index
      .ok (⟨.tree p.1, index, v.generation + 1⟩,
       ⟨.tree p.2, ← subC v.len index, v.generation + 1⟩)

/-- core.rs:922-928 `take`. -/
def takeC (v : PV α) (n : Nat) : Except Panic (PV α) :=
  if n ≥ v.len then .ok v else do .ok (← v.splitAtC n).1

/-- core.rs:941-947 `skip`. -/
def skipC (v : PV α) (n : Nat) : Except Panic (PV α) :=
  if n ≥ v.len then .ok new else do .ok (← v.splitAtC n).2

/-- core.rs:949-959 `insert`. -/
def insertC (v : PV α) (index : Nat) (value : α) : Except Panic (PV α) :=
  if index ≥ v.len then .ok (v.pushBack value)
  else if index = 0 then .ok (v.pushFront value)
  else do
    let p ← v.splitAtC index
    .ok ((p.1.pushBack value).concat p.2)

/-- core.rs:961-973 `remove`. -/
def removeC (v : PV α) (index : Nat) : Except Panic (Option (PV α)) :=
  if index ≥ v.len then .ok none
  else if v.len = 1 then .ok (some new)
  else do
    let p ← v.splitAtC index
    .ok (some (p.1.concat (← p.2.skipC 1)))

/-- core.rs:285-291 `last`. -/
def lastC (v : PV α) : Except Panic (Option α) :=
  if v.len > 0 then do v.getC (← subC v.len 1) else .ok none

end PV
end Rustica.PVec
