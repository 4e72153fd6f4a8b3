/-!
# `RRBNode` — model of `/repo/src/pvec/node.rs`

`Arc<RRBNode<T>>` and `SmallVec` are modelled by the node itself and by `List`;
`usize` by `Nat`.  All functions are structurally recursive on the node.
-/

namespace Rustica.PVec

/-- node.rs:10 `BRANCHING_FACTOR`. -/
abbrev BRANCHING_FACTOR : Nat := 32

/-- node.rs:12 `LEAF_CAPACITY`. -/
abbrev LEAF_CAPACITY : Nat := 64

/-- node.rs:23-37 `enum RRBNode<T> { Branch { children, sizes }, Leaf { elements } }`. -/
inductive Node (α : Type) where
  | leaf (elements : List α)
  | branch (children : List (Node α)) (sizes : Option (List Nat))

namespace Node

variable {α : Type}

mutual
/-- node.rs:259-270 `calculate_size`: trusts the size table when there is one. -/
def calculateSize : Node α → Nat
  | .leaf elements => elements.length
  | .branch _ (some sizes) => sizes.sum
  | .branch children none => calculateSizeL children
/-- node.rs:266 `children.iter().map(|child| child.calculate_size()).sum()`. -/
def calculateSizeL : List (Node α) → Nat
  | [] => 0
  | c :: cs => calculateSize c + calculateSizeL cs
end

/-- node.rs:40-50 `make_relaxed`. -/
def makeRelaxed (children : List (Node α)) : Node α :=
  .branch children (some (children.map calculateSize))

/-- The loop of node.rs:57-64 (and of 164-174): scan the size table from entry
number `i`, with `cumulative` elements before it. -/
def scanSizes : List Nat → (i cumulative index : Nat) → Option (Nat × Nat)
  | [], _, _, _ => none
  | size :: rest, i, cumulative, index =>
    if index < cumulative + size then some (i, index - cumulative)
    else scanSizes rest (i + 1) (cumulative + size) index

/-- node.rs:70-90 `find_child_regular`, on the children of a branch. -/
def findChildRegular (children : List (Node α)) (index height : Nat) : Option (Nat × Nat) :=
  let childCapacity := if height = 0 then LEAF_CAPACITY else LEAF_CAPACITY * BRANCHING_FACTOR ^ height
  let childIndex := index / childCapacity
  let subIndex := index % childCapacity
  if childIndex < children.length then some (childIndex, subIndex) else none

/-- node.rs:52-68 `find_child_relaxed`, on a branch with the given size table
(`none` falls back to `find_child_regular(index, 1)`). -/
def findChildRelaxed (children : List (Node α)) (sizes : Option (List Nat)) (index : Nat) :
    Option (Nat × Nat) :=
  match sizes with
  | some sizes => scanSizes sizes 0 0 index
  | none => findChildRegular children index 1

/-- node.rs:160-181 `find_child`: like the relaxed search when there is a size
table, otherwise leaf-sized arithmetic without a bound check. -/
def findChild (sizes : Option (List Nat)) (index : Nat) : Option (Nat × Nat) :=
  match sizes with
  | some sizes => scanSizes sizes 0 0 index
  | none => some (index / LEAF_CAPACITY, index % LEAF_CAPACITY)

/-- node.rs:96-114 `update_size_table_after_removal`.  (`remove(0)`/`pop` on a
non-empty table; on an empty one Rust's `remove(0)` would panic, here it is a
no-op — branch nodes never carry an empty table, see `Node.Sized`.) -/
def updateSizeTableAfterRemoval (sizes : Option (List Nat)) (index : Nat) : Option (List Nat) :=
  match sizes with
  | some sizes =>
    let newSizes := if index = 0 then sizes.tail else sizes.dropLast
    if newSizes.isEmpty then none else some newSizes
  | none => none

/-- node.rs:116-128 `update_size_table_after_update`. -/
def updateSizeTableAfterUpdate (sizes : Option (List Nat)) (index newSize : Nat) :
    Option (List Nat) :=
  match sizes with
  | some sizes => if index < sizes.length then some (sizes.set index newSize) else some sizes
  | none => none

mutual
/-- node.rs:146-158 `get`. -/
def get : Node α → Nat → Option α
  | .leaf elements, index => elements[index]?
  | .branch children sizes, index =>
    match (match sizes with
      | some s => scanSizes s 0 0 index
      | none => findChildRegular children index 1) with
    | some (childIdx, subIndex) => getL children childIdx subIndex
    | none => none
/-- node.rs:155 `children.get(child_idx)?.get(sub_index)`. -/
def getL : List (Node α) → Nat → Nat → Option α
  | [], _, _ => none
  | c :: _, 0, j => get c j
  | _ :: cs, i + 1, j => getL cs i j
end

mutual
/-- node.rs:183-212 `update`. -/
def update : Node α → Nat → α → Node α
  | .leaf elements, index, value =>
    .leaf (if index < elements.length then elements.set index value else elements)
  | .branch children sizes, index, value =>
    match findChild sizes index with
    | some (childIndex, subIndex) =>
      -- node.rs:196-206: out of range child index clones the node unchanged
      .branch (updateL children childIndex subIndex value) sizes
    | none => .branch children sizes
/-- node.rs:196-199: replace child `i` by its update (unchanged if out of range). -/
def updateL : List (Node α) → Nat → Nat → α → List (Node α)
  | [], _, _, _ => []
  | c :: cs, 0, j, value => update c j value :: cs
  | c :: cs, i + 1, j, value => c :: updateL cs i j value
end

/-- node.rs:214-257 `push_leaf`. -/
def pushLeaf (self leaf : Node α) : Node α :=
  match self with
  | .leaf _ => .branch [self, leaf] (some [self.calculateSize, leaf.calculateSize])
  | .branch children sizes =>
    if children.length < BRANCHING_FACTOR then
      let newSizes := match sizes with
        | some s => s
        | none => children.map calculateSize
      .branch (children ++ [leaf]) (some (newSizes ++ [leaf.calculateSize]))
    else
      .branch [self, leaf] (some [self.calculateSize, leaf.calculateSize])

mutual
/-- node.rs:272-328 `pop_back`. -/
def popBack : Node α → Option (Node α × α)
  | .leaf elements =>
    match elements.getLast? with
    | none => none
    | some x => some (.leaf elements.dropLast, x)
  | .branch children sizes =>
    match popBackLast children with
    | none => none
    | some (newChild, popped) =>
      let lastChildIndex := children.length - 1
      if newChild.calculateSize = 0 then
        let newChildren := children.dropLast
        let newSizes := updateSizeTableAfterRemoval sizes lastChildIndex
        if newChildren.isEmpty then
          some (.leaf [], popped)
        else
          some (.branch newChildren newSizes, popped)
      else
        let newSizes := updateSizeTableAfterUpdate sizes lastChildIndex newChild.calculateSize
        some (.branch (children.set lastChildIndex newChild) newSizes, popped)
/-- node.rs:288-295: `pop_back` of the last child (`none` when there is no child). -/
def popBackLast : List (Node α) → Option (Node α × α)
  | [] => none
  | [c] => popBack c
  | _ :: c :: cs => popBackLast (c :: cs)
end

/-- node.rs:330-378 `push_front_leaf`. -/
def pushFrontLeaf (self leaf : Node α) : Node α :=
  match self with
  | .leaf _ => .branch [leaf, self] (some [leaf.calculateSize, self.calculateSize])
  | .branch children sizes =>
    if children.length < BRANCHING_FACTOR then
      let newSizes := match sizes with
        | some s => leaf.calculateSize :: s
        | none => leaf.calculateSize :: children.map calculateSize
      .branch (leaf :: children) (some newSizes)
    else
      .branch [leaf, self] (some [leaf.calculateSize, self.calculateSize])

/-- node.rs:380-433 `pop_front`. -/
def popFront : Node α → Option (Node α × α)
  | .leaf elements =>
    match elements with
    | [] => none
    | x :: rest => some (.leaf rest, x)
  | .branch children sizes =>
    match children with
    | [] => none
    | firstChild :: restChildren =>
      match popFront firstChild with
      | none => none
      | some (newChild, popped) =>
        if newChild.calculateSize = 0 then
          let newSizes := updateSizeTableAfterRemoval sizes 0
          if restChildren.isEmpty then
            some (.leaf [], popped)
          else
            some (.branch restChildren newSizes, popped)
        else
          let newSizes := updateSizeTableAfterUpdate sizes 0 newChild.calculateSize
          some (.branch (newChild :: restChildren) newSizes, popped)

end Node
end Rustica.PVec
