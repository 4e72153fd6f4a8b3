import Verif.PVec.Machine

/-!
# The nodes of the vector in memory

`Node.lean` treats `Arc<RRBNode<T>>` as the node itself.  Here the nodes live in memory: an `Arc` is an address, `Arc::new`
takes the next free cell, and cloning an `Arc` copies the address.  Each function of `Node.lean`, `Tree.lean` and `Core.lean`
that makes or reads nodes is repeated with addresses, from the same lines of the code.

Memory is only ever extended: no function of `src/pvec` writes through an `Arc` (there is no `Arc::make_mut`, `get_mut`,
cell or `unsafe`).  Freeing is left out, so temporary nodes stay in memory; the cells are counted, the elements and
addresses copied into a cell are not.  `Arc<RRBTree<T>>` (core.rs:60) is the tree itself: one more allocation per version.

An address is smaller than the address of the node that holds it, so a function that walks down from address `a` is
recursive on a bound (`fuel`) that starts at `a` or more.  The values at bound 0 of a branch and the cell read at an address
that does not exist are never used (`Shows` in `Sharing.lean`).
-/

namespace Rustica.PVec.Heap

variable {α : Type}

/-- node.rs:23-37 `enum RRBNode<T>`, with the addresses of the children. -/
inductive Cell (α : Type) where
  | leaf (elements : List α)
  | branch (children : List Nat) (sizes : Option (List Nat))
  deriving DecidableEq

/-- The cells in use, in the order in which they were taken.  An address is a position in this list. -/
abbrev Mem (α : Type) := List (Cell α)

/-- The cell at an address. -/
def cell (h : Mem α) (a : Nat) : Cell α := h[a]?.getD (.leaf [])

/-- node.rs:259-270 `calculate_size`, on a node with children below `fuel`. -/
def calculateSize (h : Mem α) : (fuel : Nat) → Cell α → Nat
  | _, .leaf elements => elements.length
  | _, .branch _ (some sizes) => sizes.sum
  | 0, .branch _ none => 0
  | fuel + 1, .branch children none => (children.map fun a => calculateSize h fuel (cell h a)).sum

/-- `calculate_size` through an `Arc`. -/
def sizeAt (h : Mem α) (a : Nat) : Nat := calculateSize h a (cell h a)

/-- node.rs:40-50 `make_relaxed`. -/
def makeRelaxed (h : Mem α) (children : List Nat) : Cell α := .branch children (some (children.map (sizeAt h)))

/-- node.rs:70-90 `find_child_regular`, on a branch with `count` children. -/
def findChildRegular (count index height : Nat) : Option (Nat × Nat) :=
  let childCapacity := if height = 0 then LEAF_CAPACITY else LEAF_CAPACITY * BRANCHING_FACTOR ^ height
  if index / childCapacity < count then some (index / childCapacity, index % childCapacity) else none

/-- node.rs:146-158 `get`, on a node with children below `fuel`. -/
def get (h : Mem α) : (fuel : Nat) → Cell α → Nat → Option α
  | _, .leaf elements, index => elements[index]?
  | 0, .branch _ _, _ => none
  | fuel + 1, .branch children sizes, index =>
    match (match sizes with
      | some s => Node.scanSizes s 0 0 index
      | none => findChildRegular children.length index 1) with
    | some (childIdx, subIndex) =>
      match children[childIdx]? with
      | some a => get h fuel (cell h a) subIndex
      | none => none
    | none => none

/-- node.rs:183-212 `update`: 199 replaces one child by a new node, the others are the same `Arc`s (198). -/
def update (h : Mem α) : (fuel : Nat) → Cell α → Nat → α → Mem α × Cell α
  | _, .leaf elements, index, value =>
    (h, .leaf (if index < elements.length then elements.set index value else elements))
  | 0, .branch children sizes, _, _ => (h, .branch children sizes)
  | fuel + 1, .branch children sizes, index, value =>
    match Node.findChild sizes index with
    | some (childIndex, subIndex) =>
      match children[childIndex]? with
      | some a =>
        let r := update h fuel (cell h a) subIndex value
        (r.1 ++ [r.2], .branch (children.set childIndex r.1.length) sizes)
      | none => (h, .branch children sizes)
    | none => (h, .branch children sizes)

/-- node.rs:214-257 `push_leaf`, of the node at address `a`.  223 and 251 copy the node into a new cell. -/
def pushLeaf (h : Mem α) (a leaf : Nat) : Mem α × Cell α :=
  match cell h a with
  | .leaf elements => (h ++ [.leaf elements], .branch [h.length, leaf] (some [sizeAt h a, sizeAt h leaf]))
  | .branch children sizes =>
    if children.length < BRANCHING_FACTOR then
      let newSizes := match sizes with
        | some s => s
        | none => children.map (sizeAt h)
      (h, .branch (children ++ [leaf]) (some (newSizes ++ [sizeAt h leaf])))
    else (h ++ [.branch children sizes], .branch [h.length, leaf] (some [sizeAt h a, sizeAt h leaf]))

/-- node.rs:330-378 `push_front_leaf`. -/
def pushFrontLeaf (h : Mem α) (a leaf : Nat) : Mem α × Cell α :=
  match cell h a with
  | .leaf elements => (h ++ [.leaf elements], .branch [leaf, h.length] (some [sizeAt h leaf, sizeAt h a]))
  | .branch children sizes =>
    if children.length < BRANCHING_FACTOR then
      let newSizes := match sizes with
        | some s => sizeAt h leaf :: s
        | none => sizeAt h leaf :: children.map (sizeAt h)
      (h, .branch (leaf :: children) (some newSizes))
    else (h ++ [.branch children sizes], .branch [leaf, h.length] (some [sizeAt h leaf, sizeAt h a]))

/-- node.rs:272-328 `pop_back`. -/
def popBack (h : Mem α) : (fuel : Nat) → Cell α → Option (Mem α × Cell α × α)
  | _, .leaf elements =>
    match elements.getLast? with
    | none => none
    | some x => some (h, .leaf elements.dropLast, x)
  | 0, .branch _ _ => none
  | fuel + 1, .branch children sizes =>
    match children.getLast? with
    | none => none
    | some a =>
      match popBack h fuel (cell h a) with
      | none => none
      | some (h1, newChild, popped) =>
        let lastChildIndex := children.length - 1
        let newSize := calculateSize h1 h1.length newChild
        if newSize = 0 then
          if children.dropLast.isEmpty then some (h1, .leaf [], popped)
          else some (h1, .branch children.dropLast (Node.updateSizeTableAfterRemoval sizes lastChildIndex), popped)
        else
          some (h1 ++ [newChild], .branch (children.set lastChildIndex h1.length)
            (Node.updateSizeTableAfterUpdate sizes lastChildIndex newSize), popped)

/-- node.rs:380-433 `pop_front`. -/
def popFront (h : Mem α) : (fuel : Nat) → Cell α → Option (Mem α × Cell α × α)
  | _, .leaf elements =>
    match elements with
    | [] => none
    | x :: rest => some (h, .leaf rest, x)
  | 0, .branch _ _ => none
  | fuel + 1, .branch children sizes =>
    match children with
    | [] => none
    | a :: rest =>
      match popFront h fuel (cell h a) with
      | none => none
      | some (h1, newChild, popped) =>
        let newSize := calculateSize h1 h1.length newChild
        if newSize = 0 then
          if rest.isEmpty then some (h1, .leaf [], popped)
          else some (h1, .branch rest (Node.updateSizeTableAfterRemoval sizes 0), popped)
        else
          some (h1 ++ [newChild], .branch (h1.length :: rest)
            (Node.updateSizeTableAfterUpdate sizes 0 newSize), popped)

/-! ## Trees -/

/-- tree.rs:16-28 `struct RRBTree<T>`, with the address of the root. -/
structure TreeM (α : Type) where
  root : Nat
  tail : List α
  head : List α
  height : Nat
  len : Nat
  deriving DecidableEq

/-- tree.rs:124, 178, 522, 584. -/
def TreeM.treeSize (t : TreeM α) : Nat := t.len - t.head.length - t.tail.length

/-- tree.rs:95-108: one new branch for each group of 32 nodes. -/
def buildLevel : Mem α → List (List Nat) → Mem α × List Nat
  | h, [] => (h, [])
  | h, chunk :: rest =>
    let r := buildLevel (h ++ [makeRelaxed h chunk]) rest
    (r.1, h.length :: r.2)

/-- tree.rs:88-112 `build_tree_recursive`. -/
def buildTreeRecursive : (fuel : Nat) → Mem α → List Nat → Mem α × Nat × Nat
  | 0, h, _ => (h ++ [.leaf []], h.length, 0)
  | fuel + 1, h, nodes =>
    match nodes with
    | [n] => (h, n, 0)
    | nodes =>
      let level := buildLevel h (chunks BRANCHING_FACTOR nodes)
      let r := buildTreeRecursive fuel level.1 level.2
      (r.1, r.2.1, r.2.2 + 1)

/-- tree.rs:50-86 `build_tree_with_tail`; 68-74 makes the leaves. -/
def buildTreeWithTail (h : Mem α) (elements : List α) : Mem α × TreeM α :=
  let totalLen := elements.length
  let treeElementsLen := (totalLen / LEAF_CAPACITY) * LEAF_CAPACITY
  let treeElements := elements.take treeElementsLen
  let tailElements := elements.drop treeElementsLen
  if treeElements.isEmpty then (h ++ [.leaf []], ⟨h.length, tailElements, [], 0, totalLen⟩)
  else
    let leaves := (chunks LEAF_CAPACITY treeElements).map Cell.leaf
    let r := buildTreeRecursive leaves.length (h ++ leaves) ((List.range leaves.length).map (h.length + ·))
    (r.1, ⟨r.2.1, tailElements, [], r.2.2, totalLen⟩)

/-- tree.rs:31-48 `from_elements`. -/
def fromElements (h : Mem α) (elements : List α) : Mem α × TreeM α :=
  if elements.length ≤ LEAF_CAPACITY then (h ++ [.leaf elements], ⟨h.length, [], [], 0, elements.length⟩)
  else buildTreeWithTail h elements

/-- tree.rs:134-158 `get_from_tree`. -/
def getFromNode (h : Mem α) : (fuel : Nat) → Cell α → (index height : Nat) → Option α
  | _, .leaf elements, index, _ => elements[index]?
  | 0, .branch _ _, _, _ => none
  | fuel + 1, .branch children sizes, index, height =>
    match (match sizes with
      | some s => Node.scanSizes s 0 0 index
      | none => findChildRegular children.length index (height - 1)) with
    | some (childIdx, subIndex) =>
      match children[childIdx]? with
      | some a => getFromNode h fuel (cell h a) subIndex (height - 1)
      | none => none
    | none => none

/-- tree.rs:114-132 `get`. -/
def TreeM.get (h : Mem α) (t : TreeM α) (index : Nat) : Option α :=
  if index ≥ t.len then none
  else if index < t.head.length then t.head[index]?
  else
    let adjustedIndex := index - t.head.length
    if adjustedIndex < t.treeSize then getFromNode h t.root (cell h t.root) adjustedIndex t.height
    else t.tail[adjustedIndex - t.treeSize]?

/-- tree.rs:160-203 `update`. -/
def TreeM.update (h : Mem α) (t : TreeM α) (index : Nat) (value : α) : Mem α × TreeM α :=
  if index ≥ t.len then (h, t)
  else if index < t.head.length then (h, ⟨t.root, t.tail, t.head.set index value, t.height, t.len⟩)
  else
    let adjustedIndex := index - t.head.length
    if adjustedIndex < t.treeSize then
      let r := Heap.update h t.root (cell h t.root) adjustedIndex value
      (r.1 ++ [r.2], ⟨r.1.length, t.tail, t.head, t.height, t.len⟩)
    else
      let tailIndex := adjustedIndex - t.treeSize
      (h, ⟨t.root, if tailIndex < t.tail.length then t.tail.set tailIndex value else t.tail, t.head, t.height, t.len⟩)

/-- tree.rs:879-890 `calculate_height`. -/
def calculateHeight (h : Mem α) : (fuel : Nat) → Cell α → Nat
  | _, .leaf _ => 0
  | 0, .branch _ _ => 0
  | fuel + 1, .branch children _ =>
    match children with
    | [] => 0
    | a :: _ => 1 + calculateHeight h fuel (cell h a)

/-- `calculate_height` through an `Arc`. -/
def heightAt (h : Mem α) (a : Nat) : Nat := calculateHeight h a (cell h a)

/-- tree.rs:221-240 `push_tail_to_tree`: a cell for the leaf (230), a temporary copy of the new root (231) and the new root
(234). -/
def TreeM.pushTailToTree (h : Mem α) (t : TreeM α) : Mem α × TreeM α :=
  if t.tail.isEmpty then (h, t)
  else
    let r := pushLeaf (h ++ [.leaf t.tail]) t.root h.length
    let h1 := r.1 ++ [r.2]
    (h1 ++ [r.2], ⟨h1.length, [], t.head, heightAt h1 r.1.length, t.len⟩)

/-- tree.rs:205-219 `push_back`. -/
def TreeM.pushBack (h : Mem α) (t : TreeM α) (value : α) : Mem α × TreeM α :=
  if t.tail.length < LEAF_CAPACITY then (h, ⟨t.root, t.tail ++ [value], t.head, t.height, t.len + 1⟩)
  else
    let r := t.pushTailToTree h
    (r.1, ⟨r.2.root, r.2.tail ++ [value], r.2.head, r.2.height, r.2.len + 1⟩)

/-- tree.rs:259-278 `push_head_to_tree`. -/
def TreeM.pushHeadToTree (h : Mem α) (t : TreeM α) : Mem α × TreeM α :=
  if t.head.isEmpty then (h, t)
  else
    let r := pushFrontLeaf (h ++ [.leaf t.head]) t.root h.length
    let h1 := r.1 ++ [r.2]
    (h1 ++ [r.2], ⟨h1.length, t.tail, [], heightAt h1 r.1.length, t.len⟩)

/-- tree.rs:242-257 `push_front`. -/
def TreeM.pushFront (h : Mem α) (t : TreeM α) (value : α) : Mem α × TreeM α :=
  if t.head.length < LEAF_CAPACITY then (h, ⟨t.root, t.tail, value :: t.head, t.height, t.len + 1⟩)
  else
    let r := t.pushHeadToTree h
    (r.1, ⟨r.2.root, r.2.tail, value :: r.2.head, r.2.height, r.2.len + 1⟩)

/-- tree.rs:356-434 `concat_nodes`, of the nodes at two addresses, the left one below `fuel`.  A leaf beside a branch becomes
a child as it is (419, 424); of two branches only the last child on the left and the first on the right are merged (406). -/
def concatNodes : (fuel : Nat) → Mem α → (left right : Nat) → Mem α × Cell α
  | 0, h, _, _ => (h, .leaf [])
  | fuel + 1, h, left, right =>
    match cell h left, cell h right with
    | .leaf leftElems, .leaf rightElems =>
      let combined := leftElems ++ rightElems
      if combined.length ≤ LEAF_CAPACITY then (h, .leaf combined)
      else
        let h1 := h ++ [.leaf (combined.take LEAF_CAPACITY), .leaf (combined.drop LEAF_CAPACITY)]
        (h1, makeRelaxed h1 [h.length, h.length + 1])
    | .leaf _, .branch rightChildren _ => (h, makeRelaxed h (left :: rightChildren))
    | .branch leftChildren _, .leaf _ => (h, makeRelaxed h (leftChildren ++ [right]))
    | .branch leftChildren _, .branch rightChildren _ =>
      match leftChildren.getLast?, rightChildren.head? with
      | some leftLast, some rightFirst =>
        let r := concatNodes fuel h leftLast rightFirst
        let h1 := r.1 ++ [r.2]
        (h1, makeRelaxed h1 (leftChildren.dropLast ++ [r.1.length] ++ rightChildren.drop 1))
      | _, _ => (h, makeRelaxed h (leftChildren.dropLast ++ rightChildren.drop 1))

/-- tree.rs:297-322 `concat_same_height`. -/
def TreeM.concatSameHeight (h : Mem α) (self other : TreeM α) : Mem α × TreeM α :=
  let left := if !self.tail.isEmpty then self.pushTailToTree h else (h, self)
  let right := if !other.head.isEmpty then other.pushHeadToTree left.1 else (left.1, other)
  let r := concatNodes (left.2.root + 1) right.1 left.2.root right.2.root
  (r.1 ++ [r.2], ⟨r.1.length, right.2.tail, left.2.head, max self.height other.height, self.len + other.len⟩)

/-- tree.rs:338-345, the loop of `elevate_tree`, `k` iterations. -/
def elevateRoot : Nat → Mem α → Nat → Mem α × Nat
  | 0, h, root => (h, root)
  | k + 1, h, root => elevateRoot k (h ++ [.branch [root] (some [sizeAt h root])]) h.length

/-- tree.rs:334-354 `elevate_tree`. -/
def TreeM.elevateTree (h : Mem α) (t : TreeM α) (targetHeight : Nat) : Mem α × TreeM α :=
  let r := elevateRoot (targetHeight - t.height) h t.root
  (r.1, ⟨r.2, t.tail, t.head, t.height + (targetHeight - t.height), t.len⟩)

/-- tree.rs:324-332 `concat_different_height`. -/
def TreeM.concatDifferentHeight (h : Mem α) (self other : TreeM α) (leftHigher : Bool) : Mem α × TreeM α :=
  if leftHigher then
    let r := other.elevateTree h self.height
    self.concatSameHeight r.1 r.2
  else
    let r := self.elevateTree h other.height
    r.2.concatSameHeight r.1 other

/-- tree.rs:280-295 `concat`. -/
def TreeM.concat (h : Mem α) (self other : TreeM α) : Mem α × TreeM α :=
  if self.len = 0 then (h, other)
  else if other.len = 0 then (h, self)
  else if self.height = other.height then self.concatSameHeight h other
  else if self.height < other.height then other.concatDifferentHeight h self false
  else self.concatDifferentHeight h other true

/-- tree.rs:472-484: the root after `pop_from_tree`, with its height. -/
def popRoot (h : Mem α) (t : TreeM α) (treeSize : Nat) : Mem α × Nat × Nat :=
  if treeSize = 1 then (h ++ [.leaf []], h.length, 0)
  else
    match Heap.popBack h t.root (cell h t.root) with
    | some (h1, newRoot, _) => (h1 ++ [newRoot], h1.length, t.height)
    | none => (h, t.root, t.height)

/-- tree.rs:459-496 `pop_from_tree`. -/
def TreeM.popFromTree (h : Mem α) (t : TreeM α) : Option (Mem α × TreeM α × α) :=
  if t.len = 0 then none
  else
    let treeSize := t.len - t.tail.length
    if treeSize = 0 then none
    else
      match Heap.get h t.root (cell h t.root) (treeSize - 1) with
      | none => none
      | some lastElement =>
        let r := popRoot h t treeSize
        some (r.1, ⟨r.2.1, t.tail, t.head, r.2.2, t.len - 1⟩, lastElement)

/-- tree.rs:436-457 `pop_back`. -/
def TreeM.popBack (h : Mem α) (t : TreeM α) : Option (Mem α × TreeM α × α) :=
  if t.len = 0 then none
  else
    match t.tail.getLast? with
    | some popped => some (h, ⟨t.root, t.tail.dropLast, t.head, t.height, t.len - 1⟩, popped)
    | none => t.popFromTree h

/-- tree.rs:538-559: the part of `pop_front_from_tree` that reads the tail. -/
def TreeM.popFrontFromTail (h : Mem α) (t : TreeM α) : Option (Mem α × TreeM α × α) :=
  match t.tail.reverse.getLast? with
  | some popped => some (h ++ [.leaf []], ⟨h.length, [], t.tail.reverse.dropLast, 0, t.len - 1⟩, popped)
  | none => none

/-- tree.rs:521-560 `pop_front_from_tree`. -/
def TreeM.popFrontFromTree (h : Mem α) (t : TreeM α) : Option (Mem α × TreeM α × α) :=
  if t.treeSize > 0 then
    match Heap.popFront h t.root (cell h t.root) with
    | some (h1, newRoot, popped) =>
      some (h1 ++ [newRoot], ⟨h1.length, t.tail, t.head, t.height, t.len - 1⟩, popped)
    | none => t.popFrontFromTail h
  else t.popFrontFromTail h

/-- tree.rs:498-519 `pop_front`. -/
def TreeM.popFront (h : Mem α) (t : TreeM α) : Option (Mem α × TreeM α × α) :=
  if t.len = 0 then none
  else
    match t.head with
    | popped :: newHead => some (h, ⟨t.root, t.tail, newHead, t.height, t.len - 1⟩, popped)
    | [] => t.popFrontFromTree h

/-- tree.rs:753-787 `find_path_to_index`. -/
def findPath (h : Mem α) : (fuel : Nat) → Cell α → (height index : Nat) → List Nat
  | _, .leaf _, _, _ => []
  | 0, .branch _ _, _, _ => []
  | fuel + 1, .branch children sizes, height, index =>
    if height = 0 then []
    else
      let (childIdx, subIndex) := (match sizes with
        | some s => Node.scanSizes s 0 0 index
        | none => findChildRegular children.length index (height - 1)).getD (0, 0)
      childIdx :: (match children[childIdx]? with
        | some a => findPath h fuel (cell h a) (height - 1) subIndex
        | none => [])

/-- tree.rs:685-707 `create_left_branch`. -/
def createLeftBranch (h : Mem α) (children : List Nat) (splitIndex newChild : Nat) : Cell α :=
  let leftChildren := children.take splitIndex ++ (if sizeAt h newChild > 0 then [newChild] else [])
  if leftChildren.isEmpty then .leaf [] else makeRelaxed h leftChildren

/-- tree.rs:709-731 `create_right_branch`. -/
def createRightBranch (h : Mem α) (children : List Nat) (splitIndex newChild : Nat) : Cell α :=
  let rightChildren := (if sizeAt h newChild > 0 then [newChild] else []) ++ children.drop (splitIndex + 1)
  if rightChildren.isEmpty then .leaf [] else makeRelaxed h rightChildren

/-- tree.rs:614-683 `split_along_path` with `split_leaf_node`, of the node at address `a < fuel`. -/
def splitAlongPath : (fuel : Nat) → Mem α → (a : Nat) → (path : List Nat) → (targetIndex height : Nat) → Mem α × Nat × Nat
  | 0, h, a, _, _, _ => (h, a, a)
  | fuel + 1, h, a, path, targetIndex, height =>
    match cell h a with
    | .leaf elements =>
      (h ++ [.leaf (elements.take targetIndex), .leaf (elements.drop targetIndex)], h.length, h.length + 1)
    | .branch children sizes =>
      match path with
      | [] =>
        match children[0]? with
        | some c => splitAlongPath fuel h c [] targetIndex (height - 1)
        | none => (h ++ [.leaf []], h.length, h.length)
      | childIndex :: remainingPath =>
        match children[childIndex]? with
        | some c =>
          let adjustedIndex := Tree.calculateAdjustedIndex targetIndex childIndex sizes (height - 1)
          let r := splitAlongPath fuel h c remainingPath adjustedIndex (height - 1)
          (r.1 ++ [createLeftBranch r.1 children childIndex r.2.1, createRightBranch r.1 children childIndex r.2.2],
            r.1.length, r.1.length + 1)
        | none => (h ++ [.leaf []], h.length, h.length)

/-- tree.rs:562-607 `split_at`, with 609-612 `split_tree_at`, the constructors 789-861 and 863-877 `split_head_at`,
`split_tail_at`. -/
def TreeM.splitAt (h : Mem α) (t : TreeM α) (index : Nat) : Mem α × TreeM α × TreeM α :=
  if index = 0 then (h ++ [.leaf []], ⟨h.length, [], [], 0, 0⟩, t)
  else if index ≥ t.len then (h ++ [.leaf []], t, ⟨h.length, [], [], 0, 0⟩)
  else if index ≤ t.head.length then
    (h ++ [.leaf []], ⟨h.length, [], t.head.take index, 0, (t.head.take index).length⟩,
      ⟨t.root, t.tail, t.head.drop index, t.height,
        (t.head.drop index).length + sizeAt h t.root + t.tail.length⟩)
  else
    let treeStart := t.head.length
    if index ≥ treeStart + t.treeSize then
      let tailIndex := index - treeStart - t.treeSize
      (h ++ [.leaf []],
        ⟨t.root, t.tail.take tailIndex, t.head, t.height,
          t.head.length + sizeAt h t.root + (t.tail.take tailIndex).length⟩,
        ⟨h.length, t.tail.drop tailIndex, [], 0, (t.tail.drop tailIndex).length⟩)
    else
      let treeIndex := index - treeStart
      let r := splitAlongPath (t.root + 1) h t.root (findPath h (t.root + 1) (cell h t.root) t.height treeIndex) treeIndex t.height
      (r.1, ⟨r.2.1, [], t.head, heightAt r.1 r.2.1, t.head.length + sizeAt r.1 r.2.1⟩,
        ⟨r.2.2, t.tail, [], heightAt r.1 r.2.2, sizeAt r.1 r.2.2 + t.tail.length⟩)

/-! ## Vectors -/

/-- core.rs:43-62 `struct PersistentVector<T>` with `enum VectorImpl<T>`: `Sum.inl` is `Inline`, `Sum.inr` is `Tree`. -/
structure VecM (α : Type) where
  inner : List α ⊕ TreeM α
  len : Nat
  generation : Nat
  deriving DecidableEq

/-- core.rs:75-83 `new`. -/
def VecM.new : VecM α := ⟨.inl [], 0, 0⟩

/-- core.rs:204-213 `get`. -/
def VecM.get (h : Mem α) (v : VecM α) (index : Nat) : Option α :=
  if index ≥ v.len then none
  else
    match v.inner with
    | .inl elements => elements[index]?
    | .inr tree => tree.get h index

/-- core.rs:986-1009 `from_iter`. -/
def VecM.fromIter (h : Mem α) (elements : List α) : Mem α × VecM α :=
  if elements.length ≤ ADAPTIVE_INLINE_SIZE then (h, ⟨.inl elements, elements.length, 0⟩)
  else
    let r := fromElements h elements
    (r.1, ⟨.inr r.2, elements.length, 0⟩)

/-- core.rs:509-528 `push_back`, with 631-645 `transition_to_tree` and 648-662 `tree_push_back`. -/
def VecM.pushBack (h : Mem α) (v : VecM α) (value : α) : Mem α × VecM α :=
  match v.inner with
  | .inl elements =>
    if elements.length < ADAPTIVE_INLINE_SIZE then (h, ⟨.inl (elements ++ [value]), v.len + 1, v.generation + 1⟩)
    else
      let t := fromElements h elements
      let r := t.2.pushBack t.1 value
      (r.1, ⟨.inr r.2, v.len + 1, v.generation + 1 + 1⟩)
  | .inr tree =>
    let r := tree.pushBack h value
    (r.1, ⟨.inr r.2, v.len + 1, v.generation + 1⟩)

/-- core.rs:541-561 `push_front`, with 665-679 `tree_push_front`. -/
def VecM.pushFront (h : Mem α) (v : VecM α) (value : α) : Mem α × VecM α :=
  match v.inner with
  | .inl elements =>
    if elements.length < ADAPTIVE_INLINE_SIZE then (h, ⟨.inl (value :: elements), v.len + 1, v.generation + 1⟩)
    else
      let t := fromElements h elements
      let r := t.2.pushFront t.1 value
      (r.1, ⟨.inr r.2, v.len + 1, v.generation + 1 + 1⟩)
  | .inr tree =>
    let r := tree.pushFront h value
    (r.1, ⟨.inr r.2, v.len + 1, v.generation + 1⟩)

/-- core.rs:1011-1017 `extend`. -/
def VecM.extend : Mem α → VecM α → List α → Mem α × VecM α
  | h, v, [] => (h, v)
  | h, v, x :: xs =>
    let r := v.pushBack h x
    extend r.1 r.2 xs

/-- core.rs:600-628 `update`. -/
def VecM.update (h : Mem α) (v : VecM α) (index : Nat) (value : α) : Mem α × VecM α :=
  if index ≥ v.len then (h, v)
  else
    match v.inner with
    | .inl elements => (h, ⟨.inl (elements.set index value), v.len, v.generation + 1⟩)
    | .inr tree =>
      let r := tree.update h index value
      (r.1, ⟨.inr r.2, v.len, v.generation + 1⟩)

/-- core.rs:693-734 `concat`. -/
def VecM.concat (h : Mem α) (self other : VecM α) : Mem α × VecM α :=
  match self.inner, other.inner with
  | .inl left, .inl right => VecM.fromIter h (left ++ right)
  | .inl elements, .inr tree =>
    let t := fromElements h elements
    let r := t.2.concat t.1 tree
    (r.1, ⟨.inr r.2, self.len + other.len, self.generation + 1⟩)
  | .inr tree, .inl elements =>
    let t := fromElements h elements
    let r := tree.concat t.1 t.2
    (r.1, ⟨.inr r.2, self.len + other.len, self.generation + 1⟩)
  | .inr left, .inr right =>
    let r := left.concat h right
    (r.1, ⟨.inr r.2, self.len + other.len, self.generation + 1⟩)

/-- core.rs:758-795 `pop_back`. -/
def VecM.popBack (h : Mem α) (v : VecM α) : Option (Mem α × VecM α × α) :=
  if v.len == 0 then none
  else
    match v.inner with
    | .inl elements =>
      match elements.getLast? with
      | some last => some (h, ⟨.inl elements.dropLast, v.len - 1, v.generation + 1⟩, last)
      | none => none
    | .inr tree =>
      (tree.popBack h).map fun r => (r.1, ⟨.inr r.2.1, v.len - 1, v.generation + 1⟩, r.2.2)

/-- core.rs:811-847 `pop_front`. -/
def VecM.popFront (h : Mem α) (v : VecM α) : Option (Mem α × VecM α × α) :=
  if v.len == 0 then none
  else
    match v.inner with
    | .inl elements =>
      match elements with
      | first :: rest => some (h, ⟨.inl rest, v.len - 1, v.generation + 1⟩, first)
      | [] => none
    | .inr tree =>
      (tree.popFront h).map fun r => (r.1, ⟨.inr r.2.1, v.len - 1, v.generation + 1⟩, r.2.2)

/-- core.rs:864-909 `split_at`. -/
def VecM.splitAt (h : Mem α) (v : VecM α) (index : Nat) : Mem α × VecM α × VecM α :=
  if index ≥ v.len then (h, v, VecM.new)
  else if index = 0 then (h, VecM.new, v)
  else
    match v.inner with
    | .inl elements =>
      (h, ⟨.inl (elements.take index), index, v.generation + 1⟩,
        ⟨.inl (elements.drop index), v.len - index, v.generation + 1⟩)
    | .inr tree =>
      let r := tree.splitAt h index
      (r.1, ⟨.inr r.2.1, index, v.generation + 1⟩, ⟨.inr r.2.2, v.len - index, v.generation + 1⟩)

/-- core.rs:922-928 `take`. -/
def VecM.take (h : Mem α) (v : VecM α) (n : Nat) : Mem α × VecM α :=
  if n ≥ v.len then (h, v)
  else
    let r := v.splitAt h n
    (r.1, r.2.1)

/-- core.rs:941-947 `skip`. -/
def VecM.skip (h : Mem α) (v : VecM α) (n : Nat) : Mem α × VecM α :=
  if n ≥ v.len then (h, VecM.new)
  else
    let r := v.splitAt h n
    (r.1, r.2.2)

/-- core.rs:949-959 `insert`. -/
def VecM.insert (h : Mem α) (v : VecM α) (index : Nat) (value : α) : Mem α × VecM α :=
  if index ≥ v.len then v.pushBack h value
  else if index = 0 then v.pushFront h value
  else
    let s := v.splitAt h index
    let p := s.2.1.pushBack s.1 value
    p.2.concat p.1 s.2.2

/-- core.rs:961-973 `remove`. -/
def VecM.remove (h : Mem α) (v : VecM α) (index : Nat) : Option (Mem α × VecM α) :=
  if index ≥ v.len then none
  else if v.len = 1 then some (h, VecM.new)
  else
    let s := v.splitAt h index
    let k := s.2.2.skip s.1 1
    some (s.2.1.concat k.1 k.2)

/-! ## Programs -/

/-- Version number `k` (an empty vector if there is no such version). -/
def ver (pool : List (VecM α)) (k : Nat) : VecM α := pool[k]?.getD VecM.new

/-- The call in memory: the memory afterwards and the new version, as `Instr.step` in `Machine.lean`. -/
def step (h : Mem α) (pool : List (VecM α)) : Instr α → Mem α × VecM α
  | .fromIter xs => VecM.fromIter h xs
  | .pushBack k x => (ver pool k).pushBack h x
  | .pushFront k x => (ver pool k).pushFront h x
  | .extend k xs => (ver pool k).extend h xs
  | .update k i x => (ver pool k).update h i x
  | .concat k l => (ver pool k).concat h (ver pool l)
  | .popBack k => (((ver pool k).popBack h).map fun r => (r.1, r.2.1)).getD (h, ver pool k)
  | .popFront k => (((ver pool k).popFront h).map fun r => (r.1, r.2.1)).getD (h, ver pool k)
  | .splitLeft k i => let r := (ver pool k).splitAt h i; (r.1, r.2.1)
  | .splitRight k i => let r := (ver pool k).splitAt h i; (r.1, r.2.2)
  | .take k n => (ver pool k).take h n
  | .skip k n => (ver pool k).skip h n
  | .insert k i x => (ver pool k).insert h i x
  | .remove k i => ((ver pool k).remove h i).getD (h, ver pool k)

/-- All versions that a program makes, with the memory at the end. -/
def run : Mem α → List (VecM α) → List (Instr α) → Mem α × List (VecM α)
  | h, pool, [] => (h, pool)
  | h, pool, c :: prog =>
    let r := step h pool c
    run r.1 (pool ++ [r.2]) prog

end Rustica.PVec.Heap
