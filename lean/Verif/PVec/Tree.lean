import Verif.PVec.Node

/-!
# `RRBTree` — model of `/repo/src/pvec/tree.rs`
-/

namespace Rustica.PVec

/-- Model of `slice.chunks(n)` (standard library), `n ≥ 1`: consecutive pieces of
`n` elements, the last one possibly shorter.  `fuel` bounds the number of pieces;
`chunks` supplies the length of the list, which always suffices. -/
def chunksAux {α : Type} (n : Nat) : Nat → List α → List (List α)
  | 0, _ => []
  | fuel + 1, xs => if xs.isEmpty then [] else xs.take n :: chunksAux n fuel (xs.drop n)

/-- `slice.chunks(n)`. -/
def chunks {α : Type} (n : Nat) (xs : List α) : List (List α) := chunksAux n xs.length xs

/-- tree.rs:16-28 `struct RRBTree<T>`. -/
structure Tree (α : Type) where
  root : Node α
  tail : List α
  head : List α
  height : Nat
  len : Nat

namespace Tree

variable {α : Type}

/-- tree.rs:88-112 `build_tree_recursive`.  The recursion is on a fuel argument;
the caller passes the number of nodes, which is more than the number of levels.
(The value at fuel 0 is never used, see `buildTree_spec`; Rust would not
terminate on an empty list of nodes, which the caller excludes.) -/
def buildTreeRecursive : Nat → List (Node α) → Node α × Nat
  | 0, _ => (.leaf [], 0)
  | fuel + 1, nodes =>
    match nodes with
    | [n] => (n, 0)
    | nodes =>
      let nextLevel := (chunks BRANCHING_FACTOR nodes).map Node.makeRelaxed
      let (root, subHeight) := buildTreeRecursive fuel nextLevel
      (root, subHeight + 1)

/-- tree.rs:50-86 `build_tree_with_tail`. -/
def buildTreeWithTail (elements : List α) : Tree α :=
  let totalLen := elements.length
  let treeElementsLen := (totalLen / LEAF_CAPACITY) * LEAF_CAPACITY
  let treeElements := elements.take treeElementsLen
  let tailElements := elements.drop treeElementsLen
  if treeElements.isEmpty then
    { root := .leaf [], tail := tailElements, head := [], height := 0, len := totalLen }
  else
    let leaves := (chunks LEAF_CAPACITY treeElements).map Node.leaf
    let (root, height) := buildTreeRecursive leaves.length leaves
    { root := root, tail := tailElements, head := [], height := height, len := totalLen }

/-- tree.rs:31-48 `from_elements`. -/
def fromElements (elements : List α) : Tree α :=
  let len := elements.length
  if len ≤ LEAF_CAPACITY then
    { root := .leaf elements, tail := [], head := [], height := 0, len := len }
  else
    buildTreeWithTail elements

mutual
/-- tree.rs:134-158 `get_from_tree`: the loop, as recursion on the current node. -/
def getFromNode : Node α → (index height : Nat) → Option α
  | .leaf elements, index, _ => elements[index]?
  | .branch children sizes, index, height =>
    match (match sizes with
      | some s => Node.scanSizes s 0 0 index
      | none => Node.findChildRegular children index (height - 1)) with
    | some (childIdx, subIndex) => getFromNodeL children childIdx subIndex (height - 1)
    | none => none
/-- tree.rs:152 `children.get(child_idx)?`, then the loop continues in the child. -/
def getFromNodeL : List (Node α) → (childIdx index height : Nat) → Option α
  | [], _, _, _ => none
  | c :: _, 0, j, h => getFromNode c j h
  | _ :: cs, i + 1, j, h => getFromNodeL cs i j h
end

/-- tree.rs:134 `get_from_tree`. -/
def getFromTree (t : Tree α) (index : Nat) : Option α := getFromNode t.root index t.height

/-- tree.rs:124, 178, 522, 584: `self.len - self.head.len() - self.tail.len()`.
(Nat subtraction; `Tree.WF` implies that no underflow happens.) -/
def treeSize (t : Tree α) : Nat := t.len - t.head.length - t.tail.length

/-- tree.rs:114-132 `get`. -/
def get (t : Tree α) (index : Nat) : Option α :=
  if index ≥ t.len then none
  else if index < t.head.length then t.head[index]?
  else
    let adjustedIndex := index - t.head.length
    if adjustedIndex < t.treeSize then t.getFromTree adjustedIndex
    else t.tail[adjustedIndex - t.treeSize]?

/-- tree.rs:160-203 `update`. -/
def update (t : Tree α) (index : Nat) (value : α) : Tree α :=
  if index ≥ t.len then t
  else if index < t.head.length then { t with head := t.head.set index value }
  else
    let adjustedIndex := index - t.head.length
    if adjustedIndex < t.treeSize then
      { t with root := t.root.update adjustedIndex value }
    else
      let tailIndex := adjustedIndex - t.treeSize
      { t with tail := if tailIndex < t.tail.length then t.tail.set tailIndex value else t.tail }

/-- tree.rs:879-890 `calculate_height`: length of the leftmost spine. -/
def calculateHeight : Node α → Nat
  | .leaf _ => 0
  | .branch children _ =>
    match children with
    | [] => 0
    | firstChild :: _ => 1 + calculateHeight firstChild

/-- tree.rs:221-240 `push_tail_to_tree`. -/
def pushTailToTree (t : Tree α) : Tree α :=
  if t.tail.isEmpty then t
  else
    let newRoot := t.root.pushLeaf (.leaf t.tail)
    { root := newRoot, tail := [], head := t.head, height := calculateHeight newRoot, len := t.len }

/-- tree.rs:205-219 `push_back`.  The recursive call in the `else` branch always
finds an empty tail, so it is unfolded here once. -/
def pushBack (t : Tree α) (value : α) : Tree α :=
  if t.tail.length < LEAF_CAPACITY then
    { t with tail := t.tail ++ [value], len := t.len + 1 }
  else
    let t' := t.pushTailToTree
    { t' with tail := t'.tail ++ [value], len := t'.len + 1 }

/-- tree.rs:259-278 `push_head_to_tree`. -/
def pushHeadToTree (t : Tree α) : Tree α :=
  if t.head.isEmpty then t
  else
    let newRoot := t.root.pushFrontLeaf (.leaf t.head)
    { root := newRoot, tail := t.tail, head := [], height := calculateHeight newRoot, len := t.len }

/-- tree.rs:242-257 `push_front`.  As for `pushBack`, the recursive call always
finds an empty head and is unfolded once. -/
def pushFront (t : Tree α) (value : α) : Tree α :=
  if t.head.length < LEAF_CAPACITY then
    { t with head := value :: t.head, len := t.len + 1 }
  else
    let t' := t.pushHeadToTree
    { t' with head := value :: t'.head, len := t'.len + 1 }

mutual
/-- tree.rs:356-434 `concat_nodes`.  The `height` argument of the Rust function
is only passed along and never inspected, so it is omitted. -/
def concatNodes : Node α → Node α → Node α
  | .leaf leftElems, right =>
    match right with
    | .leaf rightElems =>
      let combined := leftElems ++ rightElems
      if combined.length ≤ LEAF_CAPACITY then .leaf combined
      else
        Node.makeRelaxed [.leaf (combined.take LEAF_CAPACITY), .leaf (combined.drop LEAF_CAPACITY)]
    | .branch rightChildren _ => Node.makeRelaxed (.leaf leftElems :: rightChildren)
  | .branch leftChildren _, right =>
    match right with
    | .leaf rightElems => Node.makeRelaxed (leftChildren ++ [.leaf rightElems])
    | .branch rightChildren _ =>
      let middle := match rightChildren with
        | [] => []
        | rightFirst :: _ => (concatLast leftChildren rightFirst).toList
      Node.makeRelaxed (leftChildren.dropLast ++ middle ++ rightChildren.drop 1)
/-- tree.rs:402-407: merge the last child on the left with `rightFirst`. -/
def concatLast : List (Node α) → Node α → Option (Node α)
  | [], _ => none
  | [c], rightFirst => some (concatNodes c rightFirst)
  | _ :: c :: cs, rightFirst => concatLast (c :: cs) rightFirst
end

/-- tree.rs:297-322 `concat_same_height`. -/
def concatSameHeight (self other : Tree α) : Tree α :=
  let left := if !self.tail.isEmpty then self.pushTailToTree else self
  let right := if !other.head.isEmpty then other.pushHeadToTree else other
  { root := concatNodes left.root right.root
    tail := right.tail
    head := left.head
    height := max self.height other.height
    len := self.len + other.len }

/-- tree.rs:338-345, the loop of `elevate_tree`, `k` iterations. -/
def elevateRoot : Nat → Node α → Node α
  | 0, root => root
  | k + 1, root => elevateRoot k (.branch [root] (some [root.calculateSize]))

/-- tree.rs:334-354 `elevate_tree`. -/
def elevateTree (t : Tree α) (targetHeight : Nat) : Tree α :=
  { root := elevateRoot (targetHeight - t.height) t.root
    tail := t.tail
    head := t.head
    height := t.height + (targetHeight - t.height)
    len := t.len }

/-- tree.rs:324-332 `concat_different_height`. -/
def concatDifferentHeight (self other : Tree α) (leftHigher : Bool) : Tree α :=
  if leftHigher then
    self.concatSameHeight (elevateTree other self.height)
  else
    (elevateTree self other.height).concatSameHeight other

/-- tree.rs:280-295 `concat`. -/
def concat (self other : Tree α) : Tree α :=
  if self.len = 0 then other
  else if other.len = 0 then self
  else if self.height = other.height then self.concatSameHeight other
  else if self.height < other.height then other.concatDifferentHeight self false
  else self.concatDifferentHeight other true

/-- tree.rs:459-496 `pop_from_tree`.  Note `tree_size` ignores the head. -/
def popFromTree (t : Tree α) : Option (Tree α × α) :=
  if t.len = 0 then none
  else
    let treeSize := t.len - t.tail.length
    if treeSize = 0 then none
    else
      let lastTreeIndex := treeSize - 1
      match t.root.get lastTreeIndex with
      | none => none
      | some lastElement =>
        let (newRoot, newHeight) :=
          if treeSize = 1 then (Node.leaf [], 0)
          else
            match t.root.popBack with
            | some (newRoot, _) => (newRoot, t.height)
            | none => (t.root, t.height)
        some ({ root := newRoot, tail := t.tail, head := t.head, height := newHeight,
                len := t.len - 1 }, lastElement)

/-- tree.rs:436-457 `pop_back`. -/
def popBack (t : Tree α) : Option (Tree α × α) :=
  if t.len = 0 then none
  else
    match t.tail.getLast? with
    | some popped => some ({ t with tail := t.tail.dropLast, len := t.len - 1 }, popped)
    | none => t.popFromTree

/-- tree.rs:538-559: the part of `pop_front_from_tree` that reads the tail.  The
tail is reversed into the new head and its last element popped. -/
def popFrontFromTail (t : Tree α) : Option (Tree α × α) :=
  let newHead := t.tail.reverse
  match newHead.getLast? with
  | some popped =>
    some ({ root := .leaf [], tail := [], head := newHead.dropLast, height := 0, len := t.len - 1 },
          popped)
  | none => none

/-- tree.rs:521-560 `pop_front_from_tree`. -/
def popFrontFromTree (t : Tree α) : Option (Tree α × α) :=
  if t.treeSize > 0 then
    match t.root.popFront with
    | some (newRoot, popped) => some ({ t with root := newRoot, len := t.len - 1 }, popped)
    | none => t.popFrontFromTail
  else t.popFrontFromTail

/-- tree.rs:498-519 `pop_front`. -/
def popFront (t : Tree α) : Option (Tree α × α) :=
  if t.len = 0 then none
  else
    match t.head with
    | popped :: newHead => some ({ t with head := newHead, len := t.len - 1 }, popped)
    | [] => t.popFrontFromTree

/-- tree.rs:789-799 `empty`. -/
def empty : Tree α := { root := .leaf [], tail := [], head := [], height := 0, len := 0 }

/-- tree.rs:801-811 `from_head`. -/
def fromHead (head : List α) : Tree α :=
  { root := .leaf [], tail := [], head := head, height := 0, len := head.length }

/-- tree.rs:813-823 `from_tail`. -/
def fromTail (tail : List α) : Tree α :=
  { root := .leaf [], tail := tail, head := [], height := 0, len := tail.length }

/-- tree.rs:825-837 `from_head_and_tree_and_tail`. -/
def fromHeadAndTreeAndTail (head : List α) (root : Node α) (tail : List α) (height : Nat) : Tree α :=
  { root := root, tail := tail, head := head, height := height,
    len := head.length + root.calculateSize + tail.length }

/-- tree.rs:839-849 `from_head_and_root`. -/
def fromHeadAndRoot (head : List α) (root : Node α) : Tree α :=
  { root := root, tail := [], head := head, height := calculateHeight root,
    len := head.length + root.calculateSize }

/-- tree.rs:851-861 `from_root_and_tail`. -/
def fromRootAndTail (root : Node α) (tail : List α) : Tree α :=
  { root := root, tail := tail, head := [], height := calculateHeight root,
    len := root.calculateSize + tail.length }

mutual
/-- tree.rs:753-787 `find_path_to_index`: the loop runs while `current_height > 0`. -/
def findPath : Node α → (height index : Nat) → List Nat
  | .leaf _, _, _ => []
  | .branch children sizes, height, index =>
    if height = 0 then []
    else
      let (childIdx, subIndex) := (match sizes with
        | some s => Node.scanSizes s 0 0 index
        | none => Node.findChildRegular children index (height - 1)).getD (0, 0)
      childIdx :: findPathL children childIdx (height - 1) subIndex
/-- tree.rs:776-780: continue in child `childIdx`, stop when there is none. -/
def findPathL : List (Node α) → (childIdx height index : Nat) → List Nat
  | [], _, _, _ => []
  | c :: _, 0, h, j => findPath c h j
  | _ :: cs, i + 1, h, j => findPathL cs i h j
end

/-- tree.rs:733-751 `calculate_adjusted_index`. -/
def calculateAdjustedIndex (targetIndex childIndex : Nat) (sizes : Option (List Nat))
    (height : Nat) : Nat :=
  match sizes with
  | some sizes => targetIndex - (sizes.take childIndex).sum
  | none =>
    let childCapacity :=
      if height ≤ 1 then LEAF_CAPACITY else LEAF_CAPACITY * BRANCHING_FACTOR ^ (height - 1)
    targetIndex - childIndex * childCapacity

/-- tree.rs:685-707 `create_left_branch`. -/
def createLeftBranch (children : List (Node α)) (splitIndex : Nat) (newChild : Node α) : Node α :=
  let leftChildren :=
    children.take splitIndex ++ (if newChild.calculateSize > 0 then [newChild] else [])
  if leftChildren.isEmpty then .leaf [] else Node.makeRelaxed leftChildren

/-- tree.rs:709-731 `create_right_branch`. -/
def createRightBranch (children : List (Node α)) (splitIndex : Nat) (newChild : Node α) : Node α :=
  let rightChildren :=
    (if newChild.calculateSize > 0 then [newChild] else []) ++ children.drop (splitIndex + 1)
  if rightChildren.isEmpty then .leaf [] else Node.makeRelaxed rightChildren

mutual
/-- tree.rs:614-662 `split_along_path` (leaf case 664-683 `split_leaf_node`).
The height argument only feeds `calculate_adjusted_index`. -/
def splitAlongPath : Node α → (path : List Nat) → (targetIndex height : Nat) → Node α × Node α
  | .leaf elements, _, targetIndex, _ =>
    (.leaf (elements.take targetIndex), .leaf (elements.drop targetIndex))
  | .branch children sizes, path, targetIndex, height =>
    match path with
    | [] =>
      -- tree.rs:620-630: descend into the first child, dropping its siblings
      (splitChild children 0 [] targetIndex (height - 1)).getD (.leaf [], .leaf [])
    | childIndex :: remainingPath =>
      let adjustedIndex := calculateAdjustedIndex targetIndex childIndex sizes (height - 1)
      match splitChild children childIndex remainingPath adjustedIndex (height - 1) with
      | some (leftChild, rightChild) =>
        (createLeftBranch children childIndex leftChild,
         createRightBranch children childIndex rightChild)
      | none => (.leaf [], .leaf [])
/-- tree.rs:635-646: recurse into child number `childIndex`, if there is one. -/
def splitChild : List (Node α) → (childIndex : Nat) → (path : List Nat) →
    (targetIndex height : Nat) → Option (Node α × Node α)
  | [], _, _, _, _ => none
  | c :: _, 0, path, j, h => some (splitAlongPath c path j h)
  | _ :: cs, i + 1, path, j, h => splitChild cs i path j h
end

/-- tree.rs:609-612 `split_tree_at`. -/
def splitTreeAt (t : Tree α) (index : Nat) : Node α × Node α :=
  splitAlongPath t.root (findPath t.root t.height index) index t.height

/-- tree.rs:562-607 `split_at` (with 863-877 `split_head_at`, `split_tail_at`). -/
def splitAt (t : Tree α) (index : Nat) : Tree α × Tree α :=
  if index = 0 then (empty, t)
  else if index ≥ t.len then (t, empty)
  else if index ≤ t.head.length then
    (fromHead (t.head.take index),
     fromHeadAndTreeAndTail (t.head.drop index) t.root t.tail t.height)
  else
    let treeStart := t.head.length
    if index ≥ treeStart + t.treeSize then
      let tailIndex := index - treeStart - t.treeSize
      (fromHeadAndTreeAndTail t.head t.root (t.tail.take tailIndex) t.height,
       fromTail (t.tail.drop tailIndex))
    else
      let treeIndex := index - treeStart
      let (leftRoot, rightRoot) := t.splitTreeAt treeIndex
      (fromHeadAndRoot t.head leftRoot, fromRootAndTail rightRoot t.tail)

end Tree
end Rustica.PVec
