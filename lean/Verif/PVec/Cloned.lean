import Verif.PVec.Core

/-!
# The elements that vector operations clone

The functions of `Node.lean`, `Tree.lean` and `Core.lean` once more, from the same lines of the code, with a record of the
elements on which `T::clone` is called, in the order of the calls.  Cloning an `Arc` calls no `T::clone`, cloning a
`SmallVec` or `Vec` calls it once for every element, and so does `.iter().cloned()` for every element that is taken from it.
A clone is taken to be equal to its original.  Only calls that return are described: on the arguments that panic
(`Checked.lean`) the clones made before the panic are not.
-/

namespace Rustica.PVec.Cloned

/-- What a call returns, and the elements it cloned, in order. -/
structure Run (α X : Type) where
  val : X
  log : List α

instance {α : Type} : Monad (Run α) where
  pure x := ⟨x, []⟩
  bind r f := ⟨(f r.val).val, r.log ++ (f r.val).log⟩

variable {α β : Type}

/-- `x.clone()` of one element. -/
def one (x : α) : Run α α := ⟨x, [x]⟩

/-- `.clone()` of a `SmallVec<[T; _]>`, or collecting `.iter().cloned()`. -/
def all (xs : List α) : Run α (List α) := ⟨xs, xs⟩

/-! ## Nodes (node.rs) -/

/-- `#[derive(Clone)]` of `RRBNode` (node.rs:22): the elements of a leaf, the `Arc`s of a branch. -/
def node : Node α → Run α (Node α)
  | .leaf elements => do return .leaf (← all elements)
  | .branch children sizes => pure (.branch children sizes)

mutual
/-- node.rs:183-212 `update`: only the leaf that is reached is cloned (186). -/
def nodeUpdate : Node α → Nat → α → Run α (Node α)
  | .leaf elements, index, value => do
    let newElements ← all elements
    return .leaf (if index < newElements.length then newElements.set index value else newElements)
  | .branch children sizes, index, value =>
    match Node.findChild sizes index with
    | some (childIndex, subIndex) => do
      return .branch (← nodeUpdateL children childIndex subIndex value) sizes
    | none => node (.branch children sizes)
/-- node.rs:196-199. -/
def nodeUpdateL : List (Node α) → Nat → Nat → α → Run α (List (Node α))
  | [], _, _, _ => pure []
  | c :: cs, 0, j, value => do return (← nodeUpdate c j value) :: cs
  | c :: cs, i + 1, j, value => do return c :: (← nodeUpdateL cs i j value)
end

/-- node.rs:214-257 `push_leaf`: 223 and 251 clone the node itself. -/
def pushLeaf (self leaf : Node α) : Run α (Node α) :=
  match self with
  | .leaf _ => do
    return .branch [← node self, leaf] (some [self.calculateSize, leaf.calculateSize])
  | .branch children sizes =>
    if children.length < BRANCHING_FACTOR then
      let newSizes := match sizes with
        | some s => s
        | none => children.map Node.calculateSize
      pure (.branch (children ++ [leaf]) (some (newSizes ++ [leaf.calculateSize])))
    else do
      return .branch [← node self, leaf] (some [self.calculateSize, leaf.calculateSize])

/-- node.rs:330-378 `push_front_leaf`: 339 and 372 clone the node itself. -/
def pushFrontLeaf (self leaf : Node α) : Run α (Node α) :=
  match self with
  | .leaf _ => do
    return .branch [leaf, ← node self] (some [leaf.calculateSize, self.calculateSize])
  | .branch children sizes =>
    if children.length < BRANCHING_FACTOR then
      let newSizes := match sizes with
        | some s => leaf.calculateSize :: s
        | none => leaf.calculateSize :: children.map Node.calculateSize
      pure (.branch (leaf :: children) (some newSizes))
    else do
      return .branch [leaf, ← node self] (some [leaf.calculateSize, self.calculateSize])

mutual
/-- node.rs:272-328 `pop_back`: 278 clones the leaf. -/
def nodePopBack : Node α → Run α (Option (Node α × α))
  | .leaf elements =>
    if elements.isEmpty then pure none
    else do
      let newElements ← all elements
      return match newElements.getLast? with
        | none => none
        | some x => some (.leaf newElements.dropLast, x)
  | .branch children sizes => do
    match ← nodePopBackLast children with
    | none => pure none
    | some (newChild, popped) =>
      let lastChildIndex := children.length - 1
      if newChild.calculateSize = 0 then
        let newChildren := children.dropLast
        let newSizes := Node.updateSizeTableAfterRemoval sizes lastChildIndex
        if newChildren.isEmpty then pure (some (.leaf [], popped))
        else pure (some (.branch newChildren newSizes, popped))
      else
        let newSizes := Node.updateSizeTableAfterUpdate sizes lastChildIndex newChild.calculateSize
        pure (some (.branch (children.set lastChildIndex newChild) newSizes, popped))
/-- node.rs:288-295: `pop_back` of the last child. -/
def nodePopBackLast : List (Node α) → Run α (Option (Node α × α))
  | [] => pure none
  | [c] => nodePopBack c
  | _ :: c :: cs => nodePopBackLast (c :: cs)
end

/-- node.rs:380-433 `pop_front`: 386 clones the leaf. -/
def nodePopFront : Node α → Run α (Option (Node α × α))
  | .leaf elements =>
    if elements.isEmpty then pure none
    else do
      let newElements ← all elements
      return match newElements with
        | [] => none
        | x :: rest => some (.leaf rest, x)
  | .branch children sizes =>
    match children with
    | [] => pure none
    | firstChild :: restChildren => do
      match ← nodePopFront firstChild with
      | none => pure none
      | some (newChild, popped) =>
        if newChild.calculateSize = 0 then
          let newSizes := Node.updateSizeTableAfterRemoval sizes 0
          if restChildren.isEmpty then pure (some (.leaf [], popped))
          else pure (some (.branch restChildren newSizes, popped))
        else
          let newSizes := Node.updateSizeTableAfterUpdate sizes 0 newChild.calculateSize
          pure (some (.branch (newChild :: restChildren) newSizes, popped))

/-! ## Trees (tree.rs) -/

/-- `#[derive(Clone)]` of `RRBTree` (tree.rs:15-28): the root is an `Arc`, the buffers are cloned in field order. -/
def tree (t : Tree α) : Run α (Tree α) := do
  let tail ← all t.tail
  let head ← all t.head
  return ⟨t.root, tail, head, t.height, t.len⟩

/-- tree.rs:68-74: one leaf per chunk, of clones. -/
def leaves : List (List α) → Run α (List (Node α))
  | [] => pure []
  | chunk :: rest => do
    let elements ← all chunk
    return .leaf elements :: (← leaves rest)

/-- tree.rs:50-86 `build_tree_with_tail`. -/
def buildTreeWithTail (elements : List α) : Run α (Tree α) :=
  let totalLen := elements.length
  let treeElementsLen := (totalLen / LEAF_CAPACITY) * LEAF_CAPACITY
  let treeElements := elements.take treeElementsLen
  let tailElements := elements.drop treeElementsLen
  if treeElements.isEmpty then do
    return ⟨.leaf [], ← all tailElements, [], 0, totalLen⟩
  else do
    let ls ← leaves (chunks LEAF_CAPACITY treeElements)
    let (root, height) := Tree.buildTreeRecursive ls.length ls
    return ⟨root, ← all tailElements, [], height, totalLen⟩

/-- tree.rs:31-48 `from_elements`: up to 64 elements are moved (39). -/
def fromElements (elements : List α) : Run α (Tree α) :=
  let len := elements.length
  if len ≤ LEAF_CAPACITY then pure ⟨.leaf elements, [], [], 0, len⟩
  else buildTreeWithTail elements

/-- tree.rs:160-203 `update`. -/
def treeUpdate (t : Tree α) (index : Nat) (value : α) : Run α (Tree α) :=
  if index ≥ t.len then tree t
  else if index < t.head.length then do
    let newHead ← all t.head
    return ⟨t.root, ← all t.tail, newHead.set index value, t.height, t.len⟩
  else
    let adjustedIndex := index - t.head.length
    if adjustedIndex < t.treeSize then do
      let newRoot ← nodeUpdate t.root adjustedIndex value
      let tail ← all t.tail
      return ⟨newRoot, tail, ← all t.head, t.height, t.len⟩
    else do
      let tailIndex := adjustedIndex - t.treeSize
      let newTail ← all t.tail
      let head ← all t.head
      return ⟨t.root, if tailIndex < newTail.length then newTail.set tailIndex value else newTail, head, t.height, t.len⟩

/-- tree.rs:221-240 `push_tail_to_tree`: 227 clones the tail, 231 the new root for `calculate_height`, 236 the head. -/
def pushTailToTree (t : Tree α) : Run α (Tree α) :=
  if t.tail.isEmpty then tree t
  else do
    let elements ← all t.tail
    let newRoot ← pushLeaf t.root (.leaf elements)
    let copy ← node newRoot
    let newHeight := Tree.calculateHeight copy
    return ⟨newRoot, [], ← all t.head, newHeight, t.len⟩

/-- tree.rs:206-215, the first branch of `push_back`. -/
def pushBackTail (t : Tree α) (value : α) : Run α (Tree α) := do
  let newTail ← all t.tail
  let head ← all t.head
  return ⟨t.root, newTail ++ [value], head, t.height, t.len + 1⟩

/-- tree.rs:205-219 `push_back`; the recursive call finds an empty tail. -/
def treePushBack (t : Tree α) (value : α) : Run α (Tree α) :=
  if t.tail.length < LEAF_CAPACITY then pushBackTail t value
  else do pushBackTail (← pushTailToTree t) value

/-- tree.rs:259-278 `push_head_to_tree`. -/
def pushHeadToTree (t : Tree α) : Run α (Tree α) :=
  if t.head.isEmpty then tree t
  else do
    let elements ← all t.head
    let newRoot ← pushFrontLeaf t.root (.leaf elements)
    let copy ← node newRoot
    let newHeight := Tree.calculateHeight copy
    return ⟨newRoot, ← all t.tail, [], newHeight, t.len⟩

/-- tree.rs:243-253, the first branch of `push_front`. -/
def pushFrontHead (t : Tree α) (value : α) : Run α (Tree α) := do
  let oldHead ← all t.head
  let tail ← all t.tail
  return ⟨t.root, tail, value :: oldHead, t.height, t.len + 1⟩

/-- tree.rs:242-257 `push_front`; the recursive call finds an empty head. -/
def treePushFront (t : Tree α) (value : α) : Run α (Tree α) :=
  if t.head.length < LEAF_CAPACITY then pushFrontHead t value
  else do pushFrontHead (← pushHeadToTree t) value

/-- tree.rs:369-384: `combined` as one leaf or, when it is too long, cloned into two. -/
def joined (combined : List α) : Run α (Node α) :=
  if combined.length ≤ LEAF_CAPACITY then pure (.leaf combined)
  else do
    let leftPart ← all (combined.take LEAF_CAPACITY)
    let rightPart ← all (combined.drop LEAF_CAPACITY)
    return Node.makeRelaxed [.leaf leftPart, .leaf rightPart]

mutual
/-- tree.rs:356-434 `concat_nodes`: two leaves are cloned into `combined` (366-367). -/
def concatNodes : Node α → Node α → Run α (Node α)
  | .leaf leftElems, right =>
    match right with
    | .leaf rightElems => do
      let left ← all leftElems
      joined (left ++ (← all rightElems))
    | .branch rightChildren _ => pure (Node.makeRelaxed (.leaf leftElems :: rightChildren))
  | .branch leftChildren _, right =>
    match right with
    | .leaf rightElems => pure (Node.makeRelaxed (leftChildren ++ [.leaf rightElems]))
    | .branch rightChildren _ => do
      let middle ← match rightChildren with
        | [] => pure none
        | rightFirst :: _ => concatLast leftChildren rightFirst
      return Node.makeRelaxed (leftChildren.dropLast ++ middle.toList ++ rightChildren.drop 1)
/-- tree.rs:402-407: merge the last child on the left with `rightFirst`. -/
def concatLast : List (Node α) → Node α → Run α (Option (Node α))
  | [], _ => pure none
  | [c], rightFirst => do return some (← concatNodes c rightFirst)
  | _ :: c :: cs, rightFirst => concatLast (c :: cs) rightFirst
end

/-- tree.rs:297-322 `concat_same_height`: both trees (298-299), then a tail and a head into the trees, then the nodes, then
the buffers that remain (317-318). -/
def concatSameHeight (self other : Tree α) : Run α (Tree α) := do
  let left ← tree self
  let right ← tree other
  let left ← if !left.tail.isEmpty then pushTailToTree left else pure left
  let right ← if !right.head.isEmpty then pushHeadToTree right else pure right
  let root ← concatNodes left.root right.root
  let tail ← all right.tail
  let head ← all left.head
  return ⟨root, tail, head, max self.height other.height, self.len + other.len⟩

/-- tree.rs:334-354 `elevate_tree`. -/
def elevateTree (t : Tree α) (targetHeight : Nat) : Run α (Tree α) := do
  let tail ← all t.tail
  let head ← all t.head
  return ⟨Tree.elevateRoot (targetHeight - t.height) t.root, tail, head, t.height + (targetHeight - t.height), t.len⟩

/-- tree.rs:324-332 `concat_different_height`. -/
def concatDifferentHeight (self other : Tree α) (leftHigher : Bool) : Run α (Tree α) :=
  if leftHigher then do concatSameHeight self (← elevateTree other self.height)
  else do concatSameHeight (← elevateTree self other.height) other

/-- tree.rs:280-295 `concat`. -/
def treeConcat (self other : Tree α) : Run α (Tree α) :=
  if self.len = 0 then tree other
  else if other.len = 0 then tree self
  else if self.height = other.height then concatSameHeight self other
  else if self.height < other.height then concatDifferentHeight other self false
  else concatDifferentHeight self other true

/-- tree.rs:472-484: the root after `pop_from_tree`, with its height. -/
def popRoot (t : Tree α) (treeSize : Nat) : Run α (Node α × Nat) :=
  if treeSize = 1 then pure (.leaf [], 0)
  else do
    match ← nodePopBack t.root with
    | some (newRoot, _) => pure (newRoot, t.height)
    | none => pure (t.root, t.height)

/-- tree.rs:459-496 `pop_from_tree`: 470 clones the element that is returned. -/
def popFromTree (t : Tree α) : Run α (Option (Tree α × α)) :=
  if t.len = 0 then pure none
  else
    let treeSize := t.len - t.tail.length
    if treeSize = 0 then pure none
    else
      let lastTreeIndex := treeSize - 1
      match t.root.get lastTreeIndex with
      | none => pure none
      | some item => do
        let lastElement ← one item
        let (newRoot, newHeight) ← popRoot t treeSize
        let tail ← all t.tail
        let head ← all t.head
        return some (⟨newRoot, tail, head, newHeight, t.len - 1⟩, lastElement)

/-- tree.rs:436-457 `pop_back`. -/
def treePopBack (t : Tree α) : Run α (Option (Tree α × α)) :=
  if t.len = 0 then pure none
  else if !t.tail.isEmpty then do
    let newTail ← all t.tail
    match newTail.getLast? with
    | none => pure none
    | some popped => do
      let head ← all t.head
      return some (⟨t.root, newTail.dropLast, head, t.height, t.len - 1⟩, popped)
  else popFromTree t

/-- tree.rs:538-559: the part of `pop_front_from_tree` that reads the tail. -/
def popFrontFromTail (t : Tree α) : Run α (Option (Tree α × α)) := do
  let newHead ← all t.tail.reverse
  return match newHead.getLast? with
    | some popped => some (⟨.leaf [], [], newHead.dropLast, 0, t.len - 1⟩, popped)
    | none => none

/-- tree.rs:521-560 `pop_front_from_tree`. -/
def popFrontFromTree (t : Tree α) : Run α (Option (Tree α × α)) :=
  if t.treeSize > 0 then do
    match ← nodePopFront t.root with
    | some (newRoot, popped) => do
      let tail ← all t.tail
      let head ← all t.head
      return some (⟨newRoot, tail, head, t.height, t.len - 1⟩, popped)
    | none => popFrontFromTail t
  else popFrontFromTail t

/-- tree.rs:498-519 `pop_front`. -/
def treePopFront (t : Tree α) : Run α (Option (Tree α × α)) :=
  if t.len = 0 then pure none
  else if !t.head.isEmpty then do
    let newHead ← all t.head
    match newHead with
    | [] => pure none
    | popped :: rest => do
      let tail ← all t.tail
      return some (⟨t.root, tail, rest, t.height, t.len - 1⟩, popped)
  else popFrontFromTree t

/-- tree.rs:801-811 `from_head`: 807 clones the buffer it is given. -/
def fromHead (head : List α) : Run α (Tree α) := do return Tree.fromHead (← all head)

/-- tree.rs:813-823 `from_tail`. -/
def fromTail (tail : List α) : Run α (Tree α) := do return Tree.fromTail (← all tail)

/-- tree.rs:825-837 `from_head_and_tree_and_tail`. -/
def fromHeadAndTreeAndTail (head : List α) (root : Node α) (tail : List α) (height : Nat) : Run α (Tree α) := do
  let tail ← all tail
  let head ← all head
  return Tree.fromHeadAndTreeAndTail head root tail height

/-- tree.rs:839-849 `from_head_and_root`. -/
def fromHeadAndRoot (head : List α) (root : Node α) : Run α (Tree α) := do
  return Tree.fromHeadAndRoot (← all head) root

/-- tree.rs:851-861 `from_root_and_tail`. -/
def fromRootAndTail (root : Node α) (tail : List α) : Run α (Tree α) := do
  return Tree.fromRootAndTail root (← all tail)

mutual
/-- tree.rs:614-662 `split_along_path`, leaf case 664-683 `split_leaf_node`. -/
def splitAlongPath : Node α → (path : List Nat) → (targetIndex height : Nat) → Run α (Node α × Node α)
  | .leaf elements, _, targetIndex, _ => do
    let left ← all (elements.take targetIndex)
    let right ← all (elements.drop targetIndex)
    return (.leaf left, .leaf right)
  | .branch children sizes, path, targetIndex, height =>
    match path with
    | [] => do return (← splitChild children 0 [] targetIndex (height - 1)).getD (.leaf [], .leaf [])
    | childIndex :: remainingPath => do
      let adjustedIndex := Tree.calculateAdjustedIndex targetIndex childIndex sizes (height - 1)
      match ← splitChild children childIndex remainingPath adjustedIndex (height - 1) with
      | some (leftChild, rightChild) =>
        pure (Tree.createLeftBranch children childIndex leftChild, Tree.createRightBranch children childIndex rightChild)
      | none => pure (.leaf [], .leaf [])
/-- tree.rs:635-646. -/
def splitChild : List (Node α) → (childIndex : Nat) → (path : List Nat) → (targetIndex height : Nat) →
    Run α (Option (Node α × Node α))
  | [], _, _, _, _ => pure none
  | c :: _, 0, path, j, h => do return some (← splitAlongPath c path j h)
  | _ :: cs, i + 1, path, j, h => splitChild cs i path j h
end

/-- tree.rs:562-607 `split_at`, with 863-877 `split_head_at` and `split_tail_at`. -/
def treeSplitAt (t : Tree α) (index : Nat) : Run α (Tree α × Tree α) :=
  if index = 0 then do return (Tree.empty, ← tree t)
  else if index ≥ t.len then do return (← tree t, Tree.empty)
  else if index ≤ t.head.length then do
    let leftHead ← all (t.head.take index)
    let rightHead ← all (t.head.drop index)
    let left ← fromHead leftHead
    let tail ← all t.tail
    return (left, ← fromHeadAndTreeAndTail rightHead t.root tail t.height)
  else
    let treeStart := t.head.length
    if index ≥ treeStart + t.treeSize then do
      let tailIndex := index - treeStart - t.treeSize
      let leftTail ← all (t.tail.take tailIndex)
      let rightTail ← all (t.tail.drop tailIndex)
      let head ← all t.head
      let left ← fromHeadAndTreeAndTail head t.root leftTail t.height
      return (left, ← fromTail rightTail)
    else do
      let treeIndex := index - treeStart
      let (leftRoot, rightRoot) ← splitAlongPath t.root (Tree.findPath t.root t.height treeIndex) treeIndex t.height
      let head ← all t.head
      let left ← fromHeadAndRoot head leftRoot
      let tail ← all t.tail
      return (left, ← fromRootAndTail rightRoot tail)

/-! ## Vectors (core.rs, iter.rs, traits.rs) -/

/-- `#[derive(Clone)]` of `PersistentVector` and `VectorImpl` (core.rs:41-61): inline elements are cloned, a tree is an
`Arc`. -/
def vec (v : PV α) : Run α (PV α) :=
  match v.inner with
  | .inline elements => do return ⟨.inline (← all elements), v.len, v.generation⟩
  | .tree t => pure ⟨.tree t, v.len, v.generation⟩

/-- core.rs:986-1009 `from_iter`, of elements handed over: 1002 clones the finished tree. -/
def fromIter (elements : List α) : Run α (PV α) :=
  let len := elements.length
  if len ≤ ADAPTIVE_INLINE_SIZE then pure ⟨.inline elements, len, 0⟩
  else do
    let t ← fromElements elements
    return ⟨.tree (← tree t), len, 0⟩

/-- core.rs:168-170 `from_slice`. -/
def fromSlice (slice : List α) : Run α (PV α) := do fromIter (← all slice)

/-- core.rs:631-645 `transition_to_tree`. -/
def transitionToTree (v : PV α) : Run α (PV α) :=
  match v.inner with
  | .inline elements => do
    let t ← fromElements (← all elements)
    return ⟨.tree t, v.len, v.generation + 1⟩
  | .tree _ => vec v

/-- core.rs:648-662 `tree_push_back`; the other arm is `unreachable!()`. -/
def vecTreePushBack (v : PV α) (value : α) : Run α (PV α) :=
  match v.inner with
  | .tree t => do return ⟨.tree (← treePushBack t value), v.len + 1, v.generation + 1⟩
  | .inline _ => pure v

/-- core.rs:509-528 `push_back`. -/
def pushBack (v : PV α) (value : α) : Run α (PV α) :=
  match v.inner with
  | .inline elements =>
    if elements.length < ADAPTIVE_INLINE_SIZE then do
      return ⟨.inline ((← all elements) ++ [value]), v.len + 1, v.generation + 1⟩
    else do vecTreePushBack (← transitionToTree v) value
  | .tree _ => vecTreePushBack v value

/-- core.rs:665-679 `tree_push_front`. -/
def vecTreePushFront (v : PV α) (value : α) : Run α (PV α) :=
  match v.inner with
  | .tree t => do return ⟨.tree (← treePushFront t value), v.len + 1, v.generation + 1⟩
  | .inline _ => pure v

/-- core.rs:541-561 `push_front`. -/
def pushFront (v : PV α) (value : α) : Run α (PV α) :=
  match v.inner with
  | .inline elements =>
    if elements.length < ADAPTIVE_INLINE_SIZE then do
      return ⟨.inline (value :: (← all elements)), v.len + 1, v.generation + 1⟩
    else do vecTreePushFront (← transitionToTree v) value
  | .tree _ => vecTreePushFront v value

/-- core.rs:1011-1017 `extend`. -/
def extend (v : PV α) : (items : List α) → Run α (PV α)
  | [] => pure v
  | item :: rest => do extend (← pushBack v item) rest

/-- core.rs:600-628 `update`. -/
def update (v : PV α) (index : Nat) (value : α) : Run α (PV α) :=
  if index ≥ v.len then vec v
  else
    match v.inner with
    | .inline elements => do
      return ⟨.inline ((← all elements).set index value), v.len, v.generation + 1⟩
    | .tree t => do return ⟨.tree (← treeUpdate t index value), v.len, v.generation + 1⟩

/-- core.rs:693-734 `concat`, with 737-742 `ensure_tree`, which clones both trees (740); also `Semigroup::combine` and
`combine_owned` (traits.rs:94-104). -/
def concat (self other : PV α) : Run α (PV α) :=
  match self.inner, other.inner with
  | .inline left, .inline right => do fromIter (← all (left ++ right))
  | .inline elements, .tree t => do
    let leftTree ← fromElements (← all elements)
    return ⟨.tree (← treeConcat leftTree t), self.len + other.len, self.generation + 1⟩
  | .tree t, .inline elements => do
    let rightTree ← fromElements (← all elements)
    return ⟨.tree (← treeConcat t rightTree), self.len + other.len, self.generation + 1⟩
  | .tree l, .tree r => do
    let leftTree ← tree l
    let rightTree ← tree r
    return ⟨.tree (← treeConcat leftTree rightTree), self.len + other.len, self.generation + 1⟩

/-- core.rs:758-795 `pop_back`: 765 clones the last element besides the clone of all elements in 766. -/
def popBack (v : PV α) : Run α (Option (PV α × α)) :=
  if v.isEmpty then pure none
  else
    match v.inner with
    | .inline elements =>
      match elements.getLast? with
      | some item => do
        let last ← one item
        let newElements ← all elements
        return some (⟨.inline newElements.dropLast, v.len - 1, v.generation + 1⟩, last)
      | none => pure none
    | .tree t => do
      return (← treePopBack t).map fun (newTree, value) => (⟨.tree newTree, v.len - 1, v.generation + 1⟩, value)

/-- core.rs:811-847 `pop_front`. -/
def popFront (v : PV α) : Run α (Option (PV α × α)) :=
  if v.isEmpty then pure none
  else
    match v.inner with
    | .inline elements =>
      match elements with
      | item :: rest => do
        let first ← one item
        let newElements ← all rest
        return some (⟨.inline newElements, v.len - 1, v.generation + 1⟩, first)
      | [] => pure none
    | .tree t => do
      return (← treePopFront t).map fun (newTree, value) => (⟨.tree newTree, v.len - 1, v.generation + 1⟩, value)

/-- core.rs:864-909 `split_at`. -/
def splitAt (v : PV α) (index : Nat) : Run α (PV α × PV α) :=
  if index ≥ v.len then do return (← vec v, PV.new)
  else if index = 0 then do return (PV.new, ← vec v)
  else
    match v.inner with
    | .inline elements => do
      let left ← all (elements.take index)
      let right ← all (elements.drop index)
      return (⟨.inline left, index, v.generation + 1⟩, ⟨.inline right, v.len - index, v.generation + 1⟩)
    | .tree t => do
      let (leftTree, rightTree) ← treeSplitAt t index
      return (⟨.tree leftTree, index, v.generation + 1⟩, ⟨.tree rightTree, v.len - index, v.generation + 1⟩)

/-- core.rs:922-928 `take`. -/
def take (v : PV α) (n : Nat) : Run α (PV α) := if n ≥ v.len then vec v else do return (← splitAt v n).1

/-- core.rs:941-947 `skip`. -/
def skip (v : PV α) (n : Nat) : Run α (PV α) := if n ≥ v.len then pure PV.new else do return (← splitAt v n).2

/-- core.rs:949-959 `insert`. -/
def insert (v : PV α) (index : Nat) (value : α) : Run α (PV α) :=
  if index ≥ v.len then pushBack v value
  else if index = 0 then pushFront v value
  else do
    let (left, right) ← splitAt v index
    concat (← pushBack left value) right

/-- core.rs:961-973 `remove`. -/
def remove (v : PV α) (index : Nat) : Run α (Option (PV α)) :=
  if index ≥ v.len then pure none
  else if v.len = 1 then pure (some PV.new)
  else do
    let (left, right) ← splitAt v index
    return some (← concat left (← skip right 1))

/-- core.rs:975-977 `to_vec` (also `From<PersistentVector<T>> for Vec<T>` 1025-1029), and `into_iter` (iter.rs:50-58)
consumed to the end. -/
def toVec (v : PV α) : Run α (List α) := all v.items

/-- core.rs:183-189 `map` and the other methods that rebuild from borrowed elements through a closure (`fmap`, `filter_map`
304-309, `flat_map` 322-328): `outputs` is what the closure handed over; these are cloned by `from_iter` only. -/
def rebuild (outputs : List β) : Run β (PV β) := fromIter outputs

/-- core.rs:226-231 `filter`. -/
def filter (v : PV α) (p : α → Bool) : Run α (PV α) := do fromIter (← all (v.items.filter p))

/-- core.rs:341-356 `dedup`: 350 clones what is kept. -/
def dedup [DecidableEq α] (v : PV α) : Run α (PV α) := do fromIter (← all (PV.dedupLoop v.items none))

/-- core.rs:369-376 `sorted`. -/
def sorted (le : α → α → Bool) (v : PV α) : Run α (PV α) := do
  let items ← all v.items
  fromIter (items.mergeSort le)

/-- core.rs:443-449, the loop of `partition`. -/
def partitionLoop (p : α → Bool) : List α → (trueItems falseItems : List α) → Run α (List α × List α)
  | [], ts, fs => pure (ts, fs)
  | item :: rest, ts, fs =>
    if p item then do partitionLoop p rest (ts ++ [← one item]) fs
    else do partitionLoop p rest ts (fs ++ [← one item])

/-- core.rs:436-452 `partition`. -/
def partition (v : PV α) (p : α → Bool) : Run α (PV α × PV α) := do
  let r ← partitionLoop p v.items [] []
  let ts ← fromIter r.1
  return (ts, ← fromIter r.2)

/-- traits.rs:30-37 `into_value` and `try_into_value`: the first call of `next` on the owning iterator clones. -/
def tryIntoValue (v : PV α) : Run α (Option α) :=
  match v.first with
  | some x => do return some (← one x)
  | none => pure none

end Rustica.PVec.Cloned
