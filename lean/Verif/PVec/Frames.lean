import Verif.PVec.Core

/-!
# How deep the calls of the vector operations nest, and how many there are

The functions of `Node.lean`, `Tree.lean` and `Core.lean` once more, from the same lines of the code, with the deepest nesting
and the number of calls of the functions that call themselves: `get`, `update`, `calculate_size`, `pop_back`, `pop_front` of a node
(node.rs), `build_tree_recursive`, `concat_nodes`, `split_along_path`, `calculate_height` (tree.rs), and dropping a node.
All other functions of pvec call each other without recursion (`push_back` and `push_front` of a tree call themselves once) and
are not counted; `get` and `find_path_to_index` of a tree are loops.  What a call drops on the way is not counted either.
-/

namespace Rustica.PVec.Frames

/-- What a call returns, how deep the counted calls nested on the way to it, and how many there were. -/
structure Run (X : Type) where
  val : X
  depth : Nat
  calls : Nat

/-- One piece of code after the other: the frames of the first are gone when the second starts. -/
instance : Monad Run where
  pure x := ⟨x, 0, 0⟩
  bind r f := ⟨(f r.val).val, max r.depth (f r.val).depth, r.calls + (f r.val).calls⟩

variable {α X : Type}

/-- The body of a counted function. -/
def call (r : Run X) : Run X := ⟨r.val, r.depth + 1, r.calls + 1⟩

/-! ## Nodes (node.rs) -/

mutual
/-- node.rs:259-270 `calculate_size`. -/
def size : Node α → Run Nat
  | .leaf elements => call (pure elements.length)
  | .branch _ (some sizes) => call (pure sizes.sum)
  | .branch children none => call (sizeL children)
/-- node.rs:266. -/
def sizeL : List (Node α) → Run Nat
  | [] => pure 0
  | c :: cs => do
    let s ← size c
    return s + (← sizeL cs)
end

/-- `children.iter().map(|child| child.calculate_size()).collect()`. -/
def sizes : List (Node α) → Run (List Nat)
  | [] => pure []
  | c :: cs => do
    let s ← size c
    return s :: (← sizes cs)

/-- node.rs:40-50 `make_relaxed`. -/
def makeRelaxed (children : List (Node α)) : Run (Node α) := do
  return .branch children (some (← sizes children))

mutual
/-- node.rs:146-158 `get` of a node. -/
def get : Node α → Nat → Run (Option α)
  | .leaf elements, index => call (pure elements[index]?)
  | .branch children sizes, index =>
    call (match (match sizes with
      | some s => Node.scanSizes s 0 0 index
      | none => Node.findChildRegular children index 1) with
    | some (childIdx, subIndex) => getL children childIdx subIndex
    | none => pure none)
/-- node.rs:155. -/
def getL : List (Node α) → Nat → Nat → Run (Option α)
  | [], _, _ => pure none
  | c :: _, 0, j => get c j
  | _ :: cs, i + 1, j => getL cs i j
end

mutual
/-- node.rs:183-212 `update` of a node. -/
def nodeUpdate : Node α → Nat → α → Run (Node α)
  | .leaf elements, index, value =>
    call (pure (.leaf (if index < elements.length then elements.set index value else elements)))
  | .branch children sizes, index, value =>
    call (match Node.findChild sizes index with
    | some (childIndex, subIndex) => do return .branch (← nodeUpdateL children childIndex subIndex value) sizes
    | none => pure (.branch children sizes))
/-- node.rs:196-199. -/
def nodeUpdateL : List (Node α) → Nat → Nat → α → Run (List (Node α))
  | [], _, _, _ => pure []
  | c :: cs, 0, j, value => do return (← nodeUpdate c j value) :: cs
  | c :: cs, i + 1, j, value => do return c :: (← nodeUpdateL cs i j value)
end

/-- node.rs:214-257 `push_leaf`. -/
def pushLeaf (self leaf : Node α) : Run (Node α) :=
  match self with
  | .leaf _ => do
    let s ← size self
    return .branch [self, leaf] (some [s, ← size leaf])
  | .branch children table =>
    if children.length < BRANCHING_FACTOR then do
      let newSizes ← match table with
        | some s => pure s
        | none => sizes children
      return .branch (children ++ [leaf]) (some (newSizes ++ [← size leaf]))
    else do
      let s ← size self
      return .branch [self, leaf] (some [s, ← size leaf])

/-- node.rs:330-378 `push_front_leaf`. -/
def pushFrontLeaf (self leaf : Node α) : Run (Node α) :=
  match self with
  | .leaf _ => do
    let s ← size leaf
    return .branch [leaf, self] (some [s, ← size self])
  | .branch children table =>
    if children.length < BRANCHING_FACTOR then do
      let s ← size leaf
      let rest ← match table with
        | some t => pure t
        | none => sizes children
      return .branch (leaf :: children) (some (s :: rest))
    else do
      let s ← size leaf
      return .branch [leaf, self] (some [s, ← size self])

/-- node.rs:295-322, after the last child was popped; `calculate_size` of it is called at 298 and again at 311. -/
def afterPopBack (children : List (Node α)) (table : Option (List Nat)) (newChild : Node α) (popped : α) :
    Run (Option (Node α × α)) := do
  let lastChildIndex := children.length - 1
  if (← size newChild) = 0 then
    let newChildren := children.dropLast
    let newSizes := Node.updateSizeTableAfterRemoval table lastChildIndex
    if newChildren.isEmpty then pure (some (.leaf [], popped))
    else pure (some (.branch newChildren newSizes, popped))
  else
    let newSize ← size newChild
    let newSizes := Node.updateSizeTableAfterUpdate table lastChildIndex newSize
    pure (some (.branch (children.set lastChildIndex newChild) newSizes, popped))

mutual
/-- node.rs:272-328 `pop_back` of a node. -/
def nodePopBack : Node α → Run (Option (Node α × α))
  | .leaf elements =>
    call (pure (match elements.getLast? with
      | none => none
      | some x => some (.leaf elements.dropLast, x)))
  | .branch children table => call (do
    match ← nodePopBackLast children with
    | none => pure none
    | some (newChild, popped) => afterPopBack children table newChild popped)
/-- node.rs:288-295. -/
def nodePopBackLast : List (Node α) → Run (Option (Node α × α))
  | [] => pure none
  | [c] => nodePopBack c
  | _ :: c :: cs => nodePopBackLast (c :: cs)
end

/-- node.rs:402-427, after the first child was popped; `calculate_size` of it is called at 405 and again at 417. -/
def afterPopFront (restChildren : List (Node α)) (table : Option (List Nat)) (newChild : Node α) (popped : α) :
    Run (Option (Node α × α)) := do
  if (← size newChild) = 0 then
    let newSizes := Node.updateSizeTableAfterRemoval table 0
    if restChildren.isEmpty then pure (some (.leaf [], popped))
    else pure (some (.branch restChildren newSizes, popped))
  else
    let newSize ← size newChild
    let newSizes := Node.updateSizeTableAfterUpdate table 0 newSize
    pure (some (.branch (newChild :: restChildren) newSizes, popped))

/-- node.rs:380-433 `pop_front` of a node. -/
def nodePopFront : Node α → Run (Option (Node α × α))
  | .leaf elements =>
    call (pure (match elements with
      | [] => none
      | x :: rest => some (.leaf rest, x)))
  | .branch children table =>
    match children with
    | [] => call (pure none)
    | firstChild :: restChildren => call (do
      match ← nodePopFront firstChild with
      | none => pure none
      | some (newChild, popped) => afterPopFront restChildren table newChild popped)

mutual
/-- Dropping the last `Arc` of a node: a leaf drops its elements, a branch the `Arc`s of its children one after the other, here
each the last one of its node (drop glue of node.rs:23-37). -/
def nodeDrop : Node α → Run Unit
  | .leaf _ => call (pure ())
  | .branch children _ => call (nodeDropL children)
/-- The children one after the other. -/
def nodeDropL : List (Node α) → Run Unit
  | [] => pure ()
  | c :: cs => do
    nodeDrop c
    nodeDropL cs
end

/-! ## Trees (tree.rs) -/

/-- tree.rs:95-107: the branches of the next level. -/
def nextLevel : List (List (Node α)) → Run (List (Node α))
  | [] => pure []
  | chunk :: rest => do
    let branch ← makeRelaxed chunk
    return branch :: (← nextLevel rest)

/-- tree.rs:88-112 `build_tree_recursive`; fuel as in `Tree.buildTreeRecursive`. -/
def buildTreeRecursive : Nat → List (Node α) → Run (Node α × Nat)
  | 0, _ => pure (.leaf [], 0)
  | fuel + 1, nodes =>
    match nodes with
    | [n] => call (pure (n, 0))
    | nodes => call (do
      let next ← nextLevel (chunks BRANCHING_FACTOR nodes)
      let (root, subHeight) ← buildTreeRecursive fuel next
      return (root, subHeight + 1))

/-- tree.rs:31-86 `from_elements` with `build_tree_with_tail`. -/
def fromElements (elements : List α) : Run (Tree α) :=
  let len := elements.length
  if len ≤ LEAF_CAPACITY then pure ⟨.leaf elements, [], [], 0, len⟩
  else
    let treeElementsLen := (len / LEAF_CAPACITY) * LEAF_CAPACITY
    let treeElements := elements.take treeElementsLen
    let tailElements := elements.drop treeElementsLen
    if treeElements.isEmpty then pure ⟨.leaf [], tailElements, [], 0, len⟩
    else do
      let leaves := (chunks LEAF_CAPACITY treeElements).map Node.leaf
      let (root, height) ← buildTreeRecursive leaves.length leaves
      return ⟨root, tailElements, [], height, len⟩

/-- tree.rs:160-203 `update`. -/
def treeUpdate (t : Tree α) (index : Nat) (value : α) : Run (Tree α) :=
  if index ≥ t.len then pure t
  else if index < t.head.length then pure { t with head := t.head.set index value }
  else
    let adjustedIndex := index - t.head.length
    if adjustedIndex < t.treeSize then do
      return { t with root := ← nodeUpdate t.root adjustedIndex value }
    else
      let tailIndex := adjustedIndex - t.treeSize
      pure { t with tail := if tailIndex < t.tail.length then t.tail.set tailIndex value else t.tail }

/-- tree.rs:879-890 `calculate_height`. -/
def calculateHeight : Node α → Run Nat
  | .leaf _ => call (pure 0)
  | .branch children _ =>
    match children with
    | [] => call (pure 0)
    | firstChild :: _ => call (do return 1 + (← calculateHeight firstChild))

/-- tree.rs:221-240 `push_tail_to_tree`. -/
def pushTailToTree (t : Tree α) : Run (Tree α) :=
  if t.tail.isEmpty then pure t
  else do
    let newRoot ← pushLeaf t.root (.leaf t.tail)
    return ⟨newRoot, [], t.head, ← calculateHeight newRoot, t.len⟩

/-- tree.rs:205-219 `push_back`; the recursive call finds an empty tail. -/
def treePushBack (t : Tree α) (value : α) : Run (Tree α) :=
  if t.tail.length < LEAF_CAPACITY then pure { t with tail := t.tail ++ [value], len := t.len + 1 }
  else do
    let t' ← pushTailToTree t
    return { t' with tail := t'.tail ++ [value], len := t'.len + 1 }

/-- tree.rs:259-278 `push_head_to_tree`. -/
def pushHeadToTree (t : Tree α) : Run (Tree α) :=
  if t.head.isEmpty then pure t
  else do
    let newRoot ← pushFrontLeaf t.root (.leaf t.head)
    return ⟨newRoot, t.tail, [], ← calculateHeight newRoot, t.len⟩

/-- tree.rs:242-257 `push_front`; the recursive call finds an empty head. -/
def treePushFront (t : Tree α) (value : α) : Run (Tree α) :=
  if t.head.length < LEAF_CAPACITY then pure { t with head := value :: t.head, len := t.len + 1 }
  else do
    let t' ← pushHeadToTree t
    return { t' with head := value :: t'.head, len := t'.len + 1 }

mutual
/-- tree.rs:356-434 `concat_nodes`. -/
def concatNodes : Node α → Node α → Run (Node α)
  | .leaf leftElems, right =>
    match right with
    | .leaf rightElems =>
      let combined := leftElems ++ rightElems
      call (if combined.length ≤ LEAF_CAPACITY then pure (.leaf combined)
        else makeRelaxed [.leaf (combined.take LEAF_CAPACITY), .leaf (combined.drop LEAF_CAPACITY)])
    | .branch rightChildren _ => call (makeRelaxed (.leaf leftElems :: rightChildren))
  | .branch leftChildren _, right =>
    match right with
    | .leaf rightElems => call (makeRelaxed (leftChildren ++ [.leaf rightElems]))
    | .branch rightChildren _ => call (do
      let middle ← match rightChildren with
        | [] => pure none
        | rightFirst :: _ => concatLast leftChildren rightFirst
      makeRelaxed (leftChildren.dropLast ++ middle.toList ++ rightChildren.drop 1))
/-- tree.rs:402-407. -/
def concatLast : List (Node α) → Node α → Run (Option (Node α))
  | [], _ => pure none
  | [c], rightFirst => do return some (← concatNodes c rightFirst)
  | _ :: c :: cs, rightFirst => concatLast (c :: cs) rightFirst
end

/-- tree.rs:297-322 `concat_same_height`. -/
def concatSameHeight (self other : Tree α) : Run (Tree α) := do
  let left ← if !self.tail.isEmpty then pushTailToTree self else pure self
  let right ← if !other.head.isEmpty then pushHeadToTree other else pure other
  let root ← concatNodes left.root right.root
  return ⟨root, right.tail, left.head, max self.height other.height, self.len + other.len⟩

/-- tree.rs:338-345, the loop of `elevate_tree`. -/
def elevateRoot : Nat → Node α → Run (Node α)
  | 0, root => pure root
  | k + 1, root => do
    let s ← size root
    elevateRoot k (.branch [root] (some [s]))

/-- tree.rs:334-354 `elevate_tree`. -/
def elevateTree (t : Tree α) (targetHeight : Nat) : Run (Tree α) := do
  let root ← elevateRoot (targetHeight - t.height) t.root
  return ⟨root, t.tail, t.head, t.height + (targetHeight - t.height), t.len⟩

/-- tree.rs:324-332 `concat_different_height`. -/
def concatDifferentHeight (self other : Tree α) (leftHigher : Bool) : Run (Tree α) :=
  if leftHigher then do concatSameHeight self (← elevateTree other self.height)
  else do concatSameHeight (← elevateTree self other.height) other

/-- tree.rs:280-295 `concat`. -/
def treeConcat (self other : Tree α) : Run (Tree α) :=
  if self.len = 0 then pure other
  else if other.len = 0 then pure self
  else if self.height = other.height then concatSameHeight self other
  else if self.height < other.height then concatDifferentHeight other self false
  else concatDifferentHeight self other true

/-- tree.rs:472-484: the root after `pop_from_tree`, with its height. -/
def popRoot (t : Tree α) (treeSize : Nat) : Run (Node α × Nat) :=
  if treeSize = 1 then pure (.leaf [], 0)
  else do
    match ← nodePopBack t.root with
    | some (newRoot, _) => pure (newRoot, t.height)
    | none => pure (t.root, t.height)

/-- tree.rs:459-496 `pop_from_tree`. -/
def popFromTree (t : Tree α) : Run (Option (Tree α × α)) :=
  if t.len = 0 then pure none
  else
    let treeSize := t.len - t.tail.length
    if treeSize = 0 then pure none
    else do
      match ← get t.root (treeSize - 1) with
      | none => pure none
      | some lastElement => do
        let (newRoot, newHeight) ← popRoot t treeSize
        return some (⟨newRoot, t.tail, t.head, newHeight, t.len - 1⟩, lastElement)

/-- tree.rs:436-457 `pop_back`. -/
def treePopBack (t : Tree α) : Run (Option (Tree α × α)) :=
  if t.len = 0 then pure none
  else
    match t.tail.getLast? with
    | some popped => pure (some ({ t with tail := t.tail.dropLast, len := t.len - 1 }, popped))
    | none => popFromTree t

/-- tree.rs:521-560 `pop_front_from_tree`; 538-559 read the tail without recursion. -/
def popFrontFromTree (t : Tree α) : Run (Option (Tree α × α)) :=
  if t.treeSize > 0 then do
    match ← nodePopFront t.root with
    | some (newRoot, popped) => pure (some ({ t with root := newRoot, len := t.len - 1 }, popped))
    | none => pure t.popFrontFromTail
  else pure t.popFrontFromTail

/-- tree.rs:498-519 `pop_front`. -/
def treePopFront (t : Tree α) : Run (Option (Tree α × α)) :=
  if t.len = 0 then pure none
  else
    match t.head with
    | popped :: newHead => pure (some ({ t with head := newHead, len := t.len - 1 }, popped))
    | [] => popFrontFromTree t

/-- tree.rs:825-837 `from_head_and_tree_and_tail`. -/
def fromHeadAndTreeAndTail (head : List α) (root : Node α) (tail : List α) (height : Nat) : Run (Tree α) := do
  return ⟨root, tail, head, height, head.length + (← size root) + tail.length⟩

/-- tree.rs:839-849 `from_head_and_root`. -/
def fromHeadAndRoot (head : List α) (root : Node α) : Run (Tree α) := do
  let height ← calculateHeight root
  return ⟨root, [], head, height, head.length + (← size root)⟩

/-- tree.rs:851-861 `from_root_and_tail`. -/
def fromRootAndTail (root : Node α) (tail : List α) : Run (Tree α) := do
  let height ← calculateHeight root
  return ⟨root, tail, [], height, (← size root) + tail.length⟩

/-- tree.rs:685-707 `create_left_branch`. -/
def createLeftBranch (children : List (Node α)) (splitIndex : Nat) (newChild : Node α) : Run (Node α) := do
  let s ← size newChild
  let leftChildren := children.take splitIndex ++ (if s > 0 then [newChild] else [])
  if leftChildren.isEmpty then pure (.leaf []) else makeRelaxed leftChildren

/-- tree.rs:709-731 `create_right_branch`. -/
def createRightBranch (children : List (Node α)) (splitIndex : Nat) (newChild : Node α) : Run (Node α) := do
  let s ← size newChild
  let rightChildren := (if s > 0 then [newChild] else []) ++ children.drop (splitIndex + 1)
  if rightChildren.isEmpty then pure (.leaf []) else makeRelaxed rightChildren

mutual
/-- tree.rs:614-662 `split_along_path`. -/
def splitAlongPath : Node α → (path : List Nat) → (targetIndex height : Nat) → Run (Node α × Node α)
  | .leaf elements, _, targetIndex, _ =>
    call (pure (.leaf (elements.take targetIndex), .leaf (elements.drop targetIndex)))
  | .branch children table, path, targetIndex, height =>
    match path with
    | [] => call (do return (← splitChild children 0 [] targetIndex (height - 1)).getD (.leaf [], .leaf []))
    | childIndex :: remainingPath => call (do
      let adjustedIndex := Tree.calculateAdjustedIndex targetIndex childIndex table (height - 1)
      match ← splitChild children childIndex remainingPath adjustedIndex (height - 1) with
      | some (leftChild, rightChild) => do
        let left ← createLeftBranch children childIndex leftChild
        return (left, ← createRightBranch children childIndex rightChild)
      | none => pure (.leaf [], .leaf []))
/-- tree.rs:635-646. -/
def splitChild : List (Node α) → (childIndex : Nat) → (path : List Nat) → (targetIndex height : Nat) →
    Run (Option (Node α × Node α))
  | [], _, _, _, _ => pure none
  | c :: _, 0, path, j, h => do return some (← splitAlongPath c path j h)
  | _ :: cs, i + 1, path, j, h => splitChild cs i path j h
end

/-- tree.rs:562-607 `split_at`. -/
def treeSplitAt (t : Tree α) (index : Nat) : Run (Tree α × Tree α) :=
  if index = 0 then pure (Tree.empty, t)
  else if index ≥ t.len then pure (t, Tree.empty)
  else if index ≤ t.head.length then do
    return (Tree.fromHead (t.head.take index), ← fromHeadAndTreeAndTail (t.head.drop index) t.root t.tail t.height)
  else
    let treeStart := t.head.length
    if index ≥ treeStart + t.treeSize then do
      let tailIndex := index - treeStart - t.treeSize
      return (← fromHeadAndTreeAndTail t.head t.root (t.tail.take tailIndex) t.height,
        Tree.fromTail (t.tail.drop tailIndex))
    else do
      let treeIndex := index - treeStart
      let (leftRoot, rightRoot) ← splitAlongPath t.root (Tree.findPath t.root t.height treeIndex) treeIndex t.height
      let left ← fromHeadAndRoot t.head leftRoot
      return (left, ← fromRootAndTail rightRoot t.tail)

/-! ## Vectors (core.rs) -/

/-- core.rs:986-1009 `from_iter`. -/
def fromIter (elements : List α) : Run (PV α) :=
  let len := elements.length
  if len ≤ ADAPTIVE_INLINE_SIZE then pure ⟨.inline elements, len, 0⟩
  else do return ⟨.tree (← fromElements elements), len, 0⟩

/-- core.rs:631-645 `transition_to_tree`. -/
def transitionToTree (v : PV α) : Run (PV α) :=
  match v.inner with
  | .inline elements => do return ⟨.tree (← fromElements elements), v.len, v.generation + 1⟩
  | .tree _ => pure v

/-- core.rs:648-662 `tree_push_back`; the other arm is `unreachable!()`. -/
def vecTreePushBack (v : PV α) (value : α) : Run (PV α) :=
  match v.inner with
  | .tree t => do return ⟨.tree (← treePushBack t value), v.len + 1, v.generation + 1⟩
  | .inline _ => pure v

/-- core.rs:509-528 `push_back`. -/
def pushBack (v : PV α) (value : α) : Run (PV α) :=
  match v.inner with
  | .inline elements =>
    if elements.length < ADAPTIVE_INLINE_SIZE then
      pure ⟨.inline (elements ++ [value]), v.len + 1, v.generation + 1⟩
    else do vecTreePushBack (← transitionToTree v) value
  | .tree _ => vecTreePushBack v value

/-- core.rs:665-679 `tree_push_front`. -/
def vecTreePushFront (v : PV α) (value : α) : Run (PV α) :=
  match v.inner with
  | .tree t => do return ⟨.tree (← treePushFront t value), v.len + 1, v.generation + 1⟩
  | .inline _ => pure v

/-- core.rs:541-561 `push_front`. -/
def pushFront (v : PV α) (value : α) : Run (PV α) :=
  match v.inner with
  | .inline elements =>
    if elements.length < ADAPTIVE_INLINE_SIZE then
      pure ⟨.inline (value :: elements), v.len + 1, v.generation + 1⟩
    else do vecTreePushFront (← transitionToTree v) value
  | .tree _ => vecTreePushFront v value

/-- core.rs:1011-1017 `extend`. -/
def extend (v : PV α) : (items : List α) → Run (PV α)
  | [] => pure v
  | item :: rest => do extend (← pushBack v item) rest

/-- core.rs:600-628 `update`. -/
def update (v : PV α) (index : Nat) (value : α) : Run (PV α) :=
  if index ≥ v.len then pure v
  else
    match v.inner with
    | .inline elements => pure ⟨.inline (elements.set index value), v.len, v.generation + 1⟩
    | .tree t => do return ⟨.tree (← treeUpdate t index value), v.len, v.generation + 1⟩

/-- core.rs:693-734 `concat`. -/
def concat (self other : PV α) : Run (PV α) :=
  match self.inner, other.inner with
  | .inline left, .inline right => fromIter (left ++ right)
  | .inline elements, .tree t => do
    let leftTree ← fromElements elements
    return ⟨.tree (← treeConcat leftTree t), self.len + other.len, self.generation + 1⟩
  | .tree t, .inline elements => do
    let rightTree ← fromElements elements
    return ⟨.tree (← treeConcat t rightTree), self.len + other.len, self.generation + 1⟩
  | .tree l, .tree r => do
    return ⟨.tree (← treeConcat l r), self.len + other.len, self.generation + 1⟩

/-- core.rs:758-795 `pop_back`. -/
def popBack (v : PV α) : Run (Option (PV α × α)) :=
  if v.isEmpty then pure none
  else
    match v.inner with
    | .inline elements =>
      match elements.getLast? with
      | some last => pure (some (⟨.inline elements.dropLast, v.len - 1, v.generation + 1⟩, last))
      | none => pure none
    | .tree t => do
      return (← treePopBack t).map fun (newTree, value) => (⟨.tree newTree, v.len - 1, v.generation + 1⟩, value)

/-- core.rs:811-847 `pop_front`. -/
def popFront (v : PV α) : Run (Option (PV α × α)) :=
  if v.isEmpty then pure none
  else
    match v.inner with
    | .inline elements =>
      match elements with
      | first :: rest => pure (some (⟨.inline rest, v.len - 1, v.generation + 1⟩, first))
      | [] => pure none
    | .tree t => do
      return (← treePopFront t).map fun (newTree, value) => (⟨.tree newTree, v.len - 1, v.generation + 1⟩, value)

/-- core.rs:864-909 `split_at`. -/
def splitAt (v : PV α) (index : Nat) : Run (PV α × PV α) :=
  if index ≥ v.len then pure (v, PV.new)
  else if index = 0 then pure (PV.new, v)
  else
    match v.inner with
    | .inline elements =>
      pure (⟨.inline (elements.take index), index, v.generation + 1⟩,
        ⟨.inline (elements.drop index), v.len - index, v.generation + 1⟩)
    | .tree t => do
      let (leftTree, rightTree) ← treeSplitAt t index
      return (⟨.tree leftTree, index, v.generation + 1⟩, ⟨.tree rightTree, v.len - index, v.generation + 1⟩)

/-- core.rs:922-928 `take`. -/
def take (v : PV α) (n : Nat) : Run (PV α) := if n ≥ v.len then pure v else do return (← splitAt v n).1

/-- core.rs:941-947 `skip`. -/
def skip (v : PV α) (n : Nat) : Run (PV α) := if n ≥ v.len then pure PV.new else do return (← splitAt v n).2

/-- core.rs:949-959 `insert`. -/
def insert (v : PV α) (index : Nat) (value : α) : Run (PV α) :=
  if index ≥ v.len then pushBack v value
  else if index = 0 then pushFront v value
  else do
    let (left, right) ← splitAt v index
    concat (← pushBack left value) right

/-- core.rs:961-973 `remove`. -/
def remove (v : PV α) (index : Nat) : Run (Option (PV α)) :=
  if index ≥ v.len then pure none
  else if v.len = 1 then pure (some PV.new)
  else do
    let (left, right) ← splitAt v index
    return some (← concat left (← skip right 1))

/-- Dropping a vector whose nodes belong to no other vector (drop glue of core.rs:41-61, tree.rs:15-28, node.rs:23-37). -/
def drop (v : PV α) : Run Unit :=
  match v.inner with
  | .inline _ => pure ()
  | .tree t => nodeDrop t.root

end Rustica.PVec.Frames
