import Verif.PVec.Core

/-!
# `push_back`, `push_front` and `concat` with machine words

`Core.lean` computes lengths and size tables in `Nat`.  In the code they are of type `usize`.  The first part repeats the
functions that add up lengths with additions that panic when the sum does not fit (a build with overflow checks), for
machine words with `W` values.  Only `push_back`, `push_front` and `concat` (and `insert`, `extend`, which call them)
make vectors longer.  `RRBTree::from_elements` is not repeated: its sums run over parts of one `Vec`, whose length fits.
Nor are the sums of `split_at`, `pop_back` and `pop_front`: they count elements that are stored in the given vector.

The second part counts the memory that calls allocate.  The children of a branch are `Arc`s, so the subtrees of old
versions are shared and cost one slot each.
-/

namespace Rustica.PVec

variable {α : Type}

/-- The panic "attempt to add with overflow". -/
inductive Overflow where
  | overflow
  deriving DecidableEq, Repr

/-- Checked `a + b` on a `usize` with `W` values. -/
def addC (W a b : Nat) : Except Overflow Nat := if a + b < W then .ok (a + b) else .error .overflow

/-- `iter().sum()` on `usize`: checked additions from the left. -/
def sumC (W : Nat) : (acc : Nat) → List Nat → Except Overflow Nat
  | acc, [] => .ok acc
  | acc, x :: xs => do sumC W (← addC W acc x) xs

namespace Node

mutual
/-- node.rs:259-270 `calculate_size`. -/
def calculateSizeU (W : Nat) : Node α → Except Overflow Nat
  | .leaf elements => .ok elements.length
  | .branch _ (some sizes) => sumC W 0 sizes
  | .branch children none => calculateSizeLU W 0 children
/-- node.rs:266 `children.iter().map(|child| child.calculate_size()).sum()`. -/
def calculateSizeLU (W : Nat) : (acc : Nat) → List (Node α) → Except Overflow Nat
  | acc, [] => .ok acc
  | acc, c :: cs => do calculateSizeLU W (← addC W acc (← calculateSizeU W c)) cs
end

/-- `children.iter().map(|child| child.calculate_size()).collect()`. -/
def sizesU (W : Nat) : List (Node α) → Except Overflow (List Nat)
  | [] => .ok []
  | c :: cs => do .ok ((← calculateSizeU W c) :: (← sizesU W cs))

/-- node.rs:40-50 `make_relaxed`. -/
def makeRelaxedU (W : Nat) (children : List (Node α)) : Except Overflow (Node α) := do
  .ok (.branch children (some (← sizesU W children)))

/-- node.rs:214-257 `push_leaf`. -/
def pushLeafU (W : Nat) (self leaf : Node α) : Except Overflow (Node α) :=
  match self with
  | .leaf _ => do .ok (.branch [self, leaf] (some [← self.calculateSizeU W, ← leaf.calculateSizeU W]))
  | .branch children sizes =>
    if children.length < BRANCHING_FACTOR then do
      let newSizes ← match sizes with
        | some s => .ok s
        | none => sizesU W children
      .ok (.branch (children ++ [leaf]) (some (newSizes ++ [← leaf.calculateSizeU W])))
    else do
      .ok (.branch [self, leaf] (some [← self.calculateSizeU W, ← leaf.calculateSizeU W]))

/-- node.rs:330-378 `push_front_leaf`. -/
def pushFrontLeafU (W : Nat) (self leaf : Node α) : Except Overflow (Node α) :=
  match self with
  | .leaf _ => do .ok (.branch [leaf, self] (some [← leaf.calculateSizeU W, ← self.calculateSizeU W]))
  | .branch children sizes =>
    if children.length < BRANCHING_FACTOR then do
      let first ← leaf.calculateSizeU W
      let rest ← match sizes with
        | some s => .ok s
        | none => sizesU W children
      .ok (.branch (leaf :: children) (some (first :: rest)))
    else do
      .ok (.branch [leaf, self] (some [← leaf.calculateSizeU W, ← self.calculateSizeU W]))

end Node

namespace Tree

/-- tree.rs:221-240 `push_tail_to_tree`. -/
def pushTailToTreeU (W : Nat) (t : Tree α) : Except Overflow (Tree α) :=
  if t.tail.isEmpty then .ok t
  else do
    let newRoot ← t.root.pushLeafU W (.leaf t.tail)
    .ok ⟨newRoot, [], t.head, calculateHeight newRoot, t.len⟩

/-- tree.rs:259-278 `push_head_to_tree`. -/
def pushHeadToTreeU (W : Nat) (t : Tree α) : Except Overflow (Tree α) :=
  if t.head.isEmpty then .ok t
  else do
    let newRoot ← t.root.pushFrontLeafU W (.leaf t.head)
    .ok ⟨newRoot, t.tail, [], calculateHeight newRoot, t.len⟩

/-- tree.rs:205-219 `push_back`. -/
def pushBackU (W : Nat) (t : Tree α) (value : α) : Except Overflow (Tree α) :=
  if t.tail.length < LEAF_CAPACITY then do
    .ok ⟨t.root, t.tail ++ [value], t.head, t.height, ← addC W t.len 1⟩
  else do
    let t' ← t.pushTailToTreeU W
    .ok ⟨t'.root, t'.tail ++ [value], t'.head, t'.height, ← addC W t'.len 1⟩

/-- tree.rs:242-257 `push_front`. -/
def pushFrontU (W : Nat) (t : Tree α) (value : α) : Except Overflow (Tree α) :=
  if t.head.length < LEAF_CAPACITY then do
    .ok ⟨t.root, t.tail, value :: t.head, t.height, ← addC W t.len 1⟩
  else do
    let t' ← t.pushHeadToTreeU W
    .ok ⟨t'.root, t'.tail, value :: t'.head, t'.height, ← addC W t'.len 1⟩

mutual
/-- tree.rs:356-434 `concat_nodes`. -/
def concatNodesU (W : Nat) : Node α → Node α → Except Overflow (Node α)
  | .leaf leftElems, right =>
    match right with
    | .leaf rightElems =>
      let combined := leftElems ++ rightElems
      if combined.length ≤ LEAF_CAPACITY then .ok (.leaf combined)
      else
        Node.makeRelaxedU W [.leaf (combined.take LEAF_CAPACITY), .leaf (combined.drop LEAF_CAPACITY)]
    | .branch rightChildren _ => Node.makeRelaxedU W (.leaf leftElems :: rightChildren)
  | .branch leftChildren _, right =>
    match right with
    | .leaf rightElems => Node.makeRelaxedU W (leftChildren ++ [.leaf rightElems])
    | .branch rightChildren _ => do
      let middle ← match rightChildren with
        | [] => .ok none
        | rightFirst :: _ => concatLastU W leftChildren rightFirst
      Node.makeRelaxedU W (leftChildren.dropLast ++ middle.toList ++ rightChildren.drop 1)
/-- tree.rs:402-407: merge the last child on the left with `rightFirst`. -/
def concatLastU (W : Nat) : List (Node α) → Node α → Except Overflow (Option (Node α))
  | [], _ => .ok none
  | [c], rightFirst => do .ok (some (← concatNodesU W c rightFirst))
  | _ :: c :: cs, rightFirst => concatLastU W (c :: cs) rightFirst
end

/-- tree.rs:301-303: a tail that is not empty is pushed into the left tree. -/
def flushTailU (W : Nat) (t : Tree α) : Except Overflow (Tree α) :=
  if !t.tail.isEmpty then t.pushTailToTreeU W else .ok t

/-- tree.rs:305-307: a head that is not empty is pushed into the right tree. -/
def flushHeadU (W : Nat) (t : Tree α) : Except Overflow (Tree α) :=
  if !t.head.isEmpty then t.pushHeadToTreeU W else .ok t

/-- tree.rs:297-322 `concat_same_height`. -/
def concatSameHeightU (W : Nat) (self other : Tree α) : Except Overflow (Tree α) := do
  let left ← self.flushTailU W
  let right ← other.flushHeadU W
  let merged ← concatNodesU W left.root right.root
  .ok ⟨merged, right.tail, left.head, max self.height other.height, ← addC W self.len other.len⟩

/-- tree.rs:338-345, the loop of `elevate_tree`, `k` iterations. -/
def elevateRootU (W : Nat) : Nat → Node α → Except Overflow (Node α)
  | 0, root => .ok root
  | k + 1, root => do elevateRootU W k (.branch [root] (some [← root.calculateSizeU W]))

/-- tree.rs:334-354 `elevate_tree`. -/
def elevateTreeU (W : Nat) (t : Tree α) (targetHeight : Nat) : Except Overflow (Tree α) := do
  .ok ⟨← elevateRootU W (targetHeight - t.height) t.root, t.tail, t.head,
    t.height + (targetHeight - t.height), t.len⟩

/-- tree.rs:324-332 `concat_different_height`. -/
def concatDifferentHeightU (W : Nat) (self other : Tree α) (leftHigher : Bool) : Except Overflow (Tree α) :=
  if leftHigher then do
    self.concatSameHeightU W (← elevateTreeU W other self.height)
  else do
    (← elevateTreeU W self other.height).concatSameHeightU W other

/-- tree.rs:280-295 `concat`. -/
def concatU (W : Nat) (self other : Tree α) : Except Overflow (Tree α) :=
  if self.len = 0 then .ok other
  else if other.len = 0 then .ok self
  else if self.height = other.height then self.concatSameHeightU W other
  else if self.height < other.height then other.concatDifferentHeightU W self false
  else self.concatDifferentHeightU W other true

end Tree

namespace PV

/-- core.rs:648-662 `tree_push_back`. -/
def treePushBackU (W : Nat) (v : PV α) (value : α) : Except Overflow (PV α) :=
  match v.inner with
  | .tree tree => do .ok ⟨.tree (← tree.pushBackU W value), ← addC W v.len 1, v.generation + 1⟩
  | .inline _ => .ok v

/-- core.rs:509-528 `push_back`. -/
def pushBackU (W : Nat) (v : PV α) (value : α) : Except Overflow (PV α) :=
  match v.inner with
  | .inline elements =>
    if elements.length < ADAPTIVE_INLINE_SIZE then do
      .ok ⟨.inline (elements ++ [value]), ← addC W v.len 1, v.generation + 1⟩
    else v.transitionToTree.treePushBackU W value
  | .tree _ => v.treePushBackU W value

/-- core.rs:665-679 `tree_push_front`. -/
def treePushFrontU (W : Nat) (v : PV α) (value : α) : Except Overflow (PV α) :=
  match v.inner with
  | .tree tree => do .ok ⟨.tree (← tree.pushFrontU W value), ← addC W v.len 1, v.generation + 1⟩
  | .inline _ => .ok v

/-- core.rs:541-561 `push_front`. -/
def pushFrontU (W : Nat) (v : PV α) (value : α) : Except Overflow (PV α) :=
  match v.inner with
  | .inline elements =>
    if elements.length < ADAPTIVE_INLINE_SIZE then do
      .ok ⟨.inline (value :: elements), ← addC W v.len 1, v.generation + 1⟩
    else v.transitionToTree.treePushFrontU W value
  | .tree _ => v.treePushFrontU W value

/-- core.rs:693-734 `concat`. -/
def concatU (W : Nat) (self other : PV α) : Except Overflow (PV α) :=
  match self.inner, other.inner with
  | .inline left, .inline right => .ok (fromIter (left ++ right))
  | .inline elements, .tree tree => do
    .ok ⟨.tree (← (Tree.fromElements elements).concatU W tree), ← addC W self.len other.len, self.generation + 1⟩
  | .tree tree, .inline elements => do
    .ok ⟨.tree (← tree.concatU W (Tree.fromElements elements)), ← addC W self.len other.len, self.generation + 1⟩
  | .tree left, .tree right => do
    .ok ⟨.tree (← left.concatU W right), ← addC W self.len other.len, self.generation + 1⟩

/-- core.rs:1011-1017 `extend`: one `push_back` per item. -/
def extendU (W : Nat) : PV α → List α → Except Overflow (PV α)
  | v, [] => .ok v
  | v, x :: xs => do extendU W (← v.pushBackU W x) xs

/-- core.rs:949-959 `insert`. -/
def insertU (W : Nat) (v : PV α) (index : Nat) (value : α) : Except Overflow (PV α) :=
  if index ≥ v.len then v.pushBackU W value
  else if index = 0 then v.pushFrontU W value
  else do
    (← (v.splitAt index).1.pushBackU W value).concatU W (v.splitAt index).2

/-- core.rs:961-973 `remove`. -/
def removeU (W : Nat) (v : PV α) (index : Nat) : Except Overflow (Option (PV α)) :=
  if index ≥ v.len then .ok none
  else if v.len = 1 then .ok (some new)
  else do
    .ok (some (← (v.splitAt index).1.concatU W ((v.splitAt index).2.skip 1)))

end PV

/-! ## Memory -/

namespace Node

/-- Slots that one node takes, without what its children point to: its elements, or one slot per child and one per
entry of the size table; and 80 for the node itself (the inline room of the `SmallVec`s, 64 elements or 8 children and
8 sizes, with the counters of the `Arc`). -/
def slots : Node α → Nat
  | .leaf elements => 80 + elements.length
  | .branch children sizes => 80 + children.length + (sizes.getD []).length

/-- node.rs:214-257 `push_leaf` onto a full branch or a leaf copies the node (251 `self.clone()`) and makes a new one;
otherwise it makes one. -/
def pushLeafSlots (self leaf : Node α) : Nat := self.slots + (self.pushLeaf leaf).slots

end Node

namespace Tree

/-- Slots that the tree takes outside its nodes: its two buffers, and 160 for the struct (inline room for 128
elements). -/
def slots (t : Tree α) : Nat := 160 + t.head.length + t.tail.length

/-- tree.rs:205-240 `push_back`: the new tree; if the tail is full also its leaf, the new root twice (231 clones it)
and the tree in between. -/
def pushBackSlots (t : Tree α) (value : α) : Nat :=
  (if t.tail.length < LEAF_CAPACITY then 0
   else (Node.leaf t.tail).slots + t.root.pushLeafSlots (.leaf t.tail) + t.pushTailToTree.root.slots +
     t.pushTailToTree.slots) + (t.pushBack value).slots

mutual
/-- tree.rs:356-434 `concat_nodes`: the node made, the list of its children collected before (`vec`, or the buffers
of two leaves), and what the merge of the middle takes. -/
def concatNodesSlots : Node α → Node α → Nat
  | .leaf leftElems, right =>
    match right with
    | .leaf rightElems => 240 + 4 + 2 * (leftElems.length + rightElems.length)
    | .branch rightChildren _ => 80 + 3 * (rightChildren.length + 1)
  | .branch leftChildren _, right =>
    match right with
    | .leaf _ => 80 + 3 * (leftChildren.length + 1)
    | .branch rightChildren _ => 80 + 3 * (leftChildren.length + rightChildren.length) +
      (match rightChildren with
       | [] => 0
       | rightFirst :: _ => concatLastSlots leftChildren rightFirst)
/-- tree.rs:402-407. -/
def concatLastSlots : List (Node α) → Node α → Nat
  | [], _ => 0
  | [c], rightFirst => concatNodesSlots c rightFirst
  | _ :: c :: cs, rightFirst => concatLastSlots (c :: cs) rightFirst
end

end Tree

namespace PV

/-- `from_iter` of more than 64 elements (core.rs:986-1009, tree.rs:31-112), at most: the collected `Vec`, the leaves
with their elements, one node of at most 32 children and 32 sizes per 32 leaves on each level, so no more than
one such node for each leaf.  The other sizes are not counted. -/
def fromIterSlots (xs : List α) : Option Nat :=
  if xs.length ≤ ADAPTIVE_INLINE_SIZE then none
  else some (160 + 3 * xs.length + (xs.length / 64 + 1) * (80 + 3 * 64))

/-- `push_back` on a tree (core.rs:648-662).  On an inline vector it is not counted. -/
def pushBackSlots (v : PV α) (value : α) : Option Nat :=
  match v.inner with
  | .inline _ => none
  | .tree tree => some (tree.pushBackSlots value)

/-- `pop_back` on a tree whose tail is not empty (tree.rs:441-453): the new tree.  Otherwise it is not counted. -/
def popBackSlots (v : PV α) : Option Nat :=
  match v.inner with
  | .inline _ => none
  | .tree tree => if tree.tail.isEmpty then none else some tree.slots

/-- `concat` of two trees of the same height, the left one without tail and the right one without head
(core.rs:721-732, tree.rs:297-322): both trees are copied twice (722-723 `ensure_tree`, 298-299), the nodes, the new
tree.  Otherwise it is not counted. -/
def concatSlots (v w : PV α) : Option Nat :=
  match v.inner, w.inner with
  | .tree l, .tree r =>
    if l.tail.isEmpty && r.head.isEmpty && l.height == r.height then
      some (2 * l.slots + 2 * r.slots + Tree.concatNodesSlots l.root r.root + (l.concat r).slots)
    else none
  | _, _ => none

end PV

/-! ## Programs -/

/-- One call.  Every call makes a new version; `k` and `l` are the numbers of versions made before. -/
inductive Instr (α : Type) where
  | fromIter (xs : List α)
  | pushBack (k : Nat) (x : α)
  | pushFront (k : Nat) (x : α)
  | extend (k : Nat) (xs : List α)
  | update (k i : Nat) (x : α)
  | concat (k l : Nat)
  | popBack (k : Nat)
  | popFront (k : Nat)
  | splitLeft (k i : Nat)
  | splitRight (k i : Nat)
  | take (k n : Nat)
  | skip (k n : Nat)
  | insert (k i : Nat) (x : α)
  | remove (k i : Nat)

namespace Instr

/-- Version number `k` (an empty vector if there is no such version). -/
def ver (pool : List (PV α)) (k : Nat) : PV α := pool[k]?.getD PV.new

/-- The new version, with lengths of unlimited size.  A call that returns `None` leaves its vector as the new version. -/
def step (pool : List (PV α)) : Instr α → PV α
  | .fromIter xs => PV.fromIter xs
  | .pushBack k x => (ver pool k).pushBack x
  | .pushFront k x => (ver pool k).pushFront x
  | .extend k xs => (ver pool k).extend xs
  | .update k i x => (ver pool k).update i x
  | .concat k l => (ver pool k).concat (ver pool l)
  | .popBack k => ((ver pool k).popBack.map Prod.fst).getD (ver pool k)
  | .popFront k => ((ver pool k).popFront.map Prod.fst).getD (ver pool k)
  | .splitLeft k i => ((ver pool k).splitAt i).1
  | .splitRight k i => ((ver pool k).splitAt i).2
  | .take k n => (ver pool k).take n
  | .skip k n => (ver pool k).skip n
  | .insert k i x => (ver pool k).insert i x
  | .remove k i => ((ver pool k).remove i).getD (ver pool k)

/-- The same on a machine whose words have `W` values. -/
def stepU (W : Nat) (pool : List (PV α)) : Instr α → Except Overflow (PV α)
  | .pushBack k x => (ver pool k).pushBackU W x
  | .pushFront k x => (ver pool k).pushFrontU W x
  | .extend k xs => (ver pool k).extendU W xs
  | .concat k l => (ver pool k).concatU W (ver pool l)
  | .insert k i x => (ver pool k).insertU W i x
  | .remove k i => do .ok ((← (ver pool k).removeU W i).getD (ver pool k))
  | c => .ok (step pool c)

/-- The number of elements that the call supplies. -/
def supplied : Instr α → Nat
  | .fromIter xs => xs.length
  | .pushBack _ _ => 1
  | .pushFront _ _ => 1
  | .extend _ xs => xs.length
  | .insert _ _ _ => 1
  | _ => 0

/-- Whether the call joins two versions. -/
def joins : Instr α → Bool
  | .concat _ _ => true
  | _ => false

/-- The memory that the call allocates, where it is counted. -/
def memory (pool : List (PV α)) : Instr α → Option Nat
  | .fromIter xs => PV.fromIterSlots xs
  | .pushBack k x => (ver pool k).pushBackSlots x
  | .popBack k => (ver pool k).popBackSlots
  | .concat k l => (ver pool k).concatSlots (ver pool l)
  | _ => none

end Instr

/-- All versions that a program makes. -/
def run : List (PV α) → List (Instr α) → List (PV α)
  | pool, [] => pool
  | pool, c :: prog => run (pool ++ [c.step pool]) prog

/-- All versions that a program makes on a machine, or the panic that ends it. -/
def runU (W : Nat) : List (PV α) → List (Instr α) → Except Overflow (List (PV α))
  | pool, [] => .ok pool
  | pool, c :: prog => do runU W (pool ++ [← c.stepU W pool]) prog

/-- All memory that the calls of a program allocate; nothing is given back. -/
def memory : List (PV α) → List (Instr α) → Option Nat
  | _, [] => some 0
  | pool, c :: prog => do
    let m ← c.memory pool
    let n ← memory (pool ++ [c.step pool]) prog
    some (m + n)

/-- The number of elements that a program supplies. -/
def supplied (prog : List (Instr α)) : Nat := (prog.map Instr.supplied).sum

/-- The number of calls of `concat`. -/
def joins (prog : List (Instr α)) : Nat := prog.countP Instr.joins

end Rustica.PVec
