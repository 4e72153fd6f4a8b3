import Verif.PVec.Core
import Verif.Data.Ord

/-!
# The derived `Ord` and `PartialOrd` of the vector types

`#[derive(PartialOrd, Ord)]` on `PersistentVector` (core.rs:43), `VectorImpl` (core.rs:54), `RRBTree` (tree.rs:16) and
`RRBNode` (node.rs:23): variants by the order of their declaration, then the fields from the first to the last.
`Arc<T>` compares its contents, `usize` and `u32` by value.
-/

namespace Rustica.PVec

variable {α : Type}

mutual
/-- node.rs:23-37 derived `cmp` of `RRBNode`: `Branch` is declared before `Leaf`. -/
def Node.cmp (cmp : α → α → Ordering) : Node α → Node α → Ordering
  | .branch cs s, .branch ds t => cmpThen (Node.cmpL cmp cs ds) (ROrd.cmp s t)
  | .branch _ _, .leaf _ => .lt
  | .leaf _, .branch _ _ => .gt
  | .leaf es, .leaf fs => sliceCmp cmp es fs
/-- `cmp` of the slices of children. -/
def Node.cmpL (cmp : α → α → Ordering) : List (Node α) → List (Node α) → Ordering
  | [], [] => .eq
  | [], _ :: _ => .lt
  | _ :: _, [] => .gt
  | c :: cs, d :: ds => cmpThen (Node.cmp cmp c d) (Node.cmpL cmp cs ds)
end

mutual
/-- node.rs:23-37 derived `partial_cmp` of `RRBNode`. -/
def Node.partialCmp (pc : α → α → Option Ordering) : Node α → Node α → Option Ordering
  | .branch cs s, .branch ds t => partialThen (Node.partialCmpL pc cs ds) (RPartialOrd.partialCmp s t)
  | .branch _ _, .leaf _ => some .lt
  | .leaf _, .branch _ _ => some .gt
  | .leaf es, .leaf fs => slicePartialCmp pc es fs
/-- `partial_cmp` of the slices of children. -/
def Node.partialCmpL (pc : α → α → Option Ordering) : List (Node α) → List (Node α) → Option Ordering
  | [], [] => some .eq
  | [], _ :: _ => some .lt
  | _ :: _, [] => some .gt
  | c :: cs, d :: ds => partialThen (Node.partialCmp pc c d) (Node.partialCmpL pc cs ds)
end

/-- tree.rs:16-28 derived `cmp` of `RRBTree`: root, tail, head, height, len. -/
def Tree.cmp (cmp : α → α → Ordering) (t u : Tree α) : Ordering :=
  cmpThen (t.root.cmp cmp u.root) (cmpThen (sliceCmp cmp t.tail u.tail) (cmpThen (sliceCmp cmp t.head u.head)
    (cmpThen (ROrd.cmp t.height u.height) (ROrd.cmp t.len u.len))))

/-- tree.rs:16-28 derived `partial_cmp` of `RRBTree`. -/
def Tree.partialCmp (pc : α → α → Option Ordering) (t u : Tree α) : Option Ordering :=
  partialThen (t.root.partialCmp pc u.root) (partialThen (slicePartialCmp pc t.tail u.tail)
    (partialThen (slicePartialCmp pc t.head u.head)
      (partialThen (RPartialOrd.partialCmp t.height u.height) (RPartialOrd.partialCmp t.len u.len))))

/-- core.rs:54-62 derived `cmp` of `VectorImpl`: `Inline` is declared before `Tree`. -/
def VectorImpl.cmp (cmp : α → α → Ordering) : VectorImpl α → VectorImpl α → Ordering
  | .inline es, .inline fs => sliceCmp cmp es fs
  | .inline _, .tree _ => .lt
  | .tree _, .inline _ => .gt
  | .tree t, .tree u => t.cmp cmp u

/-- core.rs:54-62 derived `partial_cmp` of `VectorImpl`. -/
def VectorImpl.partialCmp (pc : α → α → Option Ordering) : VectorImpl α → VectorImpl α → Option Ordering
  | .inline es, .inline fs => slicePartialCmp pc es fs
  | .inline _, .tree _ => some .lt
  | .tree _, .inline _ => some .gt
  | .tree t, .tree u => t.partialCmp pc u

/-- core.rs:43-48 derived `cmp` of `PersistentVector`: inner, len, generation. -/
instance [ROrd α] : ROrd (PV α) where
  cmp v w := cmpThen (v.inner.cmp ROrd.cmp w.inner)
    (cmpThen (ROrd.cmp v.len w.len) (ROrd.cmp v.generation w.generation))

/-- core.rs:43-48 derived `partial_cmp` of `PersistentVector`. -/
instance [RPartialOrd α] : RPartialOrd (PV α) where
  partialCmp v w := partialThen (v.inner.partialCmp RPartialOrd.partialCmp w.inner)
    (partialThen (RPartialOrd.partialCmp v.len w.len) (RPartialOrd.partialCmp v.generation w.generation))

end Rustica.PVec
