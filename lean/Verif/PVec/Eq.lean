import Verif.PVec.Core

/-!
# Derived `PartialEq` of the vector types

`#[derive(PartialEq)]` on `PersistentVector` (core.rs:43), `VectorImpl` (core.rs:54),
`RRBTree` (tree.rs:16) and `RRBNode` (node.rs:23): fields are compared in the order of their
declaration; different variants are different.  The derived `Ord` is in `PVec/Ord`.  `Arc<T>` compares its contents.
-/

namespace Rustica.PVec

variable {α : Type}

/-- Slice equality: same length, elements pairwise equal. -/
def listEq (eq : α → α → Bool) : List α → List α → Bool
  | [], [] => true
  | a :: as, b :: bs => eq a b && listEq eq as bs
  | _, _ => false

mutual
/-- node.rs:23 derived `==` of `RRBNode`. -/
def Node.beq (eq : α → α → Bool) : Node α → Node α → Bool
  | .leaf es, .leaf fs => listEq eq es fs
  | .branch cs s, .branch ds t => Node.beqL eq cs ds && decide (s = t)
  | _, _ => false
/-- Pairwise comparison of the children. -/
def Node.beqL (eq : α → α → Bool) : List (Node α) → List (Node α) → Bool
  | [], [] => true
  | c :: cs, d :: ds => Node.beq eq c d && Node.beqL eq cs ds
  | _, _ => false
end

/-- tree.rs:16 derived `==` of `RRBTree`: root, tail, head, height, len. -/
def Tree.beq (eq : α → α → Bool) (t u : Tree α) : Bool :=
  t.root.beq eq u.root && listEq eq t.tail u.tail && listEq eq t.head u.head &&
  decide (t.height = u.height) && decide (t.len = u.len)

/-- core.rs:43, 54 derived `==` of `PersistentVector`: inner, len, generation. -/
def PV.beq (eq : α → α → Bool) (v w : PV α) : Bool :=
  (match v.inner, w.inner with
   | .inline es, .inline fs => listEq eq es fs
   | .tree t, .tree u => t.beq eq u
   | _, _ => false) &&
  decide (v.len = w.len) && decide (v.generation = w.generation)

end Rustica.PVec
