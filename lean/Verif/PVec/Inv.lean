import Verif.PVec.Core

/-!
# Abstraction function and representation invariant of the persistent vector

These definitions are not part of the Rust code.  `flat`/`toList`/`abs` say which
sequence a representation stands for; `Sized`/`WF` are the representation
invariants that the proofs maintain.
-/

namespace Rustica.PVec

variable {α β : Type}

namespace Node

/-- Induction over nodes with a hypothesis for every child. -/
theorem induct {P : Node α → Prop} (hleaf : ∀ es, P (.leaf es))
    (hbranch : ∀ cs s, (∀ c ∈ cs, P c) → P (.branch cs s)) (n : Node α) : P n :=
  Node.rec (motive_1 := P) (motive_2 := fun cs => ∀ c ∈ cs, P c)
    hleaf (fun cs s ih => hbranch cs s ih)
    (fun _ h => by cases h)
    (fun c cs hc hcs c' h => by
      cases h with
      | head => exact hc
      | tail _ h => exact hcs c' h)
    n

mutual
/-- The sequence of elements stored below a node, left to right. -/
def flat : Node α → List α
  | .leaf es => es
  | .branch cs _ => flatL cs
/-- The elements stored below a list of nodes, left to right. -/
def flatL : List (Node α) → List α
  | [] => []
  | c :: cs => flat c ++ flatL cs
end

mutual
/-- Every branch has children and an accurate size table. -/
def Sized : Node α → Prop
  | .leaf _ => True
  | .branch cs s => cs ≠ [] ∧ s = some (cs.map fun c => (flat c).length) ∧ SizedL cs
/-- All nodes of a list are `Sized`. -/
def SizedL : List (Node α) → Prop
  | [] => True
  | c :: cs => Sized c ∧ SizedL cs
end

mutual
/-- The elements of the rightmost leaf. -/
def lastLeaf : Node α → List α
  | .leaf es => es
  | .branch cs _ => lastLeafL cs
/-- The elements of the rightmost leaf of the last node of a list. -/
def lastLeafL : List (Node α) → List α
  | [] => []
  | [c] => lastLeaf c
  | _ :: c :: cs => lastLeafL (c :: cs)
end

/-- The elements of the leftmost leaf. -/
def firstLeaf : Node α → List α
  | .leaf es => es
  | .branch cs _ =>
    match cs with
    | [] => []
    | c :: _ => firstLeaf c

mutual
/-- Longest path from a node to a leaf. -/
def depth : Node α → Nat
  | .leaf _ => 0
  | .branch cs _ => 1 + depthL cs
/-- Largest depth in a list of nodes. -/
def depthL : List (Node α) → Nat
  | [] => 0
  | c :: cs => max (depth c) (depthL cs)
end

end Node

/-- The sequence a tree stands for. -/
def Tree.toList (t : Tree α) : List α := t.head ++ t.root.flat ++ t.tail

/-- Well-formed trees: accurate size tables and recorded length. -/
structure Tree.WF (t : Tree α) : Prop where
  sized : t.root.Sized
  len : t.len = t.head.length + t.root.flat.length + t.tail.length

/-- The sequence a vector stands for. -/
def PV.abs (v : PV α) : List α :=
  match v.inner with
  | .inline es => es
  | .tree t => t.toList

/-- Well-formed vectors: the recorded length is the number of elements stored. -/
def PV.WF (v : PV α) : Prop :=
  match v.inner with
  | .inline es => v.len = es.length ∧ es.length ≤ ADAPTIVE_INLINE_SIZE
  | .tree t => t.WF ∧ v.len = t.len

end Rustica.PVec
