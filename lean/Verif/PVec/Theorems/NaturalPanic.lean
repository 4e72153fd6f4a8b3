import Verif.PVec.Checked
import Verif.PVec.Theorems.Natural

/-!
# C58: panics do not depend on elements

The functions of `Checked.lean` are the operations with their panics.  Replacing the elements before the call gives the
same panic, or the same result with the elements replaced.
-/

namespace Rustica.PVec

variable {α β : Type}

/-- Apply a function to the result of a call that did not panic. -/
def onOk {A B : Type} (g : A → B) : Except Panic A → Except Panic B
  | .ok a => .ok (g a)
  | .error p => .error p

theorem setC_map (f : α → β) (xs : List α) (i : Nat) (x : α) :
    setC (xs.map f) i (f x) = onOk (List.map f) (setC xs i x) := by
  simp only [setC, List.length_map]; split <;> simp [onOk, List.map_set]

theorem bind_onOk {A B C : Type} (m : Except Panic A) (g : A → B) (k : B → Except Panic C) :
    (onOk g m >>= k) = m >>= fun a => k (g a) := by cases m <;> rfl

theorem onOk_bind {A B C : Type} (m : Except Panic A) (g : B → C) (k : A → Except Panic B) :
    onOk g (m >>= k) = m >>= fun a => onOk g (k a) := by cases m <;> rfl

@[simp] theorem onOk_ok {A B : Type} (g : A → B) (a : A) : onOk g (.ok a) = .ok (g a) := rfl
@[simp] theorem onOk_error {A B : Type} (g : A → B) (p : Panic) : onOk g (.error p) = .error p := rfl

namespace Node

theorem popBackC_over (f : α → β) (n : Node α) : (n.over f).popBackC = onOk (Option.map (both f)) n.popBackC := by
  induction n using induct with
  | hleaf es =>
    simp only [over_leaf, popBackC, List.getLast?_map]
    cases es.getLast? <;> simp [both, List.map_dropLast]
  | hbranch cs s ih =>
    have hL : popBackLastC (cs.map (over f)) = onOk (Option.map (both f)) (popBackLastC cs) := by
      induction cs with
      | nil => simp [popBackLastC]
      | cons c cs ih' =>
        cases cs with
        | nil => simp only [List.map_cons, List.map_nil, popBackLastC]; exact ih c (by simp)
        | cons d ds =>
          have := ih' fun e he => ih e (by simp only [List.mem_cons] at he ⊢; exact .inr he)
          simpa only [List.map_cons, popBackLastC] using this
    simp only [over_branch, popBackC, hL, bind_onOk, onOk_bind]
    congr 1; funext r
    cases r with
    | none => rfl
    | some p =>
      simp only [Option.map_some, both, size_over, List.length_map]
      split
      · simp only [← List.map_dropLast, List.isEmpty_map, onOk_bind]
        congr 1; funext sz
        split <;> simp [both]
      · simp [both, List.map_set]

theorem popFrontC_over (f : α → β) (n : Node α) : (n.over f).popFrontC = onOk (Option.map (both f)) n.popFrontC := by
  induction n using induct with
  | hleaf es => cases es <;> simp [popFrontC, both]
  | hbranch cs s ih =>
    cases cs with
    | nil => simp [popFrontC]
    | cons c cs =>
      simp only [over_branch, List.map_cons, popFrontC, ih c (by simp), bind_onOk, onOk_bind]
      congr 1; funext r
      cases r with
      | none => rfl
      | some p =>
        simp only [Option.map_some, both, size_over]
        split
        · simp only [List.isEmpty_map, onOk_bind]
          congr 1; funext sz
          split <;> simp [both]
        · simp [both]

end Node

namespace Tree

@[simp] theorem treeSizeC_over (f : α → β) (t : Tree α) : (t.over f).treeSizeC = t.treeSizeC := by
  simp [treeSizeC]

theorem getC_over (f : α → β) (t : Tree α) (i : Nat) : (t.over f).getC i = onOk (Option.map f) (t.getC i) := by
  simp only [getC, len_over, head_over, List.length_map, treeSizeC_over, tail_over, getFromTree, root_over,
    height_over, getFromNode_over, List.getElem?_map]
  split
  · rfl
  · split
    · rfl
    · simp only [onOk_bind]
      congr 1; funext a; congr 1; funext b
      split
      · rfl
      · simp only [onOk_bind]; rfl

theorem updateC_over (f : α → β) (t : Tree α) (i : Nat) (x : α) :
    (t.over f).updateC i (f x) = onOk (over f) (t.updateC i x) := by
  simp only [updateC, len_over, head_over, List.length_map, treeSizeC_over, tail_over, root_over, Node.update_over,
    setC_map, bind_onOk]
  split
  · rfl
  · split
    · simp only [onOk_bind]; rfl
    · simp only [onOk_bind]
      congr 1; funext a; congr 1; funext b
      split
      · rfl
      · simp only [onOk_bind]
        congr 1; funext c
        split
        · simp only [onOk_bind]; rfl
        · rfl

theorem popFromTreeC_over (f : α → β) (t : Tree α) :
    (t.over f).popFromTreeC = onOk (Option.map (both f)) t.popFromTreeC := by
  simp only [popFromTreeC, len_over, tail_over, List.length_map, root_over, Node.get_over, Node.popBackC_over,
    height_over, head_over]
  split
  · rfl
  · simp only [onOk_bind]
    congr 1; funext a
    split
    · rfl
    · simp only [onOk_bind]
      congr 1; funext b
      cases t.root.get b with
      | none => rfl
      | some x =>
        simp only [Option.map_some]
        split
        · cases subC t.len 1 <;> rfl
        · simp only [bind_onOk]
          cases t.root.popBackC with
          | error p => rfl
          | ok r => cases r <;> cases subC t.len 1 <;> rfl

theorem popBackC_over (f : α → β) (t : Tree α) : (t.over f).popBackC = onOk (Option.map (both f)) t.popBackC := by
  simp only [popBackC, len_over, tail_over, List.getLast?_map, popFromTreeC_over]
  split
  · rfl
  · cases t.tail.getLast? with
    | none => rfl
    | some x => simp only [Option.map_some, onOk_bind, onOk_ok, both, over, List.map_dropLast]

theorem popFrontFromTailC_over (f : α → β) (t : Tree α) :
    (t.over f).popFrontFromTailC = onOk (Option.map (both f)) t.popFrontFromTailC := by
  simp only [popFrontFromTailC, tail_over, ← List.map_reverse, List.getLast?_map, len_over]
  cases t.tail.reverse.getLast? with
  | none => rfl
  | some x => simp only [Option.map_some, onOk_bind, onOk_ok, both, over, List.map_dropLast]; rfl

theorem popFrontFromTreeC_over (f : α → β) (t : Tree α) :
    (t.over f).popFrontFromTreeC = onOk (Option.map (both f)) t.popFrontFromTreeC := by
  simp only [popFrontFromTreeC, treeSizeC_over, root_over, Node.popFrontC_over, popFrontFromTailC_over, len_over,
    onOk_bind, bind_onOk]
  congr 1; funext a
  split
  · simp only [onOk_bind]
    congr 1; funext r
    cases r with
    | none => rfl
    | some p => simp only [Option.map_some, onOk_bind]; rfl
  · rfl

theorem popFrontC_over (f : α → β) (t : Tree α) : (t.over f).popFrontC = onOk (Option.map (both f)) t.popFrontC := by
  simp only [popFrontC, len_over, head_over, popFrontFromTreeC_over]
  split
  · rfl
  · cases t.head with
    | nil => rfl
    | cons x xs => simp only [List.map_cons, onOk_bind]; rfl

theorem splitAtC_over (f : α → β) (t : Tree α) (i : Nat) :
    (t.over f).splitAtC i = onOk (fun p => (p.1.over f, p.2.over f)) (t.splitAtC i) := by
  simp only [splitAtC, len_over, head_over, List.length_map, treeSizeC_over, splitTreeAt, root_over, height_over,
    findPath_over, splitAlongPath_over, tail_over, ← List.map_take, ← List.map_drop]
  split
  · simp [empty, over]
  · split
    · simp [empty, over]
    · split
      · simp [fromHead, fromHeadAndTreeAndTail, over]
      · simp only [onOk_bind]
        congr 1; funext a
        split
        · simp only [onOk_bind]
          congr 1; funext b; congr 1; funext c
          simp [fromTail, fromHeadAndTreeAndTail, over]
        · simp only [onOk_bind]
          congr 1; funext b
          simp [fromHeadAndRoot, fromRootAndTail, over]

end Tree

namespace PV

theorem getC_over (f : α → β) (v : PV α) (i : Nat) : (v.over f).getC i = onOk (Option.map f) (v.getC i) := by
  rcases v with ⟨inner, len, gen⟩
  by_cases h : len ≤ i
  · simp [getC, over, h]
  · cases inner <;> simp [getC, over, h, Tree.getC_over]

theorem updateC_over (f : α → β) (v : PV α) (i : Nat) (x : α) :
    (v.over f).updateC i (f x) = onOk (over f) (v.updateC i x) := by
  rcases v with ⟨inner, len, gen⟩
  by_cases h : len ≤ i
  · simp [updateC, over, h]
  · cases inner <;> simp [updateC, over, h, Tree.updateC_over, setC_map, bind_onOk, onOk_bind]

theorem popBackC_over (f : α → β) (v : PV α) : (v.over f).popBackC = onOk (Option.map (both f)) v.popBackC := by
  rcases v with ⟨inner, len, gen⟩
  by_cases h : len = 0
  · simp [popBackC, isEmpty, over, h]
  · cases inner with
    | inline es =>
      simp only [popBackC, isEmpty, over, beq_iff_eq, h, if_false, List.getLast?_map]
      cases es.getLast? with
      | none => rfl
      | some x => simp [both, over, onOk_bind, List.map_dropLast]
    | tree t =>
      simp only [popBackC, isEmpty, over, beq_iff_eq, h, if_false, Tree.popBackC_over, bind_onOk, onOk_bind]
      congr 1; funext r
      cases r with
      | none => rfl
      | some p => simp only [Option.map_some, onOk_bind]; rfl

theorem popFrontC_over (f : α → β) (v : PV α) : (v.over f).popFrontC = onOk (Option.map (both f)) v.popFrontC := by
  rcases v with ⟨inner, len, gen⟩
  by_cases h : len = 0
  · simp [popFrontC, isEmpty, over, h]
  · cases inner with
    | inline es =>
      cases es with
      | nil => simp [popFrontC, isEmpty, over, h]
      | cons e es => simp [popFrontC, isEmpty, over, h, both, onOk_bind]
    | tree t =>
      simp only [popFrontC, isEmpty, over, beq_iff_eq, h, if_false, Tree.popFrontC_over, bind_onOk, onOk_bind]
      congr 1; funext r
      cases r with
      | none => rfl
      | some p => simp only [Option.map_some, onOk_bind]; rfl

theorem splitAtC_over (f : α → β) (v : PV α) (i : Nat) :
    (v.over f).splitAtC i = onOk (fun p => (p.1.over f, p.2.over f)) (v.splitAtC i) := by
  rcases v with ⟨inner, len, gen⟩
  by_cases h : len ≤ i
  · simp [splitAtC, new, over, h]
  · by_cases h0 : i = 0
    · subst h0
      simp [splitAtC, new, over, h]
    · cases inner <;> simp [splitAtC, over, h, h0, Tree.splitAtC_over, bind_onOk, onOk_bind]

theorem takeC_over (f : α → β) (v : PV α) (n : Nat) : (v.over f).takeC n = onOk (over f) (v.takeC n) := by
  simp only [takeC, len_over, splitAtC_over, bind_onOk]
  split
  · rfl
  · simp only [onOk_bind]; rfl

theorem skipC_over (f : α → β) (v : PV α) (n : Nat) : (v.over f).skipC n = onOk (over f) (v.skipC n) := by
  simp only [skipC, len_over, splitAtC_over, bind_onOk]
  split
  · rfl
  · simp only [onOk_bind]; rfl

/-- C58: replacing the elements changes neither whether a call panics nor how. -/
theorem c58_elements (f : α → β) (v : PV α) (i : Nat) (x : α) :
    (v.over f).getC i = onOk (Option.map f) (v.getC i) ∧
    (v.over f).lastC = onOk (Option.map f) v.lastC ∧
    (v.over f).updateC i (f x) = onOk (over f) (v.updateC i x) ∧
    (v.over f).popBackC = onOk (Option.map fun p => (p.1.over f, f p.2)) v.popBackC ∧
    (v.over f).popFrontC = onOk (Option.map fun p => (p.1.over f, f p.2)) v.popFrontC ∧
    (v.over f).splitAtC i = onOk (fun p => (p.1.over f, p.2.over f)) (v.splitAtC i) ∧
    (v.over f).takeC i = onOk (over f) (v.takeC i) ∧
    (v.over f).skipC i = onOk (over f) (v.skipC i) ∧
    (v.over f).insertC i (f x) = onOk (over f) (v.insertC i x) ∧
    (v.over f).removeC i = onOk (Option.map (over f)) (v.removeC i) := by
  refine ⟨getC_over f v i, ?_, updateC_over f v i x, popBackC_over f v, popFrontC_over f v, splitAtC_over f v i,
    takeC_over f v i, skipC_over f v i, ?_, ?_⟩
  · simp only [lastC, len_over, getC_over]
    split
    · simp only [onOk_bind]
    · rfl
  · simp only [insertC, len_over, splitAtC_over, bind_onOk, pushBack_over, pushFront_over, concat_over]
    split
    · rfl
    · split
      · rfl
      · simp only [onOk_bind]; rfl
  · simp only [removeC, len_over, splitAtC_over, bind_onOk, skipC_over, concat_over]
    split
    · rfl
    · split
      · rfl
      · simp only [onOk_bind]; rfl

/-- The reachable vector `broken` panics with any elements, a good one with none. -/
example : (match (broken.over (· + 1)).getC 3 with | .error .subOverflow => true | _ => false) = true ∧
    ((fromIter (List.range 100)).over (· + 1)).popBackC.toOption.map (·.map (·.2)) = some (some 100) := by
  constructor <;> decide +kernel

end PV
end Rustica.PVec
