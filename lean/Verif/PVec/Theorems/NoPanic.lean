import Verif.PVec.Checked
import Verif.PVec.Theorems.Reach

/-!
# C58: do the operations panic?

`Checked.lean` repeats the operations with panics explicit.  A history that uses `pop_back` after
other operations can produce a vector whose `get` panics (`c58_no_panic_false`).  Every history
without `pop_back` (and every `Sound` one) is panic-free, for every operation that may follow,
including `pop_back` (`c58_no_panic_partial`).
-/

namespace Rustica.PVec

variable {α : Type}

theorem subC_ok {a b : Nat} (h : b ≤ a) : subC a b = .ok (a - b) := by simp [subC, h]

theorem ok_bind {β γ : Type} (a : β) (f : β → Except Panic γ) : (Except.ok a >>= f) = f a := rfl

namespace Node

theorem popBackLastC_append (pre : List (Node α)) (c : Node α) :
    popBackLastC (pre ++ [c]) = popBackC c := by
  induction pre with
  | nil => simp [popBackLastC]
  | cons p pre ih =>
    cases pre with
    | nil => simp [popBackLastC]
    | cons q pre => simpa [popBackLastC] using ih

theorem removalC_ok {s : List Nat} (h : s ≠ []) (i : Nat) :
    updateSizeTableAfterRemovalC (some s) i = .ok (updateSizeTableAfterRemoval (some s) i) := by
  cases s with
  | nil => exact absurd rfl h
  | cons a s => rfl

theorem popBackC_eq (n : Node α) : n.Sized → n.popBackC = .ok n.popBack := by
  induction n using induct with
  | hleaf es =>
    intro _
    simp only [popBackC, popBack]
    cases es.getLast? <;> rfl
  | hbranch cs s ih =>
    intro hs
    obtain ⟨hne, rfl, hc⟩ := (sized_branch _ _).1 hs
    obtain ⟨pre, c, rfl⟩ := exists_eq_append_singleton hne
    have hi := ih c (by simp) (hc c (by simp))
    have ht : ((pre ++ [c]).map flen) ≠ [] := by simp
    simp only [popBackC, popBack, popBackLastC_append, popBackLast_append, hi, removalC_ok ht, ok_bind]
    cases c.popBack with
    | none => rfl
    | some p =>
      obtain ⟨n', x⟩ := p
      by_cases h1 : n'.calculateSize = 0 <;> by_cases h2 : (pre ++ [c]).dropLast.isEmpty = true <;>
        simp only [h1, h2, if_true, if_false, Bool.false_eq_true]

theorem popFrontC_eq (n : Node α) : n.Sized → n.popFrontC = .ok n.popFront := by
  induction n using induct with
  | hleaf es =>
    intro _
    cases es <;> simp [popFrontC, popFront]
  | hbranch cs s ih =>
    intro hs
    obtain ⟨hne, rfl, hc⟩ := (sized_branch _ _).1 hs
    cases cs with
    | nil => exact absurd rfl hne
    | cons c cs =>
      have hi := ih c (by simp) (hc c (by simp))
      have ht : ((c :: cs).map flen) ≠ [] := by simp
      simp only [popFrontC, popFront, hi, removalC_ok ht, ok_bind]
      cases c.popFront with
      | none => rfl
      | some p =>
        obtain ⟨n', x⟩ := p
        by_cases h1 : n'.calculateSize = 0 <;> by_cases h2 : cs.isEmpty = true <;>
          simp only [h1, h2, if_true, if_false, Bool.false_eq_true]

end Node

namespace Tree

/-- The two buffers fit into the recorded length, and size tables are accurate. -/
structure Fits (t : Tree α) : Prop where
  sized : t.root.Sized
  fits : t.head.length + t.tail.length ≤ t.len

theorem WF.toFits {t : Tree α} (h : t.WF) : t.Fits := ⟨h.sized, by have := h.len; omega⟩

theorem treeSizeC_ok {t : Tree α} (h : t.head.length + t.tail.length ≤ t.len) :
    t.treeSizeC = .ok t.treeSize := by
  simp only [treeSizeC, subC_ok (show t.head.length ≤ t.len by omega)]
  show subC _ _ = _
  rw [subC_ok (by omega)]; rfl

theorem getC_ok {t : Tree α} (h : t.Fits) (i : Nat) : t.getC i = .ok (t.get i) := by
  simp only [getC, get]
  split
  · rfl
  · split
    · rfl
    · rw [subC_ok (by omega), treeSizeC_ok h.fits]
      show (if i - t.head.length < t.treeSize then _ else _) = _
      split
      · rfl
      · rw [subC_ok (by omega)]; rfl

theorem updateC_ok {t : Tree α} (h : t.Fits) (i : Nat) (x : α) :
    t.updateC i x = .ok (t.update i x) := by
  simp only [updateC, update]
  split
  · rfl
  · split
    · rename_i hi; simp only [setC, if_pos hi]; rfl
    · rw [subC_ok (by omega), treeSizeC_ok h.fits]
      show (if i - t.head.length < t.treeSize then _ else _) = _
      split
      · rfl
      · rw [subC_ok (by omega)]
        show (if i - t.head.length - t.treeSize < t.tail.length then _ else _) = _
        split
        · rename_i hi; simp only [setC, if_pos hi]; rfl
        · rfl

theorem popFromTreeC_ok {t : Tree α} (h : t.Fits) : t.popFromTreeC = .ok t.popFromTree := by
  have hf := h.fits
  simp only [popFromTreeC, popFromTree]
  by_cases h0 : t.len = 0
  · simp only [h0, if_true]
  · simp only [h0, if_false, subC_ok (show t.tail.length ≤ t.len by omega), ok_bind]
    by_cases h1 : t.len - t.tail.length = 0
    · simp only [h1, if_true]
    · simp only [h1, if_false, subC_ok (show 1 ≤ t.len - t.tail.length by omega), ok_bind,
        Node.popBackC_eq _ h.sized, subC_ok (show 1 ≤ t.len by omega)]
      cases t.root.get (t.len - t.tail.length - 1) with
      | none => rfl
      | some y =>
        by_cases h2 : t.len - t.tail.length = 1
        · simp only [h2, if_true]
        · simp only [h2, if_false]
          cases t.root.popBack with
          | none => rfl
          | some p => rfl

theorem popBackC_ok {t : Tree α} (h : t.Fits) : t.popBackC = .ok t.popBack := by
  simp only [popBackC, popBack]
  by_cases h0 : t.len = 0
  · simp only [h0, if_true]
  · simp only [h0, if_false, subC_ok (show 1 ≤ t.len by omega), ok_bind]
    cases t.tail.getLast? with
    | some y => rfl
    | none => exact popFromTreeC_ok h

theorem popFrontFromTailC_ok {t : Tree α} (h0 : t.len ≠ 0) :
    t.popFrontFromTailC = .ok t.popFrontFromTail := by
  simp only [popFrontFromTailC, popFrontFromTail, subC_ok (show 1 ≤ t.len by omega), ok_bind]
  cases t.tail.reverse.getLast? <;> rfl

theorem popFrontC_ok {t : Tree α} (h : t.Fits) : t.popFrontC = .ok t.popFront := by
  have hf := h.fits
  simp only [popFrontC, popFront]
  by_cases h0 : t.len = 0
  · simp only [h0, if_true]
  · have ht : t.popFrontFromTreeC = .ok t.popFrontFromTree := by
      simp only [popFrontFromTreeC, popFrontFromTree, treeSizeC_ok hf, ok_bind,
        Node.popFrontC_eq _ h.sized, subC_ok (show 1 ≤ t.len by omega), popFrontFromTailC_ok h0]
      cases t.root.popFront <;> by_cases h1 : t.treeSize > 0 <;> simp only [h1, if_true, if_false]
    simp only [h0, if_false, subC_ok (show 1 ≤ t.len by omega), ok_bind, ht]
    cases t.head <;> rfl

theorem splitAtC_ok {t : Tree α} (h : t.Fits) (i : Nat) : t.splitAtC i = .ok (t.splitAt i) := by
  simp only [splitAtC, splitAt]
  split
  · rfl
  · split
    · rfl
    · split
      · rfl
      · rw [treeSizeC_ok h.fits]
        show (if i ≥ t.head.length + t.treeSize then _ else _) = _
        split
        · rw [subC_ok (show t.head.length ≤ i by omega)]
          show (do let a ← subC (i - t.head.length) t.treeSize; _) = _
          rw [subC_ok (by omega)]; rfl
        · rw [subC_ok (by omega)]; rfl

theorem splitAt_wf {t : Tree α} (h : t.root.Sized) (i : Nat) (h0 : i ≠ 0) (h1 : i < t.len) :
    (t.splitAt i).1.WF ∧ (t.splitAt i).2.WF := by
  have hsp := splitAlongPath_sized t.root h (findPath t.root t.height (i - t.head.length))
    (i - t.head.length) t.height
  have e0 : (Node.leaf ([] : List α)).flat = [] := rfl
  simp only [splitAt, h0, if_false, show ¬ i ≥ t.len by omega]
  split
  · exact ⟨⟨leaf_sized _, by simp [fromHead]⟩,
      ⟨h, by simp [fromHeadAndTreeAndTail, Node.calculateSize_eq h]⟩⟩
  · split
    · exact ⟨⟨h, by simp [fromHeadAndTreeAndTail, Node.calculateSize_eq h]⟩,
        ⟨leaf_sized _, by simp [fromTail]⟩⟩
    · exact ⟨⟨hsp.1, by simp [fromHeadAndRoot, splitTreeAt, Node.calculateSize_eq hsp.1]⟩,
        ⟨hsp.2, by simp [fromRootAndTail, splitTreeAt, Node.calculateSize_eq hsp.2]⟩⟩

theorem Fits.pushBack {t : Tree α} (h : t.Fits) (x : α) : (t.pushBack x).Fits := by
  have hf := h.fits
  refine ⟨pushBack_sized h.sized x, ?_⟩
  simp only [Tree.pushBack]
  split
  · simp; omega
  · simp only [pushTailToTree]
    split <;> simp <;> omega

theorem Fits.pushFront {t : Tree α} (h : t.Fits) (x : α) : (t.pushFront x).Fits := by
  have hf := h.fits
  refine ⟨pushFront_sized h.sized x, ?_⟩
  simp only [Tree.pushFront]
  split
  · simp; omega
  · simp only [pushHeadToTree]
    split <;> simp <;> omega

theorem Fits.update {t : Tree α} (h : t.Fits) (i : Nat) (x : α) : (t.update i x).Fits := by
  have hf := h.fits
  refine ⟨update_sized h.sized i x, ?_⟩
  simp only [Tree.update]
  split
  · exact hf
  · split
    · simpa using hf
    · split
      · exact hf
      · simp only
        split <;> simpa using hf

theorem fits_concatSame {a b : Tree α} (ha : a.Fits) (hb : b.Fits) : (a.concatSameHeight b).Fits := by
  have h1 := ha.fits
  have h2 := hb.fits
  refine ⟨concatSame_sized ha.sized hb.sized, ?_⟩
  simp only [concatSameHeight, pushTailToTree, pushHeadToTree]
  have e1 : (if !a.tail.isEmpty then (if a.tail.isEmpty then a else
      ⟨a.root.pushLeaf (.leaf a.tail), [], a.head, calculateHeight (a.root.pushLeaf (.leaf a.tail)),
        a.len⟩) else a).head = a.head := by
    split
    · split <;> rfl
    · rfl
  have e2 : (if !b.head.isEmpty then (if b.head.isEmpty then b else
      ⟨b.root.pushFrontLeaf (.leaf b.head), b.tail, [],
        calculateHeight (b.root.pushFrontLeaf (.leaf b.head)), b.len⟩) else b).tail = b.tail := by
    split
    · split <;> rfl
    · rfl
  rw [e1, e2]; omega

theorem fits_elevate {t : Tree α} (h : t.Fits) (k : Nat) : (elevateTree t k).Fits :=
  ⟨(elevateRoot_spec _ _ h.sized).1, h.fits⟩

theorem Fits.concat {a b : Tree α} (ha : a.Fits) (hb : b.Fits) : (a.concat b).Fits := by
  simp only [Tree.concat, concatDifferentHeight]
  split
  · exact hb
  · split
    · exact ha
    · split
      · exact fits_concatSame ha hb
      · split
        · simp only [Bool.false_eq_true, if_false]
          exact fits_concatSame (fits_elevate hb _) ha
        · simp only [if_true]
          exact fits_concatSame ha (fits_elevate hb _)

theorem Fits.popFront {t t' : Tree α} {x : α} (h : t.Fits) (hp : t.popFront = some (t', x)) :
    t'.Fits := by
  refine ⟨popFront_sized h.sized hp, ?_⟩
  have hf := h.fits
  have htail : t.head = [] → ∀ t' x, t.popFrontFromTail = some (t', x) →
      t'.head.length + t'.tail.length ≤ t'.len := by
    intro hh t' x hp
    simp only [popFrontFromTail] at hp
    split at hp
    · simp only [Option.some.injEq, Prod.mk.injEq] at hp
      obtain ⟨rfl, _⟩ := hp
      simp; simp [hh] at hf; omega
    · cases hp
  simp only [Tree.popFront] at hp
  split at hp
  · cases hp
  · split at hp
    · rename_i y ys hh
      simp only [Option.some.injEq, Prod.mk.injEq] at hp
      obtain ⟨rfl, _⟩ := hp
      simp [hh] at hf ⊢; omega
    · rename_i hh
      simp only [popFrontFromTree] at hp
      split at hp
      · rename_i hts
        split at hp
        · simp only [Option.some.injEq, Prod.mk.injEq] at hp
          obtain ⟨rfl, _⟩ := hp
          simp only [treeSize] at hts
          simp [hh] at hf hts ⊢; omega
        · exact htail hh _ _ hp
      · exact htail hh _ _ hp

/-- `pop_back` keeps the lengths compatible unless the suffix buffer is empty and the prefix
buffer already is as long as the recorded length. -/
theorem Fits.popBack {t t' : Tree α} {x : α} (h : t.Fits)
    (hg : t.tail ≠ [] ∨ t.head.length < t.len) (hp : t.popBack = some (t', x)) : t'.Fits := by
  refine ⟨popBack_sized h.sized hp, ?_⟩
  have hf := h.fits
  simp only [Tree.popBack] at hp
  split at hp
  · cases hp
  · split at hp
    · rename_i y hy
      have hne : t.tail ≠ [] := by intro e; simp [e] at hy
      have := List.length_pos_iff.2 hne
      simp only [Option.some.injEq, Prod.mk.injEq] at hp
      obtain ⟨rfl, _⟩ := hp
      simp; omega
    · rename_i hy
      have ht : t.tail = [] := List.getLast?_eq_none_iff.1 hy
      have hlt : t.head.length < t.len := by
        rcases hg with hg | hg
        · exact absurd ht hg
        · exact hg
      simp only [popFromTree] at hp
      split at hp
      · cases hp
      · split at hp
        · cases hp
        · split at hp
          · cases hp
          · simp only [Option.some.injEq, Prod.mk.injEq] at hp
            obtain ⟨rfl, _⟩ := hp
            simp [ht]; omega

end Tree

namespace PV

/-- Invariant of the panic-free histories. -/
def Fits (v : PV α) : Prop :=
  match v.inner with
  | .inline es => v.len = es.length ∧ es.length ≤ ADAPTIVE_INLINE_SIZE
  | .tree t => t.Fits

theorem WF.toFits {v : PV α} (h : v.WF) : v.Fits := by
  unfold WF at h; unfold Fits
  split at h
  · rename_i es he; rw [he]; exact h
  · rename_i t he; rw [he]; exact h.1.toFits

theorem Fits.pushBack {v : PV α} (h : v.Fits) (x : α) : (v.pushBack x).Fits := by
  unfold Fits at h
  unfold PV.pushBack
  split
  · rename_i es he
    rw [he] at h
    split
    · rename_i hlt; exact ⟨by simp [h.1], by simp; omega⟩
    · simp only [transitionToTree, he, treePushBack]
      exact (Tree.fromElements_spec es).1.toFits.pushBack x
  · rename_i t he
    rw [he] at h
    simp only [treePushBack, he]
    exact Tree.Fits.pushBack h x

theorem Fits.pushFront {v : PV α} (h : v.Fits) (x : α) : (v.pushFront x).Fits := by
  unfold Fits at h
  unfold PV.pushFront
  split
  · rename_i es he
    rw [he] at h
    split
    · rename_i hlt; exact ⟨by simp [h.1], by simp; omega⟩
    · simp only [transitionToTree, he, treePushFront]
      exact (Tree.fromElements_spec es).1.toFits.pushFront x
  · rename_i t he
    rw [he] at h
    simp only [treePushFront, he]
    exact Tree.Fits.pushFront h x

theorem Fits.extend {v : PV α} (h : v.Fits) (xs : List α) : (v.extend xs).Fits := by
  unfold PV.extend
  induction xs generalizing v with
  | nil => exact h
  | cons x xs ih => exact ih (h.pushBack x)

theorem Fits.update {v : PV α} (h : v.Fits) (i : Nat) (x : α) : (v.update i x).Fits := by
  unfold PV.update
  split
  · exact h
  · unfold Fits at h
    split
    · rename_i es he; rw [he] at h; exact ⟨by simp [h.1], by simpa using h.2⟩
    · rename_i t he; rw [he] at h; exact Tree.Fits.update h i x

theorem Fits.concat {a b : PV α} (ha : a.Fits) (hb : b.Fits) : (a.concat b).Fits := by
  unfold Fits at ha hb
  unfold PV.concat
  split
  · exact (fromIter_spec _).1.toFits
  · rename_i es t e1 e2; rw [e2] at hb
    exact Tree.Fits.concat (Tree.fromElements_spec es).1.toFits hb
  · rename_i t es e1 e2; rw [e1] at ha
    exact Tree.Fits.concat ha (Tree.fromElements_spec es).1.toFits
  · rename_i t u e1 e2; rw [e1] at ha; rw [e2] at hb
    exact Tree.Fits.concat ha hb

theorem Fits.popFront {v w : PV α} {x : α} (h : v.Fits) (hp : v.popFront = some (w, x)) : w.Fits := by
  unfold PV.popFront at hp
  split at hp
  · cases hp
  · unfold Fits at h
    split at hp
    · rename_i es he
      rw [he] at h
      split at hp
      · simp only [Option.some.injEq, Prod.mk.injEq] at hp
        obtain ⟨rfl, _⟩ := hp
        have := h.2
        simp only [List.length_cons] at this
        exact ⟨by simp [h.1], by omega⟩
      · cases hp
    · rename_i t he
      rw [he] at h
      simp only [Option.map_eq_some_iff, Prod.mk.injEq] at hp
      obtain ⟨⟨t', y⟩, e, rfl, _⟩ := hp
      exact Tree.Fits.popFront h e

theorem Fits.popBack {v w : PV α} {x : α} (h : v.Fits)
    (hg : ∀ t, v.inner = .tree t → t.tail ≠ [] ∨ t.head.length < t.len)
    (hp : v.popBack = some (w, x)) : w.Fits := by
  unfold PV.popBack at hp
  split at hp
  · cases hp
  · unfold Fits at h
    split at hp
    · rename_i es he
      rw [he] at h
      split at hp
      · simp only [Option.some.injEq, Prod.mk.injEq] at hp
        obtain ⟨rfl, _⟩ := hp
        have := h.2
        exact ⟨by simp [h.1], by simp; omega⟩
      · cases hp
    · rename_i t he
      rw [he] at h
      simp only [Option.map_eq_some_iff, Prod.mk.injEq] at hp
      obtain ⟨⟨t', y⟩, e, rfl, _⟩ := hp
      exact Tree.Fits.popBack h (hg t he) e

theorem fits_new : (new : PV α).Fits := wf_new.toFits

theorem Fits.splitAt {v : PV α} (h : v.Fits) (i : Nat) :
    (v.splitAt i).1.Fits ∧ (v.splitAt i).2.Fits := by
  unfold PV.splitAt
  split
  · exact ⟨h, fits_new⟩
  · split
    · exact ⟨fits_new, h⟩
    · unfold Fits at h
      rename_i hlt h0
      split
      · rename_i es he
        rw [he] at h
        refine ⟨⟨?_, ?_⟩, ?_, ?_⟩
        all_goals simp only [List.length_take, List.length_drop]; omega
      · rename_i t he
        rw [he] at h
        by_cases hi : i < t.len
        · obtain ⟨h1, h2⟩ := Tree.splitAt_wf h.sized i h0 hi
          exact ⟨h1.toFits, h2.toFits⟩
        · have e : t.splitAt i = (t, Tree.empty) := by
            simp only [Tree.splitAt, h0, if_false, show i ≥ t.len by omega, if_true]
          rw [e]
          exact ⟨h, ⟨Tree.leaf_sized _, Nat.le_refl _⟩⟩

theorem Fits.take {v : PV α} (h : v.Fits) (n : Nat) : (v.take n).Fits := by
  unfold PV.take; split
  · exact h
  · exact (h.splitAt n).1

theorem Fits.skip {v : PV α} (h : v.Fits) (n : Nat) : (v.skip n).Fits := by
  unfold PV.skip; split
  · exact fits_new
  · exact (h.splitAt n).2

/-! ### Checked operations on vectors -/

theorem getC_ok {v : PV α} (h : v.Fits) (i : Nat) : v.getC i = .ok (v.get i) := by
  unfold Fits at h
  unfold getC get
  split
  · rfl
  · split
    · rename_i es he; simp [he]
    · rename_i t he; rw [he] at h; simp [he, Tree.getC_ok h]

theorem updateC_ok {v : PV α} (h : v.Fits) (i : Nat) (x : α) :
    v.updateC i x = .ok (v.update i x) := by
  unfold Fits at h
  unfold updateC update
  split
  · rfl
  · rename_i hi
    split
    · rename_i es he; rw [he] at h
      simp only [he, setC, show i < es.length by omega, if_true]; rfl
    · rename_i t he; rw [he] at h; simp only [he, Tree.updateC_ok h]; rfl

theorem popBackC_ok {v : PV α} (h : v.Fits) : v.popBackC = .ok v.popBack := by
  unfold Fits at h
  unfold popBackC popBack
  split
  · rfl
  · rename_i h0
    have h1 : 1 ≤ v.len := by simp [isEmpty] at h0; omega
    split
    · rename_i es he
      simp only [subC_ok h1, he]
      cases es.getLast? <;> rfl
    · rename_i t he; rw [he] at h
      simp only [Tree.popBackC_ok h, subC_ok h1, he]
      show (match t.popBack with | _ => _) = _
      cases t.popBack <;> rfl

theorem popFrontC_ok {v : PV α} (h : v.Fits) : v.popFrontC = .ok v.popFront := by
  unfold Fits at h
  unfold popFrontC popFront
  split
  · rfl
  · rename_i h0
    have h1 : 1 ≤ v.len := by simp [isEmpty] at h0; omega
    split
    · rename_i es he
      simp only [subC_ok h1, he]
      cases es <;> rfl
    · rename_i t he; rw [he] at h
      simp only [Tree.popFrontC_ok h, subC_ok h1, he]
      show (match t.popFront with | _ => _) = _
      cases t.popFront <;> rfl

theorem splitAtC_ok {v : PV α} (h : v.Fits) (i : Nat) : v.splitAtC i = .ok (v.splitAt i) := by
  unfold Fits at h
  unfold splitAtC splitAt
  split
  · rfl
  · split
    · rfl
    · have h1 : i ≤ v.len := by omega
      split
      · rename_i es he; simp only [subC_ok h1, he]; rfl
      · rename_i t he; rw [he] at h
        simp only [Tree.splitAtC_ok h, subC_ok h1, he]; rfl

theorem takeC_ok {v : PV α} (h : v.Fits) (n : Nat) : v.takeC n = .ok (v.take n) := by
  unfold takeC take
  split
  · rfl
  · rw [splitAtC_ok h]; rfl

theorem skipC_ok {v : PV α} (h : v.Fits) (n : Nat) : v.skipC n = .ok (v.skip n) := by
  unfold skipC skip
  split
  · rfl
  · rw [splitAtC_ok h]; rfl

theorem insertC_ok {v : PV α} (h : v.Fits) (i : Nat) (x : α) :
    v.insertC i x = .ok (v.insert i x) := by
  unfold insertC insert
  split
  · rfl
  · split
    · rfl
    · rw [splitAtC_ok h]; rfl

theorem removeC_ok {v : PV α} (h : v.Fits) (i : Nat) : v.removeC i = .ok (v.remove i) := by
  unfold removeC remove
  split
  · rfl
  · split
    · rfl
    · rw [splitAtC_ok h]
      show (do let a ← (v.splitAt i).2.skipC 1; _) = _
      rw [skipC_ok (h.splitAt i).2]; rfl

theorem lastC_ok {v : PV α} (h : v.Fits) : v.lastC = .ok v.last := by
  unfold lastC last
  split
  · rename_i h0
    rw [subC_ok (by omega)]
    exact getC_ok h _
  · rfl

end PV

/-- All histories in which `pop_back` is never called on a (damaged) vector whose suffix buffer is
empty and whose prefix buffer holds as many elements as the whole tree claims to have. -/
inductive Calm {α : Type} : PV α → Prop where
  | intact {v : PV α} : Intact v → Calm v
  | popBack {v w : PV α} {x : α} : Calm v →
      (∀ t, v.inner = .tree t → t.tail ≠ [] ∨ t.head.length < t.len) →
      v.popBack = some (w, x) → Calm w
  | pushBack {v : PV α} (x : α) : Calm v → Calm (v.pushBack x)
  | pushFront {v : PV α} (x : α) : Calm v → Calm (v.pushFront x)
  | extend {v : PV α} (xs : List α) : Calm v → Calm (v.extend xs)
  | update {v : PV α} (i : Nat) (x : α) : Calm v → Calm (v.update i x)
  | concat {v w : PV α} : Calm v → Calm w → Calm (v.concat w)
  | popFront {v w : PV α} {x : α} : Calm v → v.popFront = some (w, x) → Calm w
  | splitLeft {v : PV α} (i : Nat) : Calm v → Calm (v.splitAt i).1
  | splitRight {v : PV α} (i : Nat) : Calm v → Calm (v.splitAt i).2
  | take {v : PV α} (n : Nat) : Calm v → Calm (v.take n)
  | skip {v : PV α} (n : Nat) : Calm v → Calm (v.skip n)
  | insert {v : PV α} (i : Nat) (x : α) : Calm v → Calm (v.insert i x)
  | remove {v w : PV α} (i : Nat) : Calm v → v.remove i = some w → Calm w

theorem Calm.fits {v : PV α} (h : Calm v) : v.Fits := by
  induction h with
  | intact h => exact h.wf.toFits
  | popBack _ hg hp ih => exact ih.popBack hg hp
  | pushBack x _ ih => exact ih.pushBack x
  | pushFront x _ ih => exact ih.pushFront x
  | extend xs _ ih => exact ih.extend xs
  | update i x _ ih => exact ih.update i x
  | concat _ _ ih1 ih2 => exact ih1.concat ih2
  | popFront _ hp ih => exact ih.popFront hp
  | splitLeft i _ ih => exact (ih.splitAt i).1
  | splitRight i _ ih => exact (ih.splitAt i).2
  | take n _ ih => exact ih.take n
  | skip n _ ih => exact ih.skip n
  | insert i x _ ih =>
    unfold PV.insert
    split
    · exact ih.pushBack x
    · split
      · exact ih.pushFront x
      · exact (((ih.splitAt i).1).pushBack x).concat (ih.splitAt i).2
  | remove i _ hp ih =>
    unfold PV.remove at hp
    split at hp
    · cases hp
    · split at hp
      · cases hp; exact PV.fits_new
      · simp only [Option.some.injEq] at hp
        subst hp
        exact ((ih.splitAt i).1).concat ((ih.splitAt i).2.skip 1)

namespace PV

/-- The full claim of C58 for one vector: no operation panics (each checked operation returns, and
returns what the unchecked model says). -/
structure NeverPanics (v : PV α) : Prop where
  get : ∀ i, v.getC i = .ok (v.get i)
  last : v.lastC = .ok v.last
  update : ∀ i x, v.updateC i x = .ok (v.update i x)
  popBack : v.popBackC = .ok v.popBack
  popFront : v.popFrontC = .ok v.popFront
  splitAt : ∀ i, v.splitAtC i = .ok (v.splitAt i)
  take : ∀ n, v.takeC n = .ok (v.take n)
  skip : ∀ n, v.skipC n = .ok (v.skip n)
  insert : ∀ i x, v.insertC i x = .ok (v.insert i x)
  remove : ∀ i, v.removeC i = .ok (v.remove i)

/-- C58 for all `Calm` histories: no operation panics, whatever happened to the contents. -/
theorem c58_no_panic_partial {v : PV α} (h : Calm v) : NeverPanics v :=
  { get := getC_ok h.fits
    last := lastC_ok h.fits
    update := updateC_ok h.fits
    popBack := popBackC_ok h.fits
    popFront := popFrontC_ok h.fits
    splitAt := splitAtC_ok h.fits
    take := takeC_ok h.fits
    skip := skipC_ok h.fits
    insert := insertC_ok h.fits
    remove := removeC_ok h.fits }

/-- A cut below a joined vector, with wrong lengths, is among them. -/
example : NeverPanics (((fromIter (List.range 65)).concat (fromIter (List.range 65))).splitAt 70).1 :=
  c58_no_panic_partial (.splitLeft 70 (.concat (.intact (.tame (.fromIter _))) (.intact (.tame (.fromIter _)))))

/-- Exactly when `get` panics on a tree vector. -/
theorem c58_get_panics_iff (v : PV α) (t : Tree α) (ht : v.inner = .tree t) (i : Nat) :
    (∃ p, v.getC i = .error p) ↔
      i < v.len ∧ i < t.len ∧ t.head.length ≤ i ∧ t.len < t.head.length + t.tail.length := by
  unfold getC
  rw [ht]
  by_cases h1 : i ≥ v.len
  · simp [h1]; omega
  simp only [h1, if_false]
  unfold Tree.getC
  by_cases h2 : i ≥ t.len
  · simp [h2]; omega
  simp only [h2, if_false]
  by_cases h3 : i < t.head.length
  · simp [h3]; omega
  simp only [h3, if_false]
  rw [subC_ok (by omega)]
  by_cases h4 : t.head.length + t.tail.length ≤ t.len
  · rw [Tree.treeSizeC_ok h4]
    constructor
    · rintro ⟨p, hp⟩
      change (if i - t.head.length < t.treeSize then _ else _) = _ at hp
      split at hp
      · cases hp
      · rw [subC_ok (by omega)] at hp; cases hp
    · omega
  · have : t.treeSizeC = .error .subOverflow := by
      simp only [Tree.treeSizeC, subC_ok (show t.head.length ≤ t.len by omega)]
      show subC _ _ = _
      simp only [subC]
      rw [if_neg (by omega)]
    rw [this]
    constructor
    · intro _; omega
    · intro _; exact ⟨_, rfl⟩

/-- A tree whose buffers hold more than it claims: reading position 3 panics, reading position 0 does not. -/
example : let v : PV Nat := ⟨.tree ⟨.leaf [], [4, 5], [1, 2, 3], 0, 4⟩, 4, 0⟩
    (∃ p, v.getC 3 = .error p) ∧ ¬ ∃ p, v.getC 0 = .error p := by
  intro v
  rw [c58_get_panics_iff v _ rfl, c58_get_panics_iff v _ rfl]
  decide

/-- For every reachable vector: the inline form, the size tables and the tail buffer are never
the cause of a panic.  (`update` on an inline vector, and both node-level pops.) -/
theorem c58_reach_partial {v : PV α} (h : Reach v) :
    (v.isTree = false → NeverPanics v) ∧
    (∀ t, v.inner = .tree t → t.root.popBackC = .ok t.root.popBack ∧
      t.root.popFrontC = .ok t.root.popFront) := by
  have hl := h.lax
  constructor
  · intro hs
    have hf : v.Fits := by
      unfold Lax at hl; unfold isTree at hs; unfold Fits
      split at hl
      · rename_i es he; rw [he]; exact hl
      · rename_i t he; rw [he] at hs; simp at hs
    exact
      { get := getC_ok hf
        last := lastC_ok hf
        update := updateC_ok hf
        popBack := popBackC_ok hf
        popFront := popFrontC_ok hf
        splitAt := splitAtC_ok hf
        take := takeC_ok hf
        skip := skipC_ok hf
        insert := insertC_ok hf
        remove := removeC_ok hf }
  · intro t ht
    unfold Lax at hl; rw [ht] at hl
    exact ⟨Node.popBackC_eq _ hl, Node.popFrontC_eq _ hl⟩

example : NeverPanics ((fromIter (List.range 50)).splitAt 20).2 :=
  (c58_reach_partial (.splitRight 20 (.fromIter _))).1 (by decide +kernel)

end PV
end Rustica.PVec
