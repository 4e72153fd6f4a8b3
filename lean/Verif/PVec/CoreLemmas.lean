import Verif.PVec.Stack

/-!
# Lemmas about vectors: operations refine list operations under `PV.WF`
-/

namespace Rustica.PVec
namespace PV

variable {α β : Type}

theorem WF.length {v : PV α} (h : v.WF) : v.abs.length = v.len := by
  unfold WF at h
  unfold abs
  split at h
  · rename_i es he; simp [h.1]
  · rename_i t ht; simp [h.2, h.1.length]

theorem get_eq {v : PV α} (h : v.WF) (i : Nat) : v.get i = v.abs[i]? := by
  have hl := h.length
  unfold get
  split
  · rw [List.getElem?_eq_none (by omega)]
  · unfold WF at h
    unfold abs
    split at h
    · rename_i es he; simp [he]
    · rename_i t ht; simp [ht, Tree.get_eq h.1]

theorem collect_eq (v : PV α) (xs : List α) (hlen : xs.length = v.len)
    (hget : ∀ i, v.get i = xs[i]?) : ∀ fuel p, p ≤ v.len → v.len < p + fuel →
    Iter.collect fuel ⟨v, p⟩ = xs.drop p := by
  intro fuel
  induction fuel with
  | zero => intro p h1 h2; omega
  | succ fuel ih =>
    intro p h1 h2
    simp only [Iter.collect, Iter.next]
    by_cases hp : p < v.len
    · simp only [hp, if_true, hget]
      have hx : p < xs.length := by omega
      rw [List.getElem?_eq_getElem hx]
      simp only
      rw [ih (p + 1) (by omega) (by omega), ← List.drop_eq_getElem_cons hx]
    · simp only [hp, if_false]
      rw [List.drop_of_length_le (by omega)]

theorem items_eq {v : PV α} (h : v.WF) : v.items = v.abs := by
  unfold items iter
  rw [collect_eq v v.abs h.length (get_eq h) (v.len + 1) 0 (by omega) (by omega)]
  simp

theorem toVec_eq {v : PV α} (h : v.WF) : v.toVec = v.abs := items_eq h

theorem wf_new : (new : PV α).WF := by simp [WF, new]
theorem wf_unit (x : α) : (unit x).WF := by simp [WF, unit, ADAPTIVE_INLINE_SIZE]
@[simp] theorem abs_new : (new : PV α).abs = [] := by simp [abs, new]
@[simp] theorem abs_unit (x : α) : (unit x).abs = [x] := by simp [abs, unit]

theorem fromIter_spec (xs : List α) :
    (fromIter xs).WF ∧ (fromIter xs).abs = xs ∧ (fromIter xs).len = xs.length := by
  simp only [fromIter]
  split
  · rename_i h; exact ⟨⟨rfl, h⟩, rfl, rfl⟩
  · obtain ⟨h1, h2, h3, _⟩ := Tree.fromElements_spec xs
    exact ⟨⟨h1, by simp [h3]⟩, by simp [abs, h2], rfl⟩

theorem transitionToTree_spec {v : PV α} (h : v.WF) :
    v.transitionToTree.WF ∧ v.transitionToTree.abs = v.abs ∧
    v.transitionToTree.len = v.len ∧ (∃ t, v.transitionToTree.inner = .tree t) := by
  unfold transitionToTree
  unfold WF at h
  split
  · rename_i es he
    rw [he] at h
    obtain ⟨h1, h2, h3, _⟩ := Tree.fromElements_spec es
    exact ⟨⟨h1, by simp [h3, h.1]⟩, by simp [abs, h2, he], rfl, _, rfl⟩
  · rename_i t ht
    exact ⟨by unfold WF; rw [ht] at h ⊢; exact h, rfl, rfl, t, ht⟩

theorem treePushBack_spec {v : PV α} (h : v.WF) {t : Tree α} (ht : v.inner = .tree t) (x : α) :
    (v.treePushBack x).WF ∧ (v.treePushBack x).abs = v.abs ++ [x] := by
  unfold WF at h
  rw [ht] at h
  obtain ⟨h1, h2, h3⟩ := Tree.pushBack_spec h.1 x
  simp only [treePushBack, ht]
  exact ⟨⟨h1, by simp [h.2, h3]⟩, by simp [abs, ht, h2]⟩

theorem treePushFront_spec {v : PV α} (h : v.WF) {t : Tree α} (ht : v.inner = .tree t) (x : α) :
    (v.treePushFront x).WF ∧ (v.treePushFront x).abs = x :: v.abs := by
  unfold WF at h
  rw [ht] at h
  obtain ⟨h1, h2, h3⟩ := Tree.pushFront_spec h.1 x
  simp only [treePushFront, ht]
  exact ⟨⟨h1, by simp [h.2, h3]⟩, by simp [abs, ht, h2]⟩

theorem pushBack_spec {v : PV α} (h : v.WF) (x : α) :
    (v.pushBack x).WF ∧ (v.pushBack x).abs = v.abs ++ [x] := by
  unfold pushBack
  split
  · rename_i es he
    split
    · rename_i hlt
      unfold WF at h; rw [he] at h
      refine ⟨⟨by simp [h.1], by simp; omega⟩, by simp [abs, he]⟩
    · obtain ⟨h1, h2, _, t, ht⟩ := transitionToTree_spec h
      have := treePushBack_spec h1 ht x
      rw [h2] at this; exact this
  · rename_i t ht; exact treePushBack_spec h ht x

theorem pushFront_spec {v : PV α} (h : v.WF) (x : α) :
    (v.pushFront x).WF ∧ (v.pushFront x).abs = x :: v.abs := by
  unfold pushFront
  split
  · rename_i es he
    split
    · rename_i hlt
      unfold WF at h; rw [he] at h
      refine ⟨⟨by simp [h.1], by simp; omega⟩, by simp [abs, he]⟩
    · obtain ⟨h1, h2, _, t, ht⟩ := transitionToTree_spec h
      have := treePushFront_spec h1 ht x
      rw [h2] at this; exact this
  · rename_i t ht; exact treePushFront_spec h ht x

theorem extend_spec {v : PV α} (h : v.WF) (xs : List α) :
    (v.extend xs).WF ∧ (v.extend xs).abs = v.abs ++ xs := by
  unfold extend
  induction xs generalizing v with
  | nil => exact ⟨h, by simp⟩
  | cons x xs ih =>
    obtain ⟨h1, h2⟩ := pushBack_spec h x
    obtain ⟨h3, h4⟩ := ih h1
    exact ⟨h3, by simp [h4, h2]⟩

theorem update_spec {v : PV α} (h : v.WF) (i : Nat) (x : α) :
    (v.update i x).WF ∧ (v.update i x).abs = v.abs.set i x ∧ (v.update i x).len = v.len := by
  have hl := h.length
  unfold update
  split
  · refine ⟨h, ?_, rfl⟩
    rw [List.set_eq_of_length_le (by omega)]
  · unfold WF at h
    split
    · rename_i es he; rw [he] at h
      exact ⟨⟨by simp [h.1], by simpa using h.2⟩, by simp [abs, he], rfl⟩
    · rename_i t ht; rw [ht] at h
      obtain ⟨h1, h2, h3⟩ := Tree.update_spec h.1 i x
      exact ⟨⟨h1, by simp [h3, h.2]⟩, by simp [abs, ht, h2], rfl⟩

/-- The height `concat` looks at: 0 for inline vectors (they are turned into a
single-leaf tree), the recorded height otherwise. -/
def heightOf (v : PV α) : Nat :=
  match v.inner with
  | .inline _ => 0
  | .tree t => t.height

/-- Is the vector in tree representation? -/
def isTree (v : PV α) : Bool :=
  match v.inner with
  | .inline _ => false
  | .tree _ => true

theorem fromElements_height {es : List α} (h : es.length ≤ ADAPTIVE_INLINE_SIZE) :
    (Tree.fromElements es).height = 0 := by
  rcases Tree.fromElements_shape es with ⟨_, _, _, hh⟩ | ⟨hlt, _⟩
  · exact hh
  · simp only [LEAF_CAPACITY, ADAPTIVE_INLINE_SIZE] at *; omega

/-- The exact effect of `concat` on contents. -/
theorem concat_spec {a b : PV α} (ha : a.WF) (hb : b.WF) :
    (a.concat b).WF ∧
    (a.concat b).abs =
      if a.abs ≠ [] ∧ b.abs ≠ [] ∧ a.heightOf < b.heightOf then b.abs ++ a.abs
      else a.abs ++ b.abs := by
  have tree : ∀ (l r : Tree α) (g : Nat), l.WF → r.WF → a.len = l.len → b.len = r.len →
      a.abs = l.toList → b.abs = r.toList → a.heightOf = l.height → b.heightOf = r.height →
      ({ inner := .tree (l.concat r), len := a.len + b.len, generation := g } : PV α).WF ∧
      ({ inner := .tree (l.concat r), len := a.len + b.len, generation := g } : PV α).abs =
        if a.abs ≠ [] ∧ b.abs ≠ [] ∧ a.heightOf < b.heightOf then b.abs ++ a.abs
        else a.abs ++ b.abs := by
    intro l r g hl hr e1 e2 e3 e4 e5 e6
    obtain ⟨c1, c2, c3⟩ := Tree.concat_spec hl hr
    refine ⟨⟨c1, by simp [c2, e1, e2]⟩, ?_⟩
    show (l.concat r).toList = _
    rw [c3, e3, e4, e5, e6]
    have hla : (l.len ≠ 0) ↔ (l.toList ≠ []) := by
      rw [← hl.length]; simp
    have hlb : (r.len ≠ 0) ↔ (r.toList ≠ []) := by
      rw [← hr.length]; simp
    simp only [hla, hlb]
  unfold concat
  unfold WF at ha hb
  split
  · rename_i l r hl hr
    obtain ⟨h1, h2, _⟩ := fromIter_spec (l ++ r)
    refine ⟨h1, ?_⟩
    rw [h2]
    simp [heightOf, abs, hl, hr]
  · rename_i l r hl hr
    rw [hl] at ha; rw [hr] at hb
    obtain ⟨h1, h2, h3, _⟩ := Tree.fromElements_spec l
    exact tree _ _ _ h1 hb.1 (by rw [ha.1, h3]) hb.2 (by simp [abs, hl, h2]) (by simp [abs, hr])
      (by simp [heightOf, hl, fromElements_height ha.2]) (by simp [heightOf, hr])
  · rename_i l r hl hr
    rw [hl] at ha; rw [hr] at hb
    obtain ⟨h1, h2, h3, _⟩ := Tree.fromElements_spec r
    exact tree _ _ _ ha.1 h1 ha.2 (by rw [hb.1, h3]) (by simp [abs, hl]) (by simp [abs, hr, h2])
      (by simp [heightOf, hl]) (by simp [heightOf, hr, fromElements_height hb.2])
  · rename_i l r hl hr
    rw [hl] at ha; rw [hr] at hb
    exact tree _ _ _ ha.1 hb.1 ha.2 hb.2 (by simp [abs, hl]) (by simp [abs, hr])
      (by simp [heightOf, hl]) (by simp [heightOf, hr])

/-! ### The stack-like class -/

/-- Vectors on which `pop_back` and `split_at` are exact. -/
def Stack (v : PV α) : Prop :=
  match v.inner with
  | .inline es => v.len = es.length ∧ es.length ≤ ADAPTIVE_INLINE_SIZE
  | .tree t => t.Stack ∧ v.len = t.len

theorem Stack.wf {v : PV α} (h : v.Stack) : v.WF := by
  unfold Stack at h
  unfold WF
  split at h
  · rename_i es he; rw [he]; exact h
  · rename_i t ht; rw [ht]; exact ⟨h.1.wf, h.2⟩

theorem stack_new : (new : PV α).Stack := by simp [Stack, new]
theorem stack_unit (x : α) : (unit x).Stack := by simp [Stack, unit, ADAPTIVE_INLINE_SIZE]

theorem stack_fromIter (xs : List α) : (fromIter xs).Stack := by
  simp only [fromIter]
  split
  · rename_i h; exact ⟨rfl, h⟩
  · exact ⟨Tree.stack_fromElements xs, by simp [(Tree.fromElements_spec xs).2.2.1]⟩

theorem Stack.pushBack {v : PV α} (h : v.Stack) (x : α) : (v.pushBack x).Stack := by
  have hT : ∀ (w : PV α), w.Stack → ∀ t, w.inner = .tree t → (w.treePushBack x).Stack := by
    intro w hw t ht
    unfold Stack at hw; rw [ht] at hw
    simp only [treePushBack, ht]
    exact ⟨hw.1.pushBack x, by simp [hw.2, (Tree.pushBack_spec hw.1.wf x).2.2]⟩
  unfold PV.pushBack
  split
  · rename_i es he
    unfold Stack at h; rw [he] at h
    split
    · exact ⟨by simp [h.1], by simp; omega⟩
    · have : v.transitionToTree.Stack := by
        simp only [transitionToTree, he]
        exact ⟨Tree.stack_fromElements es, by simp [h.1, (Tree.fromElements_spec es).2.2.1]⟩
      refine hT _ this (Tree.fromElements es) (by simp [transitionToTree, he])
  · rename_i t ht; exact hT v h t ht

theorem Stack.extend {v : PV α} (h : v.Stack) (xs : List α) : (v.extend xs).Stack := by
  unfold PV.extend
  induction xs generalizing v with
  | nil => exact h
  | cons x xs ih => exact ih (h.pushBack x)

theorem Stack.update {v : PV α} (h : v.Stack) (i : Nat) (x : α) : (v.update i x).Stack := by
  unfold PV.update
  split
  · exact h
  · unfold Stack at h
    split
    · rename_i es he; rw [he] at h; exact ⟨by simp [h.1], by simpa using h.2⟩
    · rename_i t ht; rw [ht] at h
      exact ⟨h.1.update i x, by simp [(Tree.update_spec h.1.wf i x).2.2, h.2]⟩

theorem Stack.popBack {v : PV α} (h : v.Stack) :
    (v.abs = [] ∧ v.popBack = none) ∨
    ∃ w x, v.popBack = some (w, x) ∧ w.Stack ∧ v.abs = w.abs ++ [x] := by
  have hlen := h.wf.length
  unfold PV.popBack isEmpty
  by_cases h0 : v.len = 0
  · left
    exact ⟨List.length_eq_zero_iff.1 (by omega), by simp [h0]⟩
  · right
    simp only [beq_iff_eq, h0, if_false]
    unfold Stack at h
    cases hin : v.inner with
    | inline es =>
      rw [hin] at h
      have hne : es ≠ [] := by intro he; simp [he] at h; omega
      simp only [List.getLast?_eq_some_getLast hne]
      refine ⟨_, _, rfl, ⟨by simp [h.1], by simp; omega⟩, ?_⟩
      simp only [abs, hin]
      exact (List.dropLast_concat_getLast hne).symm
    | tree t =>
      rw [hin] at h
      obtain ⟨t', x, hp, hs, hl, hn⟩ := h.1.popBack (by rw [← h.2]; exact h0)
      simp only [hp, Option.map_some]
      refine ⟨_, _, rfl, ⟨hs, by simp [hn, h.2]⟩, ?_⟩
      simp [abs, hin, hl]

theorem Stack.splitAt {v : PV α} (h : v.Stack) (i : Nat) :
    (v.splitAt i).1.Stack ∧ (v.splitAt i).2.Stack ∧
    (v.splitAt i).1.abs = v.abs.take i ∧ (v.splitAt i).2.abs = v.abs.drop i := by
  have hlen := h.wf.length
  unfold PV.splitAt
  split
  · refine ⟨h, stack_new, ?_, ?_⟩
    · rw [List.take_of_length_le (by omega)]
    · rw [List.drop_of_length_le (by omega)]; simp
  · split
    · rename_i h0; subst h0; exact ⟨stack_new, h, by simp, by simp⟩
    · unfold Stack at h
      cases hin : v.inner with
      | inline es =>
        rw [hin] at h
        refine ⟨⟨?_, ?_⟩, ⟨?_, ?_⟩, ?_, ?_⟩
        · simp; omega
        · simp only [List.length_take]; omega
        · simp [h.1]
        · simp only [List.length_drop]; omega
        · simp [abs, hin]
        · simp [abs, hin]
      | tree t =>
        rw [hin] at h
        obtain ⟨s1, s2, l1, l2⟩ := h.1.splitAt i
        have hl := h.1.wf.length
        refine ⟨⟨s1, ?_⟩, ⟨s2, ?_⟩, ?_, ?_⟩
        · simp only [← s1.wf.length, l1, List.length_take]; omega
        · simp only [← s2.wf.length, l2, List.length_drop]; omega
        · simp [abs, hin, l1]
        · simp [abs, hin, l2]

theorem Stack.take {v : PV α} (h : v.Stack) (n : Nat) :
    (v.take n).Stack ∧ (v.take n).abs = v.abs.take n := by
  have hlen := h.wf.length
  unfold PV.take
  split
  · exact ⟨h, by rw [List.take_of_length_le (by omega)]⟩
  · obtain ⟨s1, _, l1, _⟩ := h.splitAt n; exact ⟨s1, l1⟩

theorem Stack.skip {v : PV α} (h : v.Stack) (n : Nat) :
    (v.skip n).Stack ∧ (v.skip n).abs = v.abs.drop n := by
  have hlen := h.wf.length
  unfold PV.skip
  split
  · exact ⟨stack_new, by rw [List.drop_of_length_le (by omega)]; simp⟩
  · obtain ⟨_, s2, _, l2⟩ := h.splitAt n; exact ⟨s2, l2⟩

end PV
end Rustica.PVec
