import Verif.PVec.Theorems.Pop

/-!
# Emptying a collected vector from the front (C07)
-/

namespace Rustica.PVec
namespace PV

variable {α : Type}

theorem popFrontN_add (a b : Nat) (v w : PV α) (ys : List α) (h : popFrontN a v = some (ys, w)) :
    popFrontN (a + b) v = (popFrontN b w).map fun p => (ys ++ p.1, p.2) := by
  induction b with
  | zero => simp [h, popFrontN]
  | succ b ih =>
    rw [← Nat.add_assoc]
    simp only [popFrontN]
    rw [ih]
    cases popFrontN b w with
    | none => rfl
    | some p =>
      simp only [Option.map_some]
      cases p.2.popFront with
      | none => rfl
      | some q => simp

theorem popFrontN_cons {v w : PV α} {x : α} (h : v.popFront = some (w, x)) (k : Nat) :
    popFrontN (k + 1) v = (popFrontN k w).map fun p => (x :: p.1, p.2) := by
  rw [Nat.add_comm, popFrontN_add 1 k v w [x] (by simp [popFrontN, h])]
  simp

/-- Emptying a vector that has nothing but its prefix buffer. -/
theorem drain_head (hs : List α) : ∀ (w : PV α) (t : Tree α), w.inner = .tree t → t.WF → w.len = t.len → t.head = hs →
    t.root.flat = [] → t.tail = [] → ∃ w', popFrontN hs.length w = some (hs, w') ∧ w'.Shows [] := by
  induction hs with
  | nil =>
    intro w t h1 h2 h3 h4 h5 h6
    refine ⟨w, rfl, ?_⟩
    have hw : w.WF := by unfold WF; rw [h1]; exact ⟨h2, h3⟩
    have := shows_of_wf hw
    simpa [abs, h1, Tree.toList, h4, h5, h6] using this
  | cons x hs ih =>
    intro w t h1 h2 h3 h4 h5 h6
    have hl := h2.len
    simp only [h4, h5, h6, List.length_cons, List.length_nil] at hl
    have hp : w.popFront = some (⟨.tree { t with head := hs, len := t.len - 1 }, w.len - 1, w.generation + 1⟩, x) := by
      simp [PV.popFront, isEmpty, show w.len ≠ 0 by omega, h1, Tree.popFront, show t.len ≠ 0 by omega, h4]
    obtain ⟨w', k1, k2⟩ := ih ⟨.tree { t with head := hs, len := t.len - 1 }, w.len - 1, w.generation + 1⟩
      { t with head := hs, len := t.len - 1 } rfl ⟨h2.sized, by simp [h5, h6]; omega⟩ (by simp [h3]) rfl h5 h6
    exact ⟨w', by rw [List.length_cons, popFrontN_cons hp, k1]; rfl, k2⟩

/-- Emptying an inline vector. -/
theorem drain_inline (es : List α) : ∀ g : Nat, ∃ w, popFrontN es.length ⟨.inline es, es.length, g⟩ = some (es, w) ∧
    w.inner = .inline [] ∧ w.len = 0 := by
  induction es with
  | nil => intro g; exact ⟨_, rfl, rfl, rfl⟩
  | cons x es ih =>
    intro g
    obtain ⟨w, h1, h2⟩ := ih (g + 1)
    refine ⟨w, ?_, h2⟩
    rw [List.length_cons, popFrontN_cons (w := ⟨.inline es, es.length, g + 1⟩) (x := x) (by simp [PV.popFront, isEmpty]), h1]
    rfl

/-- Specification: a list with everything after its first element turned round. -/
def firstThenBackwards : List α → List α
  | [] => []
  | y :: ys => y :: ys.reverse

/-- Specification: the order in which `pop_front` delivers the elements of a collected vector.  Up to 64 elements come in order.
Of more, those in full blocks of 64 come in order; the first of the others follows, then the last ones backwards. -/
def drainOrder (xs : List α) : List α :=
  if xs.length ≤ 64 then xs
  else xs.take (xs.length / 64 * 64) ++ firstThenBackwards (xs.drop (xs.length / 64 * 64))

/-- C07, emptying any collected vector: `len` calls of `pop_front` deliver every element, in `drainOrder`, and leave nothing. -/
theorem c07_drain_exact (xs : List α) :
    ∃ w, popFrontN xs.length (PV.fromIter xs) = some (drainOrder xs, w) ∧ w.Shows [] := by
  by_cases hx : xs.length ≤ 64
  · obtain ⟨w, h1, h2, h3⟩ := drain_inline xs 0
    refine ⟨w, ?_, ?_⟩
    · rw [show PV.fromIter xs = ⟨.inline xs, xs.length, 0⟩ by simp [PV.fromIter, ADAPTIVE_INLINE_SIZE, hx], h1]
      simp [drainOrder, hx]
    · have hw : w.WF := by unfold WF; rw [h2]; exact ⟨by simp [h3], by simp⟩
      have := shows_of_wf hw
      simpa [abs, h2] using this
  · obtain ⟨w, t, hp, hin, hwf, hlen, hhead, htail, hlist, _⟩ := drain_inv xs (by omega) _ (Nat.le_refl _)
    have htp : treePart xs.length ≤ xs.length := Nat.div_mul_le_self _ _
    have hflat : t.root.flat = [] := by
      simp only [Tree.toList, hhead, htail, List.nil_append] at hlist
      have := congrArg List.length hlist
      simp only [List.length_append] at this
      exact List.length_eq_zero_iff.1 (by omega)
    have hn : xs.length = treePart xs.length + (xs.drop (treePart xs.length)).length := by rw [List.length_drop]; omega
    have hd : drainOrder xs = xs.take (treePart xs.length) ++ firstThenBackwards (xs.drop (treePart xs.length)) := by
      simp [drainOrder, hx, treePart]
    rw [hd]
    cases hy : xs.drop (treePart xs.length) with
    | nil =>
      refine ⟨w, ?_, ?_⟩
      · rw [hy] at hn
        simp only [List.length_nil, Nat.add_zero] at hn
        rw [← hn] at hp
        simpa [firstThenBackwards, ← hn] using hp
      · have hw : w.WF := by unfold WF; rw [hin]; exact ⟨hwf, hlen⟩
        have := shows_of_wf hw
        simpa [abs, hin, hlist, hy] using this
    | cons y ys =>
      have hl := hwf.len
      simp only [hhead, hflat, htail, hy, List.length_nil, List.length_cons] at hl
      have hpos : ¬ t.root.flat.length > 0 := by simp [hflat]
      have htp' : t.popFront = some (⟨.leaf [], [], ys.reverse, 0, t.len - 1⟩, y) := by
        simp only [Tree.popFront, show t.len ≠ 0 by omega, if_false, hhead, Tree.popFrontFromTree, hwf.treeSize, hpos,
          Tree.popFrontFromTail, htail, hy, List.reverse_cons, List.getLast?_concat, List.dropLast_concat]
      have hvp : w.popFront = some (⟨.tree ⟨.leaf [], [], ys.reverse, 0, t.len - 1⟩, w.len - 1, w.generation + 1⟩, y) := by
        simp [PV.popFront, isEmpty, hlen, show t.len ≠ 0 by omega, hin, htp']
      obtain ⟨w', k1, k2⟩ := drain_head ys.reverse
        ⟨.tree ⟨.leaf [], [], ys.reverse, 0, t.len - 1⟩, w.len - 1, w.generation + 1⟩ ⟨.leaf [], [], ys.reverse, 0, t.len - 1⟩
        rfl ⟨by simp, by simp; omega⟩ (by simp [hlen]) rfl (by simp) rfl
      refine ⟨w', ?_, k2⟩
      have h1 : xs.length = treePart xs.length + (ys.reverse.length + 1) := by rw [hy] at hn; simpa using hn
      have h2 := popFrontN_add _ (ys.reverse.length + 1) _ _ _ hp
      rw [← h1, popFrontN_cons hvp, k1] at h2
      rw [h2]
      rfl

/-- 70 elements: the 64 of the full block, then 64, then 69 down to 65. -/
example : drainOrder (List.range 70) = List.range 65 ++ [69, 68, 67, 66, 65] := by decide +kernel

/-- C07, emptying a collected vector, exactly when the elements come in order: up to 64 of them, or when those behind the first
one after the last full block read the same backwards (so always when there are at most two behind the last full block). -/
theorem c07_drain_iff (xs : List α) :
    (∃ w, popFrontN xs.length (PV.fromIter xs) = some (xs, w)) ↔
      xs.length ≤ 64 ∨ (xs.drop (xs.length / 64 * 64 + 1)).reverse = xs.drop (xs.length / 64 * 64 + 1) := by
  obtain ⟨w, h, _⟩ := c07_drain_exact xs
  have h1 : (∃ w, popFrontN xs.length (PV.fromIter xs) = some (xs, w)) ↔ drainOrder xs = xs := by
    rw [h]
    constructor
    · rintro ⟨w', e⟩
      simp only [Option.some.injEq, Prod.mk.injEq] at e
      exact e.1
    · intro e; exact ⟨w, by rw [e]⟩
  rw [h1]
  unfold drainOrder
  by_cases hx : xs.length ≤ 64
  · simp [hx]
  simp only [hx, if_false, false_or]
  generalize xs.length / 64 * 64 = n
  rw [show xs.drop (n + 1) = (xs.drop n).tail by rw [List.tail_drop]]
  have h2 : ∀ l : List α, (firstThenBackwards l = l ↔ l.tail.reverse = l.tail) := by
    intro l; cases l <;> simp [firstThenBackwards]
  rw [← h2 (xs.drop n)]
  constructor
  · intro e
    have e2 : xs.take n ++ firstThenBackwards (xs.drop n) = xs.take n ++ xs.drop n := by rw [e, List.take_append_drop]
    exact List.append_cancel_left e2
  · intro e; rw [e, List.take_append_drop]

/-- Both answers occur: 66 numbers come in order, 67 do not. -/
example : (∃ w, popFrontN 66 (PV.fromIter (List.range 66)) = some (List.range 66, w)) ∧
    ¬ ∃ w, popFrontN 67 (PV.fromIter (List.range 67)) = some (List.range 67, w) :=
  ⟨(c07_drain_iff (List.range 66)).2 (by decide +kernel), fun h => absurd ((c07_drain_iff (List.range 67)).1 h) (by decide +kernel)⟩

end PV
end Rustica.PVec
