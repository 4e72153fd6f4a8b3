import Verif.PVec.Theorems.Intact

/-!
# C05 and C14: recorded heights, and what follows for repeated concatenation

Which operand `concat` puts first depends on the recorded heights, so repeated concatenation
depends on the height that `concat` itself records.
-/

namespace Rustica.PVec
namespace PV

variable {α : Type}

theorem tree_concat_height {l r : Tree α} (hl : l.len ≠ 0) (hr : r.len ≠ 0) :
    (l.concat r).height = max l.height r.height := by
  simp only [Tree.concat, hl, hr, if_false]
  split
  · rfl
  · split
    · simp only [Tree.concatDifferentHeight, Bool.false_eq_true, if_false, Tree.concatSameHeight,
        Tree.elevateTree]
      omega
    · simp only [Tree.concatDifferentHeight, if_true, Tree.concatSameHeight, Tree.elevateTree]
      omega

theorem ne_nil_len {v : PV α} (h : Intact v) (hne : v.toVec ≠ []) : v.len ≠ 0 := by
  rw [h.shows.len]; intro e; exact hne (List.length_eq_zero_iff.1 e)

/-- C05: the height that `concat` records is the larger one of its operands (unless both are inline,
then the result is collected afresh). -/
theorem c05_concat_height {a b : PV α} (ha : Intact a) (hb : Intact b) (na : a.toVec ≠ [])
    (nb : b.toVec ≠ []) (ht : a.isTree = true ∨ b.isTree = true) :
    (a.concat b).heightOf = max a.heightOf b.heightOf ∧ (a.concat b).isTree = true := by
  have la := ne_nil_len ha na
  have lb := ne_nil_len hb nb
  have wa := ha.wf
  have wb := hb.wf
  unfold WF at wa wb
  cases ea : a.inner with
  | inline es =>
    rw [ea] at wa
    cases eb : b.inner with
    | inline fs => simp [isTree, ea, eb] at ht
    | tree t =>
      rw [eb] at wb
      have h3 := (Tree.fromElements_spec es).2.2.1
      simp only [concat, heightOf, isTree, ea, eb]
      rw [tree_concat_height (by have := wa.1; omega) (by have := wb.2; omega),
        fromElements_height wa.2]
      exact ⟨rfl, trivial⟩
  | tree s =>
    rw [ea] at wa
    cases eb : b.inner with
    | inline fs =>
      rw [eb] at wb
      have h3 := (Tree.fromElements_spec fs).2.2.1
      simp only [concat, heightOf, isTree, ea, eb]
      rw [tree_concat_height (by have := wa.2; omega) (by have := wb.1; omega),
        fromElements_height wb.2]
      exact ⟨rfl, trivial⟩
    | tree t =>
      rw [eb] at wb
      simp only [concat, heightOf, isTree, ea, eb]
      rw [tree_concat_height (by have := wa.2; omega) (by have := wb.2; omega)]
      exact ⟨rfl, trivial⟩

example : ((PV.fromIter [1]).concat sample).heightOf = 1 ∧ ((PV.fromIter [1]).concat sample).isTree = true := by
  have h := c05_concat_height (a := PV.fromIter [1]) (.tame (.fromIter _)) sample_sound.intact (by decide +kernel)
    (by decide +kernel) (.inr (by decide +kernel))
  exact ⟨h.1.trans (by decide +kernel), h.2⟩

/-- Appending something empty to a tree changes neither height nor representation. -/
theorem concat_empty_height {a b : PV α} (ha : Intact a) (hb : Intact b) (na : a.toVec ≠ [])
    (nb : b.toVec = []) (ht : a.isTree = true) :
    (a.concat b).heightOf = a.heightOf ∧ (a.concat b).isTree = true := by
  have la := ne_nil_len ha na
  have lb : b.len = 0 := by rw [hb.shows.len, nb]; rfl
  have wa := ha.wf
  have wb := hb.wf
  unfold WF at wa wb
  cases ea : a.inner with
  | inline es => simp [isTree, ea] at ht
  | tree s =>
    rw [ea] at wa
    have hs : s.len ≠ 0 := by have := wa.2; omega
    cases eb : b.inner with
    | inline fs =>
      rw [eb] at wb
      have h3 := (Tree.fromElements_spec fs).2.2.1
      have hz : (Tree.fromElements fs).len = 0 := by have := wb.1; omega
      simp [concat, heightOf, isTree, ea, eb, Tree.concat, hs, hz]
    | tree t =>
      rw [eb] at wb
      have hz : t.len = 0 := by have := wb.2; omega
      simp [concat, heightOf, isTree, ea, eb, Tree.concat, hs, hz]

/-- C05, any number of concatenations: onto a tree that is at least as high as every operand,
`concat` appends them all in order. -/
theorem c05_concat_chain_partial {v : PV α} (ws : List (PV α)) (hv : Intact v) (nv : v.toVec ≠ [])
    (tv : v.isTree = true) (hw : ∀ w ∈ ws, Intact w ∧ w.heightOf ≤ v.heightOf) :
    (ws.foldl concat v).Shows (v.toVec ++ (ws.map toVec).flatten) ∧
    (ws.foldl concat v).heightOf = v.heightOf := by
  induction ws generalizing v with
  | nil => simpa using hv.shows
  | cons w ws ih =>
    obtain ⟨iw, lw⟩ := hw w (by simp)
    have hs := c05_concat_exact hv iw
    rw [if_neg (by omega)] at hs
    have hh : (v.concat w).heightOf = v.heightOf ∧ (v.concat w).isTree = true := by
      by_cases nw : w.toVec = []
      · exact concat_empty_height hv iw nv nw tv
      · obtain ⟨h1, h2⟩ := c05_concat_height hv iw nv nw (.inl tv)
        exact ⟨by omega, h2⟩
    have := ih (hv.concat iw) (by rw [hs.toVec]; simp [nv]) hh.2
      (fun w' h' => by rw [hh.1]; exact hw w' (by simp [h']))
    rw [hs.toVec, hh.1] at this
    simpa [List.append_assoc] using this

example : ([PV.fromIter [1, 2], sample, sample].foldl concat sample).Shows
    (sample.toVec ++ ([PV.fromIter [1, 2], sample, sample].map toVec).flatten) :=
  have h1 : Intact (PV.fromIter [1, 2]) ∧ (PV.fromIter [1, 2]).heightOf ≤ sample.heightOf :=
    ⟨.tame (.fromIter _), by decide +kernel⟩
  have h2 : Intact sample ∧ sample.heightOf ≤ sample.heightOf := ⟨sample_sound.intact, Nat.le_refl _⟩
  (c05_concat_chain_partial _ sample_sound.intact (by decide +kernel) (by decide +kernel)
    (by simp only [List.forall_mem_cons, List.not_mem_nil, false_implies, implies_true, and_true]; exact ⟨h1, h2, h2⟩)).1

/-- C14: exactly when `combine` is associative, for intact non-empty vectors in tree form.  It is when
the heights do not rise, when they rise strictly, and otherwise only if two of the three commute. -/
theorem c14_associative_iff {a b c : PV α} (ha : Intact a) (hb : Intact b) (hc : Intact c)
    (na : a.toVec ≠ []) (nb : b.toVec ≠ []) (nc : c.toVec ≠ [])
    (tab : a.isTree = true ∨ b.isTree = true) (tbc : b.isTree = true ∨ c.isTree = true) :
    ((a.concat b).concat c).toVec = (a.concat (b.concat c)).toVec ↔
      (c.heightOf ≤ b.heightOf ∧ b.heightOf ≤ a.heightOf) ∨
      (a.heightOf < b.heightOf ∧ b.heightOf < c.heightOf) ∨
      (b.heightOf < c.heightOf ∧ c.heightOf ≤ a.heightOf ∧
        b.toVec ++ c.toVec = c.toVec ++ b.toVec) ∨
      (b.heightOf ≤ a.heightOf ∧ a.heightOf < c.heightOf ∧
        a.toVec ++ b.toVec = b.toVec ++ a.toVec) ∨
      (a.heightOf < b.heightOf ∧ c.heightOf ≤ b.heightOf ∧
        a.toVec ++ c.toVec = c.toVec ++ a.toVec) := by
  have hab := c05_concat_height ha hb na nb tab
  have hbc := c05_concat_height hb hc nb nc tbc
  have sab := (c05_concat_exact ha hb).toVec
  have sbc := (c05_concat_exact hb hc).toVec
  have l := (c05_concat_exact (ha.concat hb) hc).toVec
  have r := (c05_concat_exact ha (hb.concat hc)).toVec
  have nab : (a.concat b).toVec ≠ [] := by rw [sab]; split <;> simp [na, nb]
  have nbc : (b.concat c).toVec ≠ [] := by rw [sbc]; split <;> simp [nb, nc]
  simp only [na, nb, nc, nab, nbc, ne_eq, not_false_eq_true, true_and, hab.1, hbc.1] at sab sbc l r
  rw [sab] at l
  rw [sbc] at r
  rw [l, r]
  clear l r sab sbc hab hbc nab nbc
  generalize a.toVec = x at *
  generalize b.toVec = y at *
  generalize c.toVec = z at *
  generalize a.heightOf = p at *
  generalize b.heightOf = q at *
  generalize c.heightOf = k at *
  by_cases h1 : p < q <;> by_cases h2 : q < k
  · have h3 : max p q < k := by omega
    have h4 : p < max q k := by omega
    simp [h1, h2, h3, h4]
  · have h3 : ¬ max p q < k := by omega
    have h4 : p < max q k := by omega
    have h5 : ¬ q ≤ p := by omega
    have h6 : k ≤ q := by omega
    simp [h1, h2, h3, h4, h5, h6]
  · have h4 : p < max q k ↔ p < k := by omega
    have h3 : max p q < k ↔ p < k := by omega
    have h5 : ¬ k ≤ q := by omega
    have h6 : q ≤ p := by omega
    by_cases h7 : p < k
    · have h8 : ¬ k ≤ p := by omega
      simp only [h1, h2, h3, h4, h5, h6, h7, h8, if_true, if_false]
      simp only [false_and, and_false, true_and, false_or, or_false]
      rw [List.append_assoc]
      exact ⟨fun h => List.append_cancel_left h, fun h => by rw [h]⟩
    · have h8 : k ≤ p := by omega
      simp only [h1, h2, h3, h4, h5, h6, h7, h8, if_true, if_false]
      simp only [false_and, and_false, true_and, false_or, or_false]
      rw [List.append_assoc]
      exact ⟨fun h => List.append_cancel_left h, fun h => by rw [h]⟩
  · have h3 : ¬ max p q < k := by omega
    have h4 : ¬ p < max q k := by omega
    have h5 : k ≤ q := by omega
    have h6 : q ≤ p := by omega
    have h7 : ¬ p < k := by omega
    simp [h1, h2, h3, h5, h6, h7]

/-! ## Sample cases -/

/-- Two trees of different recorded heights. -/
example : (fromIter (List.range 65)).heightOf = 0 ∧ (fromIter (List.range 128)).heightOf = 1 ∧
    (fromIter (List.range 65)).isTree = true := by decide +kernel

/-- A chain the theorem applies to: any pieces no longer than the first one. -/
example (yss : List (List Nat)) (h : ∀ ys ∈ yss, ys.length ≤ 200) :
    ∀ w ∈ yss.map fromIter, Intact w ∧ w.heightOf ≤ (fromIter (List.range 200)).heightOf := by
  intro w hw
  obtain ⟨ys, hy, rfl⟩ := List.mem_map.1 hw
  exact ⟨intact_fromIter _, fromIter_height_mono (by rw [List.length_range]; exact h ys hy)⟩

/-- Heights 1, 0, 1: not associative. -/
example : let a := fromIter (List.range 128); let b := fromIter (List.range 65)
    ((a.concat b).concat a).toVec ≠ (a.concat (b.concat a)).toVec := by decide +kernel

end PV
end Rustica.PVec
