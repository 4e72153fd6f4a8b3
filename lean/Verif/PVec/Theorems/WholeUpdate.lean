import Verif.PVec.Theorems.PanicExact
import Verif.PVec.Theorems.Whole

/-!
# `update` on every reachable vector, damaged or not (C02)
-/

namespace Rustica.PVec

variable {α : Type}

/-- Reading a list after writing one place of it. -/
theorem set_get (l : List α) (i j : Nat) (x : α) :
    (l.set i x)[j]? = if j = i then l[i]?.map fun _ => x else l[j]? := by
  rw [List.getElem?_set]
  by_cases h : i = j
  · subst h
    by_cases hl : i < l.length
    · simp [hl]
    · simp [hl]
  · simp [h, Ne.symm h]

/-- What `get(j)` answers after `update(i, x)`, from what it answered before. -/
def afterUpdate (r : Nat → Except Panic (Option α)) (i : Nat) (x : α) (j : Nat) : Except Panic (Option α) :=
  if j = i then (r i).map (Option.map fun _ => x) else r j

theorem Tree.getC_update {t : Tree α} (h : t.root.Sized) (i : Nat) (x : α)
    (hp : ¬ (t.len < t.head.length + t.tail.length ∧ t.head.length ≤ i ∧ i < t.len)) (j : Nat) :
    (t.update i x).getC j = afterUpdate t.getC i x j := by
  have hlen : (t.update i x).len = t.len := by
    simp only [update]; split
    · rfl
    · split
      · rfl
      · split <;> rfl
  by_cases hi : i ≥ t.len
  · have e : t.update i x = t := by simp [update, hi]
    rw [e]
    unfold afterUpdate
    split
    · rename_i he; subst he; simp [getC, hi, Except.map]
    · rfl
  by_cases h1 : i < t.head.length
  · have e : t.update i x = { t with head := t.head.set i x } := by simp [update, hi, h1]
    rw [e]
    unfold afterUpdate
    simp only [getC, List.length_set, treeSizeC, getFromTree]
    by_cases hj : j = i
    · subst hj; simp [hi, h1, Except.map]
    · simp only [hj, if_false]
      rw [set_get]; simp [hj]
  · have hle : t.head.length + t.tail.length ≤ t.len := by omega
    have hs1 : subC t.len t.head.length = .ok (t.len - t.head.length) := subC_ok (by omega)
    have hs2 : subC (t.len - t.head.length) t.tail.length = .ok t.treeSize := by
      rw [subC_ok (by omega)]; rfl
    have hts : ∀ u : Tree α, u.len = t.len → u.head.length = t.head.length → u.tail.length = t.tail.length →
        u.treeSizeC = .ok t.treeSize := by
      intro u a b c
      simp only [treeSizeC, a, b, c, hs1, ok_bind, hs2]
    have hg : ∀ u : Tree α, u.len = t.len → u.head.length = t.head.length → u.tail.length = t.tail.length →
        u.root.Sized → ∀ k, u.getC k = .ok (if k ≥ t.len then none else if k < t.head.length then u.head[k]?
          else if k - t.head.length < t.treeSize then u.root.flat[k - t.head.length]?
          else u.tail[k - t.head.length - t.treeSize]?) := by
      intro u a b c hu k
      simp only [getC, a, b, hts u a b c, getFromTree, getFromNode_eq u.root hu]
      split
      · rfl
      · split
        · rfl
        · simp only [subC_ok (show t.head.length ≤ k by omega), ok_bind]
          split
          · rfl
          · simp only [subC_ok (show t.treeSize ≤ k - t.head.length by omega), ok_bind]
    unfold afterUpdate
    rw [hg t rfl rfl rfl h i, hg t rfl rfl rfl h j]
    by_cases h2 : i - t.head.length < t.treeSize
    · have e : t.update i x = { t with root := t.root.update (i - t.head.length) x } := by simp [update, hi, h1, h2]
      obtain ⟨k1, k2⟩ := Node.update_spec t.root h (i - t.head.length) x
      rw [e, hg { t with root := t.root.update (i - t.head.length) x } rfl rfl rfl k1 j]
      simp only [k2, set_get]
      by_cases hj : j = i
      · subst hj; simp [hi, h1, h2, Except.map]
      · simp only [hj, if_false]
        split
        · rfl
        · split
          · rfl
          · split
            · rw [if_neg (by omega)]
            · rfl
    · have e : t.update i x = { t with tail := t.tail.set (i - t.head.length - t.treeSize) x } := by
        simp only [update, hi, h1, h2, if_false]
        split
        · rfl
        · rw [List.set_eq_of_length_le (by omega)]
      rw [e, hg { t with tail := t.tail.set (i - t.head.length - t.treeSize) x } rfl rfl (List.length_set) h j]
      simp only [set_get]
      by_cases hj : j = i
      · subst hj; simp [hi, h1, h2, Except.map]
      · simp only [hj, if_false]
        split
        · rfl
        · split
          · rfl
          · split
            · rfl
            · rw [if_neg (by omega)]

namespace PV

/-- C02 for every reachable vector, damaged or not, panics included: `update(i, x)` panics exactly when `get(i)` does.
Otherwise the length stays, every other position reads as before (or panics as before), and position `i` reads `x` if it had an
element and nothing if it had none. -/
theorem c02_update_all {v : PV α} (h : Reach v) (i : Nat) (x : α) :
    ((∃ p, v.updateC i x = .error p) ↔ ∃ p, v.getC i = .error p) ∧
    ∀ w, v.updateC i x = .ok w → w.len = v.len ∧ (∀ j, j ≠ i → w.getC j = v.getC j) ∧
      w.getC i = (v.getC i).map (Option.map fun _ => x) := by
  have hu := updateC_panicsIff h.lax i x
  refine ⟨hu.iff.trans (getC_panicsIff v i).iff.symm, fun w hw => ?_⟩
  have hp : ¬ v.ReadPanics i := fun hp => by
    obtain ⟨p, e⟩ := hu.1 hp
    rw [e] at hw; cases hw
  have e : w = v.update i x := by rw [hu.2 hp] at hw; cases hw; rfl
  subst e
  have hlen : (v.update i x).len = v.len := by unfold update; split <;> first | rfl | (split <;> rfl)
  suffices hj : ∀ j, (v.update i x).getC j = afterUpdate v.getC i x j from
    ⟨hlen, fun j hne => by simp [hj j, afterUpdate, hne], by simp [hj i, afterUpdate]⟩
  intro j
  by_cases hi : i ≥ v.len
  · have e : v.update i x = v := by simp [update, hi]
    rw [e]
    unfold afterUpdate
    split
    · rename_i he; subst he; simp [getC, hi, Except.map]
    · rfl
  cases hv : v.inner with
  | inline es =>
    have e : v.update i x = ⟨.inline (es.set i x), v.len, v.generation + 1⟩ := by simp [update, hi, hv]
    rw [e]
    unfold afterUpdate
    simp only [getC, hv, set_get]
    by_cases hj : j = i
    · subst hj; simp [hi, Except.map]
    · simp [hj]
  | tree t =>
    have hs : t.root.Sized := by have := h.lax; unfold Lax at this; rw [hv] at this; exact this
    have e : v.update i x = ⟨.tree (t.update i x), v.len, v.generation + 1⟩ := by simp [update, hi, hv]
    have ht := Tree.getC_update hs i x (fun hc => hp ⟨t, hv, hc.1, hc.2.1, by omega, hc.2.2⟩) j
    rw [e]
    unfold afterUpdate at *
    simp only [getC, hv, ht]
    by_cases hj : j = i
    · subst hj; simp [hi]
    · simp [hj]

/-- A damaged vector: `cut` of `Damaged.lean` ignores `update(69, 5)`, where it has no element, and stores 5 at 3. -/
example : Reach cut ∧ (cut.updateC 69 5).toOption.map (fun w => (w.getC 69).toOption) = some (some none) ∧
    (cut.updateC 3 5).toOption.map (fun w => (w.getC 3).toOption) = some (some (some 5)) :=
  ⟨cut_reach, by decide +kernel, by decide +kernel⟩

/-- C02, for every vector value whatever: `try_update` fails exactly out of range, with the index and the length, and otherwise
is `update`. -/
theorem c02_try_update_all (v : PV α) (i : Nat) (x : α) :
    (v.len ≤ i → v.tryUpdate i x = .error (.indexOutOfBounds i v.len)) ∧
    (i < v.len → v.tryUpdate i x = .ok (v.update i x)) :=
  ⟨fun h => by simp [tryUpdate, h], fun h => by simp [tryUpdate, Nat.not_le.2 h]⟩

/-- C02, exactly when it holds, for every reachable vector on which no call panics: when every index below `len` has an element. -/
theorem c02_update_iff [Nonempty α] {v : PV α} (h : Reach v) (hn : NeverPanics v) :
    UpdateCorrect v ↔ ∀ i, i < v.len → v.get i ≠ none := by
  have hall : ∀ i x, (v.update i x).len = v.len ∧ (∀ j, j ≠ i → (v.update i x).get j = v.get j) ∧
      (v.update i x).get i = (v.get i).map fun _ => x := by
    intro i x
    obtain ⟨h1, h2, h3⟩ := (c02_update_all h i x).2 _ (hn.update i x)
    have ok : ∀ (w : PV α) j y, w.getC j = .ok y → w.get j = y := by
      intro w j y e
      by_cases hc : w.ReadPanics j
      · obtain ⟨p, e'⟩ := (getC_panicsIff w j).1 hc
        rw [e'] at e; cases e
      · rw [(getC_panicsIff w j).2 hc] at e; cases e; rfl
    refine ⟨h1, fun j hj => ok _ _ _ ((h2 j hj).trans (hn.get j)), ok _ _ _ ?_⟩
    rw [h3, hn.get i]; rfl
  constructor
  · intro hc i hi hnone
    obtain ⟨x⟩ := ‹Nonempty α›
    have h1 := (hc i x).2 i
    rw [(hall i x).2.2, hnone] at h1
    simp [hi] at h1
  · intro hg i x
    refine ⟨(hall i x).1, fun j => ?_⟩
    by_cases hj : j = i
    · subst hj
      rw [(hall j x).2.2]
      by_cases hl : j < v.len
      · obtain ⟨y, hy⟩ := Option.ne_none_iff_exists'.1 (hg j hl)
        simp [hl, hy]
      · simp [hl, get, Nat.le_of_not_lt hl]
    · simp only [hj, false_and, if_false]; exact (hall i x).2.1 j hj

/-- Meets the hypotheses with a vector that is damaged and one that is not. -/
example : Reach cut ∧ NeverPanics cut ∧ ¬ UpdateCorrect cut ∧ UpdateCorrect (PV.fromIter [1, 2, 3]) := by
  obtain ⟨v, hv, hr, hs, hl, hg⟩ : ∃ v : PV Nat, v = cut ∧ Reach v ∧ v.isShort = false ∧ v.len = 70 ∧ v.get 69 = none :=
    ⟨cut, rfl, cut_reach, by decide +kernel, by decide +kernel, by decide +kernel⟩
  rw [← hv]
  have hn : NeverPanics v := (c58_never_panics_iff hr).2 fun hc => by
    rw [← isShort_iff, hs] at hc; cases hc
  refine ⟨hr, hn, fun hu => (c02_update_iff hr hn).1 hu 69 (by omega) hg, ?_⟩
  intro i x
  exact c02_update_partial (show Intact (PV.fromIter [1, 2, 3]) from ⟨(fromIter_spec _).1⟩) i x

end PV
end Rustica.PVec
