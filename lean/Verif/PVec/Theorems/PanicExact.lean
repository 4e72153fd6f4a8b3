import Verif.PVec.Theorems.NoPanic
import Verif.PVec.Theorems.Damaged

/-!
# C58, exactly: which operation panics on which argument

`c58_no_panic_partial` names histories after which nothing panics.  Here every reachable vector is covered: for each
operation the exact arguments on which it panics, and the exact vectors on which no operation panics at all.
-/

namespace Rustica.PVec

variable {α : Type}

namespace Tree

/-- The recorded length is smaller than what the two buffers hold. -/
def Short (t : Tree α) : Prop := t.len < t.head.length + t.tail.length

theorem treeSizeC_short {t : Tree α} (h : t.Short) : ∃ p, t.treeSizeC = .error p := by
  unfold Short at h
  unfold treeSizeC
  by_cases h1 : t.head.length ≤ t.len
  · rw [subC_ok h1]
    refine ⟨.subOverflow, ?_⟩
    show subC _ _ = _
    simp only [subC]
    rw [if_neg (by omega)]
  · refine ⟨.subOverflow, ?_⟩
    simp only [subC]
    rw [if_neg h1]; rfl

theorem treeSizeC_fit {t : Tree α} (h : ¬ t.Short) : t.treeSizeC = .ok t.treeSize :=
  treeSizeC_ok (by unfold Short at h; omega)

theorem getC_cases (t : Tree α) (i : Nat) :
    (i < t.len → t.head.length ≤ i → t.Short → ∃ p, t.getC i = .error p) ∧
    (¬ (i < t.len ∧ t.head.length ≤ i ∧ t.Short) → t.getC i = .ok (t.get i)) := by
  constructor
  · intro h1 h2 h3
    obtain ⟨p, hp⟩ := treeSizeC_short h3
    refine ⟨p, ?_⟩
    simp only [getC, show ¬ i ≥ t.len by omega, show ¬ i < t.head.length by omega, if_false, subC_ok h2, hp]
    rfl
  · intro h
    by_cases h1 : i ≥ t.len
    · simp only [getC, get, h1, if_true]
    · by_cases h2 : i < t.head.length
      · simp only [getC, get, h1, h2, if_true, if_false]
      · have h3 : ¬ t.Short := fun h3 => h ⟨by omega, by omega, h3⟩
        simp only [getC, get, h1, h2, if_false, subC_ok (show t.head.length ≤ i by omega), treeSizeC_fit h3, ok_bind]
        split
        · rfl
        · rw [subC_ok (by omega)]; rfl

theorem updateC_cases (t : Tree α) (i : Nat) (x : α) :
    (i < t.len → t.head.length ≤ i → t.Short → ∃ p, t.updateC i x = .error p) ∧
    (¬ (i < t.len ∧ t.head.length ≤ i ∧ t.Short) → t.updateC i x = .ok (t.update i x)) := by
  constructor
  · intro h1 h2 h3
    obtain ⟨p, hp⟩ := treeSizeC_short h3
    refine ⟨p, ?_⟩
    simp only [updateC, show ¬ i ≥ t.len by omega, show ¬ i < t.head.length by omega, if_false, subC_ok h2, hp]
    rfl
  · intro h
    by_cases h1 : i ≥ t.len
    · simp only [updateC, update, h1, if_true]
    · by_cases h2 : i < t.head.length
      · simp only [updateC, update, h1, h2, if_true, if_false, setC]; rfl
      · have h3 : ¬ t.Short := fun h3 => h ⟨by omega, by omega, h3⟩
        simp only [updateC, update, h1, h2, if_false, subC_ok (show t.head.length ≤ i by omega), treeSizeC_fit h3,
          ok_bind]
        split
        · rfl
        · rw [subC_ok (by omega)]
          show (if i - t.head.length - t.treeSize < t.tail.length then _ else _) = _
          split
          · rename_i hi; simp only [setC, if_pos hi]; rfl
          · rfl

theorem splitAtC_cases (t : Tree α) (i : Nat) :
    (i < t.len → t.head.length < i → t.Short → ∃ p, t.splitAtC i = .error p) ∧
    (¬ (i < t.len ∧ t.head.length < i ∧ t.Short) → t.splitAtC i = .ok (t.splitAt i)) := by
  constructor
  · intro h1 h2 h3
    obtain ⟨p, hp⟩ := treeSizeC_short h3
    refine ⟨p, ?_⟩
    simp only [splitAtC, show ¬ i = 0 by omega, show ¬ i ≥ t.len by omega, show ¬ i ≤ t.head.length by omega,
      if_false, hp]
    rfl
  · intro h
    by_cases h0 : i = 0
    · simp only [splitAtC, splitAt, h0, if_true]
    · by_cases h1 : i ≥ t.len
      · simp only [splitAtC, splitAt, h0, h1, if_true, if_false]
      · by_cases h2 : i ≤ t.head.length
        · simp only [splitAtC, splitAt, h0, h1, h2, if_true, if_false]
        · have h3 : ¬ t.Short := fun h3 => h ⟨by omega, by omega, h3⟩
          simp only [splitAtC, splitAt, h0, h1, h2, if_false, treeSizeC_fit h3, ok_bind,
            subC_ok (show t.head.length ≤ i by omega)]
          split
          · rw [subC_ok (by omega)]; rfl
          · rfl

theorem popBackC_never {t : Tree α} (h : t.root.Sized) : t.popBackC = .ok t.popBack := by
  by_cases h0 : t.len = 0
  · simp only [popBackC, popBack, h0, if_true]
  · simp only [popBackC, popBack, h0, if_false, subC_ok (show 1 ≤ t.len by omega), ok_bind]
    rcases hl : t.tail.getLast? with _ | y
    · have ht : t.tail = [] := List.getLast?_eq_none_iff.1 hl
      simp only [popFromTreeC, popFromTree, h0, if_false, ht, List.length_nil, subC_ok (Nat.zero_le _), Nat.sub_zero,
        ok_bind, subC_ok (show 1 ≤ t.len by omega), Node.popBackC_eq _ h]
      cases t.root.get (t.len - 1) with
      | none => rfl
      | some y =>
        by_cases h2 : t.len = 1
        · simp only [h2, if_true]
        · simp only [h2, if_false]
          cases t.root.popBack with
          | none => rfl
          | some p => rfl
    · rfl

theorem popFrontC_cases {t : Tree α} (h : t.root.Sized) :
    (t.len ≠ 0 → t.head = [] → t.Short → ∃ p, t.popFrontC = .error p) ∧
    (¬ (t.len ≠ 0 ∧ t.head = [] ∧ t.Short) → t.popFrontC = .ok t.popFront) := by
  constructor
  · intro h0 h1 h2
    obtain ⟨p, hp⟩ := treeSizeC_short h2
    refine ⟨p, ?_⟩
    simp only [popFrontC, h0, if_false, h1, popFrontFromTreeC, hp]
    rfl
  · intro hc
    by_cases h0 : t.len = 0
    · simp only [popFrontC, popFront, h0, if_true]
    · rcases hh : t.head with _ | ⟨y, ys⟩
      · have h3 : ¬ t.Short := fun h3 => hc ⟨h0, hh, h3⟩
        simp only [popFrontC, popFront, h0, if_false, hh, popFrontFromTreeC, popFrontFromTree, treeSizeC_fit h3, ok_bind,
          Node.popFrontC_eq _ h, subC_ok (show 1 ≤ t.len by omega), popFrontFromTailC_ok h0]
        cases t.root.popFront <;> by_cases h1 : t.treeSize > 0 <;> simp only [h1, if_true, if_false] <;> rfl
      · simp only [popFrontC, popFront, h0, if_false, hh, subC_ok (show 1 ≤ t.len by omega), ok_bind]

end Tree

namespace PV

/-- Reading or updating position `i` panics. -/
def ReadPanics (v : PV α) (i : Nat) : Prop :=
  ∃ t, v.inner = .tree t ∧ t.len < t.head.length + t.tail.length ∧ t.head.length ≤ i ∧ i < v.len ∧ i < t.len

/-- Cutting at `i` panics. -/
def CutPanics (v : PV α) (i : Nat) : Prop :=
  ∃ t, v.inner = .tree t ∧ t.len < t.head.length + t.tail.length ∧ t.head.length < i ∧ i < v.len ∧ i < t.len

/-- Taking the first element panics. -/
def FrontPanics (v : PV α) : Prop :=
  ∃ t, v.inner = .tree t ∧ t.len < t.tail.length ∧ t.head = [] ∧ v.len ≠ 0 ∧ t.len ≠ 0

/-- `r` panics, as the model of the operation has no result to give, exactly when `c` holds; otherwise it returns `a`. -/
def PanicsIff {β : Type} (r : Except Panic β) (a : β) (c : Prop) : Prop :=
  (c → ∃ p, r = .error p) ∧ (¬ c → r = .ok a)

theorem PanicsIff.iff {β : Type} {r : Except Panic β} {a : β} {c : Prop} (h : PanicsIff r a c) :
    (∃ p, r = .error p) ↔ c := by
  constructor
  · intro ⟨p, hp⟩
    apply Classical.byContradiction
    intro hc
    rw [h.2 hc] at hp
    cases hp
  · exact h.1

theorem PanicsIff.ok_iff {β : Type} {r : Except Panic β} {a : β} {c : Prop} (h : PanicsIff r a c) :
    r = .ok a ↔ ¬ c := by
  constructor
  · intro hr hc
    obtain ⟨p, hp⟩ := h.1 hc
    rw [hr] at hp
    cases hp
  · exact h.2

theorem panicsIff_of_false {β : Type} {r : Except Panic β} {a : β} {c : Prop} (hc : ¬ c) (h : r = .ok a) :
    PanicsIff r a c := ⟨fun x => absurd x hc, fun _ => h⟩

theorem getC_panicsIff (v : PV α) (i : Nat) : PanicsIff (v.getC i) (v.get i) (v.ReadPanics i) := by
  rcases hv : v.inner with es | t
  · refine panicsIff_of_false ?_ ?_
    · rintro ⟨t, ht, _⟩; rw [hv] at ht; cases ht
    · unfold getC get; rw [hv]; split <;> rfl
  · obtain ⟨h1, h2⟩ := Tree.getC_cases t i
    by_cases hi : i ≥ v.len
    · refine panicsIff_of_false ?_ ?_
      · rintro ⟨t, _, _, _, h, _⟩; omega
      · unfold getC get; simp only [hi, if_true]
    · have e1 : v.getC i = t.getC i := by unfold getC; simp only [hi, if_false, hv]
      have e2 : v.get i = t.get i := by unfold get; simp only [hi, if_false, hv]
      constructor
      · rintro ⟨t', ht, a, b, c, d⟩
        rw [hv] at ht; cases ht
        rw [e1]; exact h1 d b a
      · intro h
        rw [e1, e2]
        exact h2 fun ⟨a, b, c⟩ => h ⟨t, hv, c, b, by omega, a⟩

theorem updateC_panicsIff {v : PV α} (hl : v.Lax) (i : Nat) (x : α) :
    PanicsIff (v.updateC i x) (v.update i x) (v.ReadPanics i) := by
  by_cases hi : i ≥ v.len
  · refine panicsIff_of_false ?_ ?_
    · rintro ⟨t, _, _, _, h, _⟩; omega
    · unfold updateC update; simp only [hi, if_true]
  rcases hv : v.inner with es | t
  · refine panicsIff_of_false ?_ ?_
    · rintro ⟨t, ht, _⟩; rw [hv] at ht; cases ht
    · unfold Lax at hl; rw [hv] at hl
      unfold updateC update
      simp only [hi, if_false, hv, setC, show i < es.length by omega, if_true]; rfl
  · obtain ⟨h1, h2⟩ := Tree.updateC_cases t i x
    constructor
    · rintro ⟨t', ht, a, b, c, d⟩
      rw [hv] at ht; cases ht
      obtain ⟨p, hp⟩ := h1 d b a
      refine ⟨p, ?_⟩
      unfold updateC; simp only [hi, if_false, hv, hp]; rfl
    · intro h
      have := h2 fun ⟨a, b, c⟩ => h ⟨t, hv, c, b, by omega, a⟩
      unfold updateC update; simp only [hi, if_false, hv, this]; rfl

theorem splitAtC_panicsIff (v : PV α) (i : Nat) : PanicsIff (v.splitAtC i) (v.splitAt i) (v.CutPanics i) := by
  by_cases hi : i ≥ v.len
  · refine panicsIff_of_false ?_ ?_
    · rintro ⟨t, _, _, _, h, _⟩; omega
    · unfold splitAtC splitAt; simp only [hi, if_true]
  by_cases h0 : i = 0
  · refine panicsIff_of_false ?_ ?_
    · rintro ⟨t, _, _, h, _, _⟩; omega
    · unfold splitAtC splitAt; rw [if_neg hi, if_neg hi, if_pos h0, if_pos h0]
  have h1 : i ≤ v.len := by omega
  rcases hv : v.inner with es | t
  · refine panicsIff_of_false ?_ ?_
    · rintro ⟨t, ht, _⟩; rw [hv] at ht; cases ht
    · unfold splitAtC splitAt
      simp only [hi, if_false, h0, hv, subC_ok h1]; rfl
  · obtain ⟨c1, c2⟩ := Tree.splitAtC_cases t i
    constructor
    · rintro ⟨t', ht, a, b, c, d⟩
      rw [hv] at ht; cases ht
      obtain ⟨p, hp⟩ := c1 d b a
      refine ⟨p, ?_⟩
      unfold splitAtC; simp only [hi, if_false, h0, hv, hp]; rfl
    · intro h
      have := c2 fun ⟨a, b, c⟩ => h ⟨t, hv, c, b, by omega, a⟩
      unfold splitAtC splitAt; simp only [hi, if_false, h0, hv, this, ok_bind, subC_ok h1]

theorem popBackC_never {v : PV α} (hl : v.Lax) : v.popBackC = .ok v.popBack := by
  by_cases he : v.isEmpty
  · unfold popBackC popBack; simp only [he, if_true]
  have h1 : 1 ≤ v.len := by simp [isEmpty] at he; omega
  rcases hv : v.inner with es | t
  · unfold popBackC popBack
    simp only [he, if_false, hv, subC_ok h1, Bool.false_eq_true]
    cases es.getLast? <;> rfl
  · unfold Lax at hl; rw [hv] at hl
    unfold popBackC popBack
    simp only [he, if_false, hv, subC_ok h1, Bool.false_eq_true, Tree.popBackC_never hl, ok_bind]
    cases t.popBack <;> rfl

theorem popFrontC_panicsIff {v : PV α} (hl : v.Lax) : PanicsIff v.popFrontC v.popFront v.FrontPanics := by
  by_cases he : v.isEmpty
  · refine panicsIff_of_false ?_ ?_
    · rintro ⟨t, _, _, _, h, _⟩; simp [isEmpty] at he; omega
    · unfold popFrontC popFront; simp only [he, if_true]
  have h1 : 1 ≤ v.len := by simp [isEmpty] at he; omega
  rcases hv : v.inner with es | t
  · refine panicsIff_of_false ?_ ?_
    · rintro ⟨t, ht, _⟩; rw [hv] at ht; cases ht
    · unfold popFrontC popFront
      simp only [he, if_false, hv, subC_ok h1, Bool.false_eq_true]
      cases es <;> rfl
  · unfold Lax at hl; rw [hv] at hl
    obtain ⟨c1, c2⟩ := Tree.popFrontC_cases (t := t) hl
    constructor
    · rintro ⟨t', ht, a, b, c, d⟩
      rw [hv] at ht; cases ht
      obtain ⟨p, hp⟩ := c1 d b (by unfold Tree.Short; omega)
      refine ⟨p, ?_⟩
      unfold popFrontC; simp only [he, if_false, hv, hp, Bool.false_eq_true]; rfl
    · intro h
      have := c2 fun ⟨a, b, c⟩ => h ⟨t, hv, by unfold Tree.Short at c; rw [b] at c; simpa using c, b, by omega, a⟩
      unfold popFrontC popFront
      simp only [he, if_false, hv, this, ok_bind, subC_ok h1, Bool.false_eq_true]
      cases t.popFront <;> rfl

theorem takeC_panicsIff (v : PV α) (n : Nat) : PanicsIff (v.takeC n) (v.take n) (v.CutPanics n) := by
  obtain ⟨c1, c2⟩ := splitAtC_panicsIff v n
  by_cases hn : n ≥ v.len
  · refine panicsIff_of_false ?_ ?_
    · rintro ⟨t, _, _, _, h, _⟩; omega
    · unfold takeC take; simp only [hn, if_true]
  · constructor
    · intro h
      obtain ⟨p, hp⟩ := c1 h
      exact ⟨p, by unfold takeC; simp only [hn, if_false, hp]; rfl⟩
    · intro h
      unfold takeC take; simp only [hn, if_false, c2 h]; rfl

theorem skipC_panicsIff (v : PV α) (n : Nat) : PanicsIff (v.skipC n) (v.skip n) (v.CutPanics n) := by
  obtain ⟨c1, c2⟩ := splitAtC_panicsIff v n
  by_cases hn : n ≥ v.len
  · refine panicsIff_of_false ?_ ?_
    · rintro ⟨t, _, _, _, h, _⟩; omega
    · unfold skipC skip; simp only [hn, if_true]
  · constructor
    · intro h
      obtain ⟨p, hp⟩ := c1 h
      exact ⟨p, by unfold skipC; simp only [hn, if_false, hp]; rfl⟩
    · intro h
      unfold skipC skip; simp only [hn, if_false, c2 h]; rfl

theorem insertC_panicsIff (v : PV α) (i : Nat) (x : α) :
    PanicsIff (v.insertC i x) (v.insert i x) (v.CutPanics i) := by
  obtain ⟨c1, c2⟩ := splitAtC_panicsIff v i
  by_cases hi : i ≥ v.len
  · refine panicsIff_of_false ?_ ?_
    · rintro ⟨t, _, _, _, h, _⟩; omega
    · unfold insertC insert; simp only [hi, if_true]
  by_cases h0 : i = 0
  · refine panicsIff_of_false ?_ ?_
    · rintro ⟨t, _, _, h, _, _⟩; omega
    · unfold insertC insert; rw [if_neg hi, if_neg hi, if_pos h0, if_pos h0]
  · constructor
    · intro h
      obtain ⟨p, hp⟩ := c1 h
      exact ⟨p, by unfold insertC; simp only [hi, h0, if_false, hp]; rfl⟩
    · intro h
      unfold insertC insert; simp only [hi, h0, if_false, c2 h]; rfl

/-- The right part of a cut inside is never short, so cutting it again does not panic. -/
theorem splitAt_right_calm {v : PV α} (hl : v.Lax) (i : Nat) (h0 : i ≠ 0) (hi : i < v.len) (n : Nat) :
    ¬ (v.splitAt i).2.CutPanics n := by
  rintro ⟨t', ht, a, b, c, d⟩
  unfold splitAt at ht
  simp only [show ¬ i ≥ v.len by omega, h0, if_false] at ht
  rcases hv : v.inner with es | t
  · rw [hv] at ht; cases ht
  · rw [hv] at ht
    simp only [VectorImpl.tree.injEq] at ht
    unfold Lax at hl; rw [hv] at hl
    by_cases hlt : i < t.len
    · have := (Tree.splitAt_wf hl i h0 hlt).2.toFits.fits
      rw [ht] at this; omega
    · have e : t.splitAt i = (t, Tree.empty) := by
        simp only [Tree.splitAt, h0, if_false, show i ≥ t.len by omega, if_true]
      rw [e] at ht
      rw [← ht] at a; simp [Tree.empty] at a

theorem removeC_panicsIff {v : PV α} (hl : v.Lax) (i : Nat) :
    PanicsIff (v.removeC i) (v.remove i) (v.CutPanics i ∨ (i = 0 ∧ v.CutPanics 1)) := by
  obtain ⟨c1, c2⟩ := splitAtC_panicsIff v i
  by_cases hi : i ≥ v.len
  · refine panicsIff_of_false ?_ ?_
    · rintro (⟨t, _, _, _, h, _⟩ | ⟨rfl, t, _, _, _, h, _⟩) <;> omega
    · unfold removeC remove; simp only [hi, if_true]
  by_cases h1 : v.len = 1
  · refine panicsIff_of_false ?_ ?_
    · rintro (⟨t, _, _, h2, h, _⟩ | ⟨rfl, t, _, _, _, h, _⟩) <;> omega
    · unfold removeC remove; rw [if_neg hi, if_neg hi, if_pos h1, if_pos h1]
  by_cases hc : v.CutPanics i
  · refine ⟨fun _ => ?_, fun h => absurd (Or.inl hc) h⟩
    obtain ⟨p, hp⟩ := c1 hc
    exact ⟨p, by unfold removeC; simp only [hi, h1, if_false, hp]; rfl⟩
  · have hs := c2 hc
    obtain ⟨k1, k2⟩ := skipC_panicsIff (v.splitAt i).2 1
    have ok : (v.splitAt i).2.skipC 1 = .ok ((v.splitAt i).2.skip 1) → v.removeC i = .ok (v.remove i) := by
      intro hk
      unfold removeC remove; simp only [hi, h1, if_false, hs, ok_bind, hk]
    by_cases h0 : i = 0
    · subst h0
      have e : (v.splitAt 0).2 = v := by unfold splitAt; simp only [hi, if_false, if_true]
      rw [e] at k1 k2 ok
      constructor
      · rintro (h | ⟨_, h⟩)
        · exact absurd h hc
        · obtain ⟨p, hp⟩ := k1 h
          exact ⟨p, by unfold removeC; simp only [hi, h1, if_false, hs, ok_bind, e, hp]; rfl⟩
      · intro h
        exact ok (k2 fun hh => h (Or.inr ⟨rfl, hh⟩))
    · refine panicsIff_of_false ?_ (ok (k2 (splitAt_right_calm hl i h0 (by omega) 1)))
      rintro (h | ⟨h, _⟩)
      · exact hc h
      · exact h0 h

theorem lastC_panicsIff (v : PV α) : PanicsIff v.lastC v.last (v.ReadPanics (v.len - 1)) := by
  by_cases h0 : v.len > 0
  · obtain ⟨c1, c2⟩ := getC_panicsIff v (v.len - 1)
    have e1 : v.lastC = v.getC (v.len - 1) := by
      unfold lastC; simp only [h0, if_true, subC_ok (show 1 ≤ v.len by omega), ok_bind]
    have e2 : v.last = v.get (v.len - 1) := by unfold last; simp only [h0, if_true]
    rw [e1, e2]
    exact ⟨c1, c2⟩
  · refine panicsIff_of_false ?_ ?_
    · rintro ⟨t, _, _, _, h, _⟩; omega
    · unfold lastC last; simp only [h0, if_false]

/-- C58, every operation, every reachable vector, every argument: the exact condition under which it panics; in all other
cases it returns what the unchecked model says.  `pop_back` never panics. -/
theorem c58_panics_iff {v : PV α} (h : Reach v) (i : Nat) (x : α) :
    PanicsIff (v.getC i) (v.get i) (v.ReadPanics i) ∧
    PanicsIff v.lastC v.last (v.ReadPanics (v.len - 1)) ∧
    PanicsIff (v.updateC i x) (v.update i x) (v.ReadPanics i) ∧
    PanicsIff v.popBackC v.popBack False ∧
    PanicsIff v.popFrontC v.popFront v.FrontPanics ∧
    PanicsIff (v.splitAtC i) (v.splitAt i) (v.CutPanics i) ∧
    PanicsIff (v.takeC i) (v.take i) (v.CutPanics i) ∧
    PanicsIff (v.skipC i) (v.skip i) (v.CutPanics i) ∧
    PanicsIff (v.insertC i x) (v.insert i x) (v.CutPanics i) ∧
    PanicsIff (v.removeC i) (v.remove i) (v.CutPanics i ∨ (i = 0 ∧ v.CutPanics 1)) :=
  ⟨getC_panicsIff v i, lastC_panicsIff v, updateC_panicsIff h.lax i x,
    panicsIff_of_false (fun x => x) (popBackC_never h.lax), popFrontC_panicsIff h.lax, splitAtC_panicsIff v i,
    takeC_panicsIff v i, skipC_panicsIff v i, insertC_panicsIff v i x, removeC_panicsIff h.lax i⟩

example : PanicsIff (broken.getC 3) (broken.get 3) (broken.ReadPanics 3) := (c58_panics_iff broken_reach 3 0).1

/-- C58 in one test: on a reachable vector some operation panics exactly when reading the position right after the prefix
buffer does, that is, when the buffers of the tree hold more elements than its recorded length and that position is below
both lengths. -/
theorem c58_never_panics_iff {v : PV α} (h : Reach v) :
    NeverPanics v ↔ ¬ ∃ t, v.inner = .tree t ∧ t.len < t.head.length + t.tail.length ∧
      t.head.length < v.len ∧ t.head.length < t.len := by
  constructor
  · rintro hn ⟨t, ht, a, b, c⟩
    exact ((getC_panicsIff v t.head.length).ok_iff.1 (hn.get _)) ⟨t, ht, a, Nat.le_refl _, b, c⟩
  · intro hn
    have hr : ∀ i, ¬ v.ReadPanics i := fun i ⟨t, ht, a, b, c, d⟩ => hn ⟨t, ht, a, by omega, by omega⟩
    have hc : ∀ i, ¬ v.CutPanics i := fun i ⟨t, ht, a, b, c, d⟩ => hn ⟨t, ht, a, by omega, by omega⟩
    have hf : ¬ v.FrontPanics := by
      rintro ⟨t, ht, a, b, c, d⟩
      exact hn ⟨t, ht, by simp [b, a], by simp [b]; omega, by simp [b]; omega⟩
    exact
      { get := fun i => (getC_panicsIff v i).2 (hr i)
        last := (lastC_panicsIff v).2 (hr _)
        update := fun i x => (updateC_panicsIff h.lax i x).2 (hr i)
        popBack := popBackC_never h.lax
        popFront := (popFrontC_panicsIff h.lax).2 hf
        splitAt := fun i => (splitAtC_panicsIff v i).2 (hc i)
        take := fun i => (takeC_panicsIff v i).2 (hc i)
        skip := fun i => (skipC_panicsIff v i).2 (hc i)
        insert := fun i x => (insertC_panicsIff v i x).2 (hc i)
        remove := fun i => (removeC_panicsIff h.lax i).2 (by
          rintro (hh | ⟨_, hh⟩)
          · exact hc _ hh
          · exact hc _ hh) }

/-- The condition of `c58_never_panics_iff`, as a test. -/
def isShort (v : PV α) : Bool :=
  match v.inner with
  | .inline _ => false
  | .tree t => decide (t.len < t.head.length + t.tail.length ∧ t.head.length < v.len ∧ t.head.length < t.len)

theorem isShort_iff (v : PV α) : v.isShort = true ↔ ∃ t, v.inner = .tree t ∧
    t.len < t.head.length + t.tail.length ∧ t.head.length < v.len ∧ t.head.length < t.len := by
  unfold isShort
  split
  · rename_i es he; simp [he]
  · rename_i t he; simp [he]

/-- `broken` of `Damaged.lean` is such a vector. -/
example : ∃ v : PV Nat, Reach v ∧ v.isShort = true ∧ ¬ NeverPanics v := by
  obtain ⟨v, hr, hs⟩ : ∃ v : PV Nat, Reach v ∧ v.isShort = true := ⟨broken, broken_reach, by decide +kernel⟩
  exact ⟨v, hr, hs, fun hn => (c58_never_panics_iff hr).1 hn ((isShort_iff v).1 hs)⟩

/-- Does the call panic? -/
def fails {β : Type} (r : Except Panic β) : Bool :=
  match r with
  | .error _ => true
  | .ok _ => false

/-- None of the conditions of `c58_panics_iff` other than the one of `pop_back` is empty: there are vectors made by public
calls on which the operations panic. -/
theorem c58_each_false :
    (∃ v : PV Nat, Reach v ∧ fails (v.getC 4) = true ∧ fails v.lastC = true ∧ fails (v.updateC 4 0) = true ∧
      fails (v.splitAtC 4) = true ∧ fails (v.takeC 4) = true ∧ fails (v.skipC 4) = true ∧
      fails (v.insertC 4 0) = true ∧ fails (v.removeC 4) = true) ∧
    (∃ v : PV Nat, Reach v ∧ fails v.popFrontC = true ∧ fails (v.removeC 0) = true) := by
  constructor
  · exact ⟨broken.pushBack 9, .pushBack 9 broken_reach, by decide +kernel⟩
  · exact ⟨times 3 dropFront (times 4 (·.pushBack 9) broken), reach_times (fun _ => reach_dropFront) _ _
      (reach_times (fun _ h => .pushBack 9 h) _ _ broken_reach), by decide +kernel⟩

/-- `cut`, though damaged, is not: no operation on it panics. -/
example : ∃ v : PV Nat, Reach v ∧ v.len = 70 ∧ v.toVec.length = 64 ∧ NeverPanics v := by
  obtain ⟨v, hr, h1, h2, hs⟩ : ∃ v : PV Nat, Reach v ∧ v.len = 70 ∧ v.toVec.length = 64 ∧ v.isShort = false :=
    ⟨cut, cut_reach, by decide +kernel, by decide +kernel, by decide +kernel⟩
  refine ⟨v, hr, h1, h2, (c58_never_panics_iff hr).2 fun h => ?_⟩
  rw [(isShort_iff v).2 h] at hs
  cases hs

end PV
end Rustica.PVec
