import Verif.PVec.Theorems.Intact

/-!
# Vectors with a gap: what a bad cut leaves behind, and what every later call makes of it

A cut at the wrong place loses elements but keeps the recorded length.  The result is a vector
that reads as a sequence followed by a *gap*: positions below `len()` at which `get` returns `None`.
This file follows such vectors through every operation.  They are the only kind of damage unless a
`pop_back` meets a stale end or a `pop_front` a stale front (`StaleEnd`, `StaleFront`).
-/

namespace Rustica.PVec
namespace PV

variable {α β : Type}

/-- Specification: everything the API can observe about `v` is the sequence `xs` followed by `k`
positions that are counted by `len()` but hold nothing. -/
structure Reads (v : PV α) (xs : List α) (k : Nat) : Prop where
  len : v.len = xs.length + k
  get : ∀ i, v.get i = xs[i]?
  toVec : v.toVec = xs

/-- Without a gap this is `Shows`. -/
theorem reads_zero {v : PV α} {xs : List α} : v.Reads xs 0 ↔ v.Shows xs := by
  constructor
  · intro h
    refine ⟨h.len, ?_, h.get, h.toVec⟩
    have := h.len
    unfold PV.isEmpty
    rw [this]; cases xs <;> simp
  · intro h; exact ⟨h.len, h.get, h.toVec⟩

/-- With a gap a vector does not show any sequence. -/
theorem Reads.not_shows {v : PV α} {xs ys : List α} {k : Nat} (h : v.Reads xs (k + 1)) :
    ¬ v.Shows ys := by
  intro hs
  have e : xs = ys := by rw [← h.toVec, hs.toVec]
  have := h.len
  rw [hs.len, e] at this
  omega

theorem Reads.shows_iff {v : PV α} {xs ys : List α} {k : Nat} (h : v.Reads xs k) :
    v.Shows ys ↔ k = 0 ∧ xs = ys := by
  cases k with
  | zero =>
    refine ⟨fun hs => ⟨rfl, (reads_zero.1 h).unique hs⟩, ?_⟩
    rintro ⟨_, rfl⟩; exact reads_zero.1 h
  | succ k => exact ⟨fun hs => absurd hs h.not_shows, fun hc => by omega⟩

/-- The trees are in order; the recorded length of the vector may be too large. -/
def Readable (v : PV α) : Prop :=
  match v.inner with
  | .inline es => v.len = es.length ∧ es.length ≤ ADAPTIVE_INLINE_SIZE
  | .tree t => t.WF ∧ t.len ≤ v.len

/-- The size of the gap. -/
def gap (v : PV α) : Nat := v.len - v.abs.length

theorem Readable.of_intact {v : PV α} (h : Intact v) : Readable v := by
  have hw := h.wf
  unfold WF at hw; unfold Readable
  split at hw
  · rename_i es he; rw [he]; exact hw
  · rename_i t he; rw [he]; exact ⟨hw.1, by omega⟩

theorem Readable.length_le {v : PV α} (h : Readable v) : v.abs.length ≤ v.len := by
  unfold Readable at h; unfold abs
  split at h
  · rename_i es he; rw [he]; simp [h.1]
  · rename_i t he; rw [he]; simp [h.1.length, h.2]

theorem Readable.len_eq {v : PV α} (h : Readable v) : v.len = v.abs.length + v.gap := by
  have := h.length_le; unfold gap; omega

theorem Readable.get_eq {v : PV α} (h : Readable v) (i : Nat) : v.get i = v.abs[i]? := by
  have hl := h.length_le
  unfold PV.get
  split
  · rw [List.getElem?_eq_none (by omega)]
  · unfold Readable at h
    unfold abs
    split at h
    · rename_i es he; simp [he]
    · rename_i t ht; simp [ht, Tree.get_eq h.1]

theorem collect_gap (v : PV α) (xs : List α) (hlen : xs.length ≤ v.len)
    (hget : ∀ i, v.get i = xs[i]?) : ∀ fuel p, p ≤ xs.length → xs.length < p + fuel →
    Iter.collect fuel ⟨v, p⟩ = xs.drop p := by
  intro fuel
  induction fuel with
  | zero => intro p h1 h2; omega
  | succ fuel ih =>
    intro p h1 h2
    simp only [Iter.collect, Iter.next]
    by_cases hx : p < xs.length
    · simp only [show p < v.len by omega, if_true, hget]
      rw [List.getElem?_eq_getElem hx]
      simp only
      rw [ih (p + 1) (by omega) (by omega), ← List.drop_eq_getElem_cons hx]
    · have : p = xs.length := by omega
      subst this
      by_cases hp : xs.length < v.len
      · simp [hp, hget]
      · simp [hp]

theorem Readable.toVec_eq {v : PV α} (h : Readable v) : v.toVec = v.abs := by
  have hl := h.length_le
  unfold PV.toVec items iter
  rw [collect_gap v v.abs hl h.get_eq (v.len + 1) 0 (by omega) (by omega)]
  simp

/-- A readable vector reads as its contents followed by its gap. -/
theorem Readable.reads {v : PV α} (h : Readable v) : v.Reads v.toVec v.gap :=
  ⟨by rw [h.toVec_eq]; exact h.len_eq, fun i => by rw [h.toVec_eq]; exact h.get_eq i, rfl⟩

theorem Readable.reads_abs {v : PV α} (h : Readable v) {xs : List α} {k : Nat} (ha : v.abs = xs)
    (hl : v.len = xs.length + k) : v.Reads xs k :=
  ⟨hl, fun i => by rw [← ha]; exact h.get_eq i, by rw [← ha]; exact h.toVec_eq⟩

/-- Intact vectors are the readable ones without a gap. -/
theorem intact_iff_gap {v : PV α} : Intact v ↔ Readable v ∧ v.gap = 0 := by
  constructor
  · intro h
    refine ⟨.of_intact h, ?_⟩
    have := h.wf.length
    unfold gap; omega
  · rintro ⟨h, hg⟩
    have hl := h.length_le
    unfold gap at hg
    constructor
    unfold Readable at h; unfold WF
    unfold abs at hl hg
    split at h
    · rename_i es he; rw [he]; exact h
    · rename_i t he
      rw [he] at hl hg ⊢
      have := h.1.length
      simp only at hl hg
      exact ⟨h.1, by omega⟩

/-! ## Growing operations and `update` -/

theorem Readable.treePushBack {v : PV α} (h : Readable v) {t : Tree α} (ht : v.inner = .tree t)
    (x : α) : Readable (v.treePushBack x) ∧ (v.treePushBack x).abs = v.abs ++ [x] ∧
      (v.treePushBack x).len = v.len + 1 := by
  unfold Readable at h
  rw [ht] at h
  obtain ⟨h1, h2, h3⟩ := Tree.pushBack_spec h.1 x
  simp only [PV.treePushBack, ht]
  exact ⟨⟨h1, by simp only [h3]; omega⟩, by simp [abs, ht, h2], trivial⟩

theorem Readable.treePushFront {v : PV α} (h : Readable v) {t : Tree α} (ht : v.inner = .tree t)
    (x : α) : Readable (v.treePushFront x) ∧ (v.treePushFront x).abs = x :: v.abs ∧
      (v.treePushFront x).len = v.len + 1 := by
  unfold Readable at h
  rw [ht] at h
  obtain ⟨h1, h2, h3⟩ := Tree.pushFront_spec h.1 x
  simp only [PV.treePushFront, ht]
  exact ⟨⟨h1, by simp only [h3]; omega⟩, by simp [abs, ht, h2], trivial⟩

theorem Readable.intact_inline {v : PV α} (h : Readable v) {es : List α} (he : v.inner = .inline es) :
    Intact v := by
  constructor
  unfold Readable at h; unfold WF
  rw [he] at h ⊢; exact h

theorem Readable.pushBack {v : PV α} (h : Readable v) (x : α) :
    Readable (v.pushBack x) ∧ (v.pushBack x).abs = v.abs ++ [x] ∧ (v.pushBack x).len = v.len + 1 := by
  cases hin : v.inner with
  | inline es =>
    have hi := h.intact_inline hin
    have hs := pushBack_spec hi.wf x
    refine ⟨.of_intact ⟨hs.1⟩, hs.2, ?_⟩
    rw [← hs.1.length, hs.2, ← hi.wf.length]; simp
  | tree t =>
    have e : v.pushBack x = v.treePushBack x := by simp [PV.pushBack, hin]
    rw [e]; exact h.treePushBack hin x

theorem Readable.pushFront {v : PV α} (h : Readable v) (x : α) :
    Readable (v.pushFront x) ∧ (v.pushFront x).abs = x :: v.abs ∧
      (v.pushFront x).len = v.len + 1 := by
  cases hin : v.inner with
  | inline es =>
    have hi := h.intact_inline hin
    have hs := pushFront_spec hi.wf x
    refine ⟨.of_intact ⟨hs.1⟩, hs.2, ?_⟩
    rw [← hs.1.length, hs.2, ← hi.wf.length]; simp
  | tree t =>
    have e : v.pushFront x = v.treePushFront x := by simp [PV.pushFront, hin]
    rw [e]; exact h.treePushFront hin x

theorem Readable.extend {v : PV α} (h : Readable v) (xs : List α) :
    Readable (v.extend xs) ∧ (v.extend xs).abs = v.abs ++ xs ∧
      (v.extend xs).len = v.len + xs.length := by
  unfold PV.extend
  induction xs generalizing v with
  | nil => exact ⟨h, by simp, by simp⟩
  | cons x xs ih =>
    obtain ⟨h1, h2, h3⟩ := h.pushBack x
    obtain ⟨h4, h5, h6⟩ := ih h1
    exact ⟨h4, by simp [h5, h2], by simp only [List.foldl_cons, h6, h3, List.length_cons]; omega⟩

theorem Readable.update {v : PV α} (h : Readable v) (i : Nat) (x : α) :
    Readable (v.update i x) ∧ (v.update i x).abs = v.abs.set i x ∧ (v.update i x).len = v.len := by
  cases hin : v.inner with
  | inline es =>
    have hs := update_spec (h.intact_inline hin).wf i x
    exact ⟨.of_intact ⟨hs.1⟩, hs.2⟩
  | tree t =>
    have hl := h.length_le
    unfold PV.update
    split
    · exact ⟨h, by rw [List.set_eq_of_length_le (by omega)], rfl⟩
    · unfold Readable at h
      rw [hin] at h ⊢
      obtain ⟨h1, h2, h3⟩ := Tree.update_spec h.1 i x
      exact ⟨⟨h1, by simp only [h3]; exact h.2⟩, by simp [abs, hin, h2], rfl⟩

theorem Readable.concat {a b : PV α} (ha : Readable a) (hb : Readable b) :
    Readable (a.concat b) ∧
    (a.concat b).abs =
      (if a.abs ≠ [] ∧ b.abs ≠ [] ∧ a.heightOf < b.heightOf then b.abs ++ a.abs
       else a.abs ++ b.abs) ∧
    (a.concat b).len = a.len + b.len := by
  have tree : ∀ (l r : Tree α) (g : Nat), l.WF → r.WF → l.len ≤ a.len → r.len ≤ b.len →
      a.abs = l.toList → b.abs = r.toList → a.heightOf = l.height → b.heightOf = r.height →
      Readable ({ inner := .tree (l.concat r), len := a.len + b.len, generation := g } : PV α) ∧
      ({ inner := .tree (l.concat r), len := a.len + b.len, generation := g } : PV α).abs =
        (if a.abs ≠ [] ∧ b.abs ≠ [] ∧ a.heightOf < b.heightOf then b.abs ++ a.abs
        else a.abs ++ b.abs) ∧ a.len + b.len = a.len + b.len := by
    intro l r g hl hr e1 e2 e3 e4 e5 e6
    obtain ⟨c1, c2, c3⟩ := Tree.concat_spec hl hr
    refine ⟨⟨c1, by simp only [c2]; omega⟩, ?_, rfl⟩
    show (l.concat r).toList = _
    rw [c3, e3, e4, e5, e6]
    have hla : (l.len ≠ 0) ↔ (l.toList ≠ []) := by
      rw [← hl.length]; simp
    have hlb : (r.len ≠ 0) ↔ (r.toList ≠ []) := by
      rw [← hr.length]; simp
    simp only [hla, hlb]
  unfold PV.concat
  unfold Readable at ha hb
  split
  · rename_i l r hl hr
    rw [hl] at ha; rw [hr] at hb
    obtain ⟨h1, h2, h3⟩ := fromIter_spec (l ++ r)
    refine ⟨.of_intact ⟨h1⟩, ?_, ?_⟩
    · rw [h2]; simp [heightOf, abs, hl, hr]
    · rw [h3, List.length_append, ha.1, hb.1]
  · rename_i l r hl hr
    rw [hl] at ha; rw [hr] at hb
    obtain ⟨h1, h2, h3, _⟩ := Tree.fromElements_spec l
    exact tree _ _ _ h1 hb.1 (by rw [ha.1, h3]; exact Nat.le_refl _) hb.2 (by simp [abs, hl, h2])
      (by simp [abs, hr]) (by simp [heightOf, hl, fromElements_height ha.2]) (by simp [heightOf, hr])
  · rename_i l r hl hr
    rw [hl] at ha; rw [hr] at hb
    obtain ⟨h1, h2, h3, _⟩ := Tree.fromElements_spec r
    exact tree _ _ _ ha.1 h1 ha.2 (by rw [hb.1, h3]; exact Nat.le_refl _) (by simp [abs, hl])
      (by simp [abs, hr, h2]) (by simp [heightOf, hl]) (by simp [heightOf, hr, fromElements_height hb.2])
  · rename_i l r hl hr
    rw [hl] at ha; rw [hr] at hb
    exact tree _ _ _ ha.1 hb.1 ha.2 hb.2 (by simp [abs, hl]) (by simp [abs, hr])
      (by simp [heightOf, hl]) (by simp [heightOf, hr])

/-! ## Taking apart -/

theorem Readable.tree {v : PV α} (h : Readable v) {t : Tree α} (ht : v.inner = .tree t) :
    t.WF ∧ t.len ≤ v.len ∧ v.abs = t.toList := by
  unfold Readable at h; rw [ht] at h
  exact ⟨h.1, h.2, by simp [abs, ht]⟩

theorem readable_tree {v : PV α} {t : Tree α} (ht : v.inner = .tree t) :
    Readable v ↔ t.WF ∧ t.len ≤ v.len := by
  unfold Readable; rw [ht]

/-- `pop_back`: whatever it returns is the last element, and the gap stays, unless the end is stale. -/
theorem Readable.popBack {v w : PV α} {x : α} (h : Readable v) (hn : ¬ StaleEnd v)
    (hp : v.popBack = some (w, x)) :
    Readable w ∧ v.abs = w.abs ++ [x] ∧ v.len = w.len + 1 := by
  cases hin : v.inner with
  | inline es =>
    have hi := h.intact_inline hin
    have hw := h
    unfold Readable at hw; rw [hin] at hw
    unfold PV.popBack isEmpty at hp
    split at hp
    · cases hp
    · rename_i h0
      rw [hin] at hp
      simp only at hp
      split at hp
      · rename_i last hl
        simp only [Option.some.injEq, Prod.mk.injEq] at hp
        obtain ⟨rfl, rfl⟩ := hp
        have hne : es ≠ [] := by intro e; simp [e] at hl
        have hpos := List.length_pos_iff.2 hne
        rw [List.getLast?_eq_some_getLast hne] at hl
        simp only [Option.some.injEq] at hl
        refine ⟨⟨by simp [hw.1], by simp; omega⟩, ?_, by simp; omega⟩
        simp only [abs, hin, ← hl]
        exact (List.dropLast_concat_getLast hne).symm
      · cases hp
  | tree t =>
    obtain ⟨hwf, hl, ha⟩ := h.tree hin
    unfold PV.popBack isEmpty at hp
    split at hp
    · cases hp
    · rename_i h0
      rw [hin] at hp
      simp only [Option.map_eq_some_iff, Prod.mk.injEq] at hp
      obtain ⟨⟨t', y⟩, e, rfl, rfl⟩ := hp
      have ht0 : t.len ≠ 0 := by
        intro e0; simp [Tree.popBack, e0] at e
      have fin : ∀ (hc : t.tail ≠ [] ∨ (t.head = [] ∧ (t.root.lastLeaf ≠ [] ∨ t.len = 1))),
          Readable (⟨.tree t', v.len - 1, v.generation + 1⟩ : PV α) ∧
          v.abs = t'.toList ++ [y] ∧ v.len = v.len - 1 + 1 := by
        intro hc
        obtain ⟨t2, x2, e2, w2, l2, n2⟩ := Tree.popBack_ok hwf ht0 hc
        rw [e] at e2; cases e2
        exact ⟨⟨w2, by simp only [n2]; omega⟩, by rw [ha, l2], by omega⟩
      by_cases ht : t.tail = []
      · by_cases hh : t.head = []
        · by_cases hs : t.root.lastLeaf = []
          · by_cases h2 : 2 ≤ t.len
            · exact absurd ⟨t, hin, ht, hh, hs, h2⟩ hn
            · exact fin (.inr ⟨hh, .inr (by omega)⟩)
          · exact fin (.inr ⟨hh, .inl hs⟩)
        · rw [Tree.popBack_none hwf ht hh] at e; cases e
      · exact fin (.inl ht)

/-- `pop_front`: whatever it returns is the first element, and the gap stays, unless the front is
stale; what is left is reversed when only the suffix buffer was left. -/
theorem Readable.popFront {v w : PV α} {x : α} (h : Readable v) (hn : ¬ StaleFront v)
    (hp : v.popFront = some (w, x)) :
    Readable w ∧ v.len = w.len + 1 ∧ ∃ ys, v.abs = x :: ys ∧
      (w.abs = ys ∨ TailOnly v ∧ w.abs = ys.reverse) := by
  cases hin : v.inner with
  | inline es =>
    have hw := h
    unfold Readable at hw; rw [hin] at hw
    unfold PV.popFront isEmpty at hp
    split at hp
    · cases hp
    · rw [hin] at hp
      simp only at hp
      split at hp
      · rename_i first rest
        simp only [Option.some.injEq, Prod.mk.injEq] at hp
        obtain ⟨rfl, rfl⟩ := hp
        have hw2 := hw.2
        have hw1 := hw.1
        simp only [List.length_cons] at hw1 hw2
        exact ⟨⟨by simp [hw1], by omega⟩, by simp only; omega, rest, by simp [abs, hin], .inl rfl⟩
      · cases hp
  | tree t =>
    obtain ⟨hwf, hl, ha⟩ := h.tree hin
    unfold PV.popFront isEmpty at hp
    split at hp
    · cases hp
    · rename_i h0
      rw [hin] at hp
      simp only [Option.map_eq_some_iff, Prod.mk.injEq] at hp
      obtain ⟨⟨t', y⟩, e, rfl, rfl⟩ := hp
      have ht0 : t.len ≠ 0 := by
        intro e0; simp [Tree.popFront, e0] at e
      by_cases hto : t.head = [] ∧ t.root.flat = []
      · cases htl : t.tail with
        | nil =>
          have := hwf.len
          simp [hto.1, hto.2, htl] at this
          exact absurd this ht0
        | cons z ys =>
          obtain ⟨t2, e2, w2, l2, n2⟩ := Tree.popFront_tail hwf hto.1 hto.2 z ys htl
          rw [e] at e2; cases e2
          refine ⟨⟨w2, by simp only [n2]; omega⟩, by simp only; omega, ys, ?_, .inr ⟨⟨t, hin, hto⟩, l2⟩⟩
          rw [ha]; simp [Tree.toList, hto.1, hto.2, htl]
      · obtain ⟨t2, x2, e2, w2, l2, n2⟩ := Tree.popFront_ok hwf ht0 (by
          by_cases hh : t.head = []
          · right; left
            have h1 : t.root.flat ≠ [] := fun he => hto ⟨hh, he⟩
            exact ⟨h1, fun he => hn ⟨t, hin, hh, h1, he⟩⟩
          · exact .inl hh)
        rw [e] at e2; cases e2
        exact ⟨⟨w2, by simp only [n2]; omega⟩, by simp only; omega, t'.toList, by rw [ha, l2], .inl rfl⟩

/-- `split_at`: both parts are readable; the left one is a prefix of what it should be, the right one
a part of what it should be (nothing is invented, duplicated or moved), and the lengths are always
the right ones. -/
theorem Readable.splitAt {v : PV α} (h : Readable v) (n : Nat) (hn : n ≤ v.len) :
    Readable (v.splitAt n).1 ∧ Readable (v.splitAt n).2 ∧
    (v.splitAt n).1.len = n ∧ (v.splitAt n).2.len = v.len - n ∧
    (v.splitAt n).1.abs <+: v.abs.take n ∧ (v.splitAt n).2.abs.Sublist (v.abs.drop n) ∧
    ((v.splitAt n).1.abs = v.abs.take n ↔ LeftOk v n) ∧
    ((v.splitAt n).2.abs = v.abs.drop n ↔ RightOk v n) := by
  have hle := h.length_le
  by_cases hge : n ≥ v.len
  · have e : n = v.len := by omega
    subst e
    have e : v.splitAt v.len = (v, new) := by simp [PV.splitAt]
    have no : ∀ t, v.inner = .tree t → ¬ t.Inside v.len := by
      intro t ht hi
      obtain ⟨hwf, hl, ha⟩ := h.tree ht
      have := hwf.len
      have := hi.2
      omega
    rw [e, List.take_of_length_le hle, List.drop_of_length_le hle]
    exact ⟨h, .of_intact intact_new, rfl, by simp [PV.new], List.prefix_refl _, by simp,
      by simp [LeftOk]; exact fun t ht hi => absurd hi (no t ht),
      by simp [RightOk]; exact fun t ht hi => absurd hi (no t ht)⟩
  · by_cases h0 : n = 0
    · subst h0
      have e : v.splitAt 0 = (new, v) := by simp [PV.splitAt]; omega
      have no : ∀ t, v.inner = .tree t → ¬ t.Inside 0 := by
        intro t ht hi; exact absurd hi.1 (by omega)
      rw [e]
      exact ⟨.of_intact intact_new, h, rfl, rfl, by simp, by simp,
        by simp [LeftOk]; exact fun t ht hi => absurd hi (no t ht),
        by simp [RightOk]; exact fun t ht hi => absurd hi (no t ht)⟩
    · cases hin : v.inner with
      | inline es =>
        have hw := h
        unfold Readable at hw; rw [hin] at hw
        have e : v.splitAt n = (⟨.inline (es.take n), n, v.generation + 1⟩,
            ⟨.inline (es.drop n), v.len - n, v.generation + 1⟩) := by
          simp [PV.splitAt, hge, h0, hin]
        rw [e]
        refine ⟨⟨by simp only [List.length_take]; omega, by simp only [List.length_take]; omega⟩,
          ⟨by simp only [List.length_drop]; omega, by simp only [List.length_drop]; omega⟩,
          rfl, rfl, by simp [abs, hin], by simp [abs, hin], ?_, ?_⟩
        · simp only [abs, hin, true_iff]
          intro t ht; rw [hin] at ht; cases ht
        · simp only [abs, hin, true_iff]
          intro t ht; rw [hin] at ht; cases ht
      | tree t =>
        obtain ⟨hwf, hl, ha⟩ := h.tree hin
        have e : v.splitAt n = (⟨.tree (t.splitAt n).1, n, v.generation + 1⟩,
            ⟨.tree (t.splitAt n).2, v.len - n, v.generation + 1⟩) := by
          simp [PV.splitAt, hge, h0, hin]
        rw [e, ha]
        by_cases hi : t.Inside n
        · obtain ⟨w1, w2, before, after, e1, e2, e3, e4⟩ := Tree.splitAt_exact hwf hi
          obtain ⟨hst, hlt, _⟩ := Tree.split_exact t.root hwf.sized t.height (n - t.head.length)
            (by have := hi.1; have := hi.2; omega)
          obtain ⟨rest, hrest⟩ := Node.flat_firstLeaf _ hst
          have hL : LeftOk v n ↔ (cutAt t n).2 ≤ (cutAt t n).1.firstLeaf.length :=
            ⟨fun hh => hh t hin hi, fun hh t2 ht2 _ => by rw [hin] at ht2; cases ht2; exact hh⟩
          have hR : RightOk v n ↔ (cutAt t n).1.flat = (cutAt t n).1.firstLeaf :=
            ⟨fun hh => hh t hin hi, fun hh t2 ht2 _ => by rw [hin] at ht2; cases ht2; exact hh⟩
          rw [hL, hR]
          unfold cutAt
          rw [Node.flat_eq_firstLeaf_iff hst]
          generalize (t.root.stop t.height (n - t.head.length)).1 = m at *
          generalize (t.root.stop t.height (n - t.head.length)).2 = r at *
          have n1 := congrArg List.length e3
          have n2 := congrArg List.length e4
          have n3 := congrArg List.length e1
          have n4 := congrArg List.length hrest
          rw [hwf.length] at n3
          rw [w1.length] at n1
          rw [w2.length] at n2
          have htl : t.toList.take n = before ++ (m.firstLeaf ++ rest).take r := by
            rw [e1, hrest, e2, List.append_assoc, List.take_length_add_append,
              List.take_append_of_le_length (by rw [← hrest]; omega)]
          have hdl : t.toList.drop n = (m.firstLeaf ++ rest).drop r ++ after := by
            rw [e1, hrest, e2, List.append_assoc, List.drop_length_add_append,
              List.drop_append_of_le_length (by rw [← hrest]; omega)]
          have hlt' : r < m.firstLeaf.length + rest.length := by
            have := hlt; rw [hrest] at this; simpa using this
          simp only [List.length_append, List.length_take, List.length_drop] at n1 n2 n3 n4
          refine ⟨⟨w1, ?_⟩, ⟨w2, ?_⟩, rfl, rfl, ?_, ?_, ?_, ?_⟩
          · simp only [n1]; omega
          · simp only [n2]; omega
          · simp only [abs, e3, htl, List.take_append]
            exact (List.prefix_append_right_inj _).2 (List.prefix_append _ _)
          · simp only [abs, e4, hdl, List.drop_append]
            exact List.Sublist.append_right (List.sublist_append_left _ _) _
          · simp only [abs, e3, htl]
            rw [List.append_cancel_left_eq, List.take_append]
            constructor
            · intro hh
              have := congrArg List.length hh
              simp only [List.length_take, List.length_append] at this
              omega
            · intro hc
              simp [show r - m.firstLeaf.length = 0 by omega]
          · simp only [abs, e4, hdl]
            rw [List.append_cancel_right_eq, List.drop_append]
            constructor
            · intro hh
              have := congrArg List.length hh
              simp only [List.length_drop, List.length_append] at this
              omega
            · intro hc
              have : rest = [] := List.length_eq_zero_iff.1 (by omega)
              simp [this]
        · have hc : t.root.depth ≤ t.height ∨ n ≤ t.head.length ∨
              t.head.length + t.root.flat.length ≤ n := by
            right
            by_cases h1 : n ≤ t.head.length
            · exact .inl h1
            · exact .inr (by
                by_cases h2 : t.head.length + t.root.flat.length ≤ n
                · exact h2
                · exact absurd ⟨by omega, by omega⟩ hi)
          obtain ⟨s1, s2, l1, l2⟩ := Tree.splitAt_ok hwf n hc
          have c1 := congrArg List.length l1
          have c2 := congrArg List.length l2
          rw [s1.length, List.length_take] at c1
          rw [s2.length, List.length_drop, hwf.length] at c2
          refine ⟨⟨s1, by simp only [c1]; omega⟩, ⟨s2, by simp only [c2]; omega⟩, rfl, rfl, ?_, ?_, ?_, ?_⟩
          · simp only [abs, l1]; exact List.prefix_refl _
          · simp only [abs, l2]; exact List.Sublist.refl _
          · simp only [abs, l1, true_iff]
            intro t2 ht2 hi2; rw [hin] at ht2; cases ht2; exact absurd hi2 hi
          · simp only [abs, l2, true_iff]
            intro t2 ht2 hi2; rw [hin] at ht2; cases ht2; exact absurd hi2 hi

/-! ## The theorems -/

/-- C02, C11, C12 on a vector with a gap: `get`, iteration and both folds see the same sequence, which
is not longer than `len()`; `update` inside the sequence replaces that element and in the gap does
nothing. -/
theorem c02_gap_reads {v : PV α} (h : Readable v) :
    v.Reads v.toVec v.gap ∧
    (∀ (init : β) (f : β → α → β), v.foldLeft init f = v.toVec.foldl f init) ∧
    (∀ (init : β) (f : α → β → β), v.foldRight init f = v.toVec.foldr f init) ∧
    (∀ i x, (v.update i x).Reads (v.toVec.set i x) v.gap) := by
  refine ⟨h.reads, fun _ _ => rfl, fun init f => ?_, fun i x => ?_⟩
  · have hl := h.reads.len
    have key : ∀ k, foldRightLoop v f (v.toVec.length + k) init =
        foldRightLoop v f v.toVec.length init := by
      intro k
      induction k with
      | zero => rfl
      | succ k ih =>
        rw [← Nat.add_assoc]
        simp only [foldRightLoop, h.reads.get]
        rw [List.getElem?_eq_none (by omega)]
        exact ih
    unfold foldRight
    rw [hl, key, foldRightLoop_eq v v.toVec h.reads.get f _ init (Nat.le_refl _), List.take_length]
  · obtain ⟨h1, h2, h3⟩ := h.update i x
    exact h1.reads_abs (by rw [h2, h.toVec_eq]) (by rw [h3, h.reads.len]; simp)

/-- C03 on a vector with a gap: new elements join the sequence, and the gap moves along behind it. -/
theorem c03_gap_push {v : PV α} (h : Readable v) (x : α) (xs : List α) :
    (v.pushBack x).Reads (v.toVec ++ [x]) v.gap ∧
    (v.pushFront x).Reads (x :: v.toVec) v.gap ∧
    (v.extend xs).Reads (v.toVec ++ xs) v.gap := by
  have hl := h.reads.len
  obtain ⟨a1, a2, a3⟩ := h.pushBack x
  obtain ⟨b1, b2, b3⟩ := h.pushFront x
  obtain ⟨c1, c2, c3⟩ := h.extend xs
  exact ⟨a1.reads_abs (by rw [a2, h.toVec_eq]) (by rw [a3, hl]; simp; omega),
    b1.reads_abs (by rw [b2, h.toVec_eq]) (by rw [b3, hl]; simp; omega),
    c1.reads_abs (by rw [c2, h.toVec_eq]) (by rw [c3, hl]; simp; omega)⟩

/-- C05 on vectors with gaps: the sequences are joined (in one order or the other), and the gaps add
up. -/
theorem c05_gap_concat {a b : PV α} (ha : Readable a) (hb : Readable b) :
    (a.concat b).Reads
      (if a.toVec ≠ [] ∧ b.toVec ≠ [] ∧ a.heightOf < b.heightOf then b.toVec ++ a.toVec
       else a.toVec ++ b.toVec) (a.gap + b.gap) := by
  obtain ⟨h1, h2, h3⟩ := ha.concat hb
  refine h1.reads_abs (by rw [h2, ha.toVec_eq, hb.toVec_eq]) ?_
  rw [h3, ha.reads.len, hb.reads.len]
  split <;> simp <;> omega

/-- C06 on a vector with a gap: what `pop_back` returns is the last element of the sequence (not what
`last()` returns), and the gap stays. -/
theorem c06_gap_pop_back {v w : PV α} {x : α} (h : Readable v) (hn : ¬ StaleEnd v)
    (hp : v.popBack = some (w, x)) : v.toVec = w.toVec ++ [x] ∧ w.Reads w.toVec v.gap := by
  obtain ⟨h1, h2, h3⟩ := h.popBack hn hp
  have e : v.toVec = w.toVec ++ [x] := by rw [h.toVec_eq, h2, h1.toVec_eq]
  refine ⟨e, h1.reads_abs h1.toVec_eq.symm ?_⟩
  have := h.reads.len
  rw [e] at this
  simp at this
  omega

/-- C07 on a vector with a gap. -/
theorem c07_gap_pop_front {v w : PV α} {x : α} (h : Readable v) (hn : ¬ StaleFront v)
    (hp : v.popFront = some (w, x)) :
    ∃ ys, v.toVec = x :: ys ∧ (w.Reads ys v.gap ∨ TailOnly v ∧ w.Reads ys.reverse v.gap) := by
  obtain ⟨h1, h3, ys, h2, h4⟩ := h.popFront hn hp
  have hl := h.len_eq
  rw [h2] at hl
  refine ⟨ys, by rw [h.toVec_eq, h2], ?_⟩
  rcases h4 with h4 | ⟨h4, h5⟩
  · exact .inl (h1.reads_abs h4 (by simp at hl; omega))
  · exact .inr ⟨h4, h1.reads_abs h5 (by simp at hl ⊢; omega)⟩

/-- C08 for every cut of a vector with or without a gap: the parts have the lengths they should have;
the left one reads as a prefix of what it should be, the right one as a part of what it should be,
each followed by a gap; and each is exactly what it should be under the same conditions as for
intact vectors.  So a cut never invents, duplicates or moves an element, and what it loses it
leaves as a gap. -/
theorem c08_gap_split {v : PV α} (h : Readable v) (n : Nat) (hn : n ≤ v.len) :
    ∃ xs ys i j, (v.splitAt n).1.Reads xs i ∧ (v.splitAt n).2.Reads ys j ∧
      xs <+: v.toVec.take n ∧ ys.Sublist (v.toVec.drop n) ∧
      xs.length + i = n ∧ ys.length + j = v.len - n ∧ v.gap ≤ i + j ∧
      (xs = v.toVec.take n ↔ LeftOk v n) ∧ (ys = v.toVec.drop n ↔ RightOk v n) := by
  obtain ⟨h1, h2, h3, h4, h5, h6, h7, h8⟩ := h.splitAt n hn
  have hl := h.len_eq
  have l1 := h1.len_eq
  have l2 := h2.len_eq
  have s1 := h5.length_le
  have s2 := h6.length_le
  rw [List.length_take] at s1
  rw [List.length_drop] at s2
  refine ⟨_, _, _, _, h1.reads_abs rfl l1, h2.reads_abs rfl l2, ?_, ?_, ?_, ?_, ?_, ?_, ?_⟩
  · rw [h.toVec_eq]; exact h5
  · rw [h.toVec_eq]; exact h6
  · omega
  · omega
  · omega
  · rw [h.toVec_eq]; exact h7
  · rw [h.toVec_eq]; exact h8

/-- A gap is never closed by the operations that keep or add elements; a vector with a gap can show no
sequence at all. -/
theorem c08_gap_stays {v : PV α} (h : Readable v) (hg : v.gap ≠ 0) :
    (∀ xs, ¬ v.Shows xs) ∧
    (∀ x xs, ¬ (v.pushBack x).Shows xs ∧ ¬ (v.pushFront x).Shows xs) ∧
    (∀ i x xs, ¬ (v.update i x).Shows xs) ∧
    (∀ w xs, Readable w → ¬ (v.concat w).Shows xs ∧ ¬ (w.concat v).Shows xs) := by
  refine ⟨fun xs hs => hg (h.reads.shows_iff.1 hs).1, fun x xs => ⟨fun hs => ?_, fun hs => ?_⟩,
    fun i x xs hs => ?_, fun w xs hw => ⟨fun hs => ?_, fun hs => ?_⟩⟩
  · exact hg ((c03_gap_push h x []).1.shows_iff.1 hs).1
  · exact hg ((c03_gap_push h x []).2.1.shows_iff.1 hs).1
  · exact hg (((c02_gap_reads (β := Unit) h).2.2.2 i x).shows_iff.1 hs).1
  · have := ((c05_gap_concat h hw).shows_iff.1 hs).1; omega
  · have := ((c05_gap_concat hw h).shows_iff.1 hs).1; omega

/-! ## C09, exactly -/

/-- C09: exactly when `insert` is right, for every intact vector and every position. -/
theorem c09_insert_exact {v : PV α} (h : Intact v) (i : Nat) (x : α) :
    InsertCorrect v i x ↔
      (i = 0 ∨ v.toVec.length ≤ i ∨
        RightOk v i ∧ ConcatCorrect ((v.splitAt i).1.pushBack x) (v.splitAt i).2) := by
  have hlen := h.shows.len
  by_cases h0 : i = 0
  · subst h0
    exact ⟨fun _ => .inl rfl, fun _ => (c09_ends_partial h 0 x).2.1⟩
  by_cases h1 : v.toVec.length ≤ i
  · exact ⟨fun _ => .inr (.inl h1), fun _ => (c09_ends_partial h i x).1 h1⟩
  constructor
  · intro hc
    refine .inr (.inr ?_)
    have hr : RightOk v i := by
      apply Classical.byContradiction
      intro hr
      have hrd := Readable.of_intact h
      obtain ⟨a1, a2, _, a4, _, a6, _, a8⟩ := hrd.splitAt i (by omega)
      obtain ⟨b1, _, _⟩ := a1.pushBack x
      have hg : (v.splitAt i).2.gap ≠ 0 := by
        intro hg
        have l2 := a2.len_eq
        have s2 := a6.length_le
        have hlv := h.wf.length
        refine hr (a8.1 (a6.eq_of_length ?_))
        rw [List.length_drop] at s2 ⊢
        omega
      have e : v.insert i x = ((v.splitAt i).1.pushBack x).concat (v.splitAt i).2 := by
        unfold PV.insert
        rw [if_neg (by omega), if_neg (by omega)]
      unfold InsertCorrect at hc
      rw [e] at hc
      exact ((c08_gap_stays a2 hg).2.2.2 _ _ b1).2 hc
    exact ⟨hr, (c09_insert_iff h i x (by omega) (by omega) hr).2.1 hc⟩
  · rintro (h2 | h2 | ⟨hr, hc⟩)
    · exact absurd h2 h0
    · exact absurd h2 h1
    · exact (c09_insert_iff h i x (by omega) (by omega) hr).2.2 hc

/-- C09: exactly when `remove` is right, for every intact vector and every position.  Removing the
last element needs only the left part of the cut. -/
theorem c09_remove_exact {v : PV α} (h : Intact v) (i : Nat) :
    RemoveCorrect v i ↔
      (v.toVec.length ≤ i ∨ v.toVec.length = 1 ∨
        (i + 1 = v.toVec.length ∧ LeftOk v i) ∨
        (i + 1 < v.toVec.length ∧ RightOk v i ∧ RightOk (v.splitAt i).2 1 ∧
          ConcatCorrect (v.splitAt i).1 ((v.splitAt i).2.skip 1))) := by
  have hlen := h.shows.len
  have hrd := Readable.of_intact h
  have hlv := h.wf.length
  by_cases h1 : v.toVec.length ≤ i
  · have e : v.remove i = none := by simp [PV.remove, hlen, h1]
    unfold RemoveCorrect; rw [e]; exact ⟨fun _ => .inl h1, fun _ => h1⟩
  by_cases h2 : v.toVec.length = 1
  · have e : v.remove i = some new := by
      unfold PV.remove
      rw [if_neg (by omega), if_pos (by omega)]
    unfold RemoveCorrect; rw [e]
    refine ⟨fun _ => .inr (.inl h2), fun _ => ⟨by omega, ?_⟩⟩
    have : v.toVec.eraseIdx i = [] := by
      apply List.length_eq_zero_iff.1
      rw [List.length_eraseIdx]
      split <;> omega
    rw [this]
    exact (c01_new_unit (v.toVec[0]'(by omega))).1
  obtain ⟨a1, a2, a3, a4, a5, a6, a7, a8⟩ := hrd.splitAt i (by omega)
  have e : v.remove i = some ((v.splitAt i).1.concat ((v.splitAt i).2.skip 1)) := by
    unfold PV.remove
    rw [if_neg (by omega), if_neg (by omega)]
  have hav : v.abs = v.toVec := h.shows.toVec ▸ (PV.toVec_eq h.wf).symm
  by_cases h3 : i + 1 = v.toVec.length
  · have es : (v.splitAt i).2.skip 1 = new := by
      unfold PV.skip
      rw [if_pos (by omega)]
    have hr := c05_gap_concat a1 (Readable.of_intact (intact_new (α := α)))
    have en : (new : PV α).toVec = [] := by
      rw [PV.toVec_eq wf_new]; rfl
    have eg : (new : PV α).gap = 0 := rfl
    rw [en, eg] at hr
    simp only [ne_eq, not_true_eq_false, false_and, and_false, if_false, List.append_nil,
      Nat.add_zero] at hr
    have ee : v.toVec.eraseIdx i = v.toVec.take i := by
      rw [List.eraseIdx_eq_take_drop_succ, h3, List.drop_length, List.append_nil]
    unfold RemoveCorrect
    rw [e, es]
    simp only
    rw [hr.shows_iff, ee, a1.toVec_eq, ← hav, a7]
    have l1 := a1.len_eq
    have key : LeftOk v i → (v.splitAt i).1.gap = 0 := by
      intro hl
      rw [a7.2 hl, List.length_take] at l1
      omega
    constructor
    · rintro ⟨_, _, hl⟩; exact .inr (.inr (.inl ⟨by rw [hav]; exact h3, hl⟩))
    · rintro (hc | hc | ⟨_, hl⟩ | ⟨hc, _⟩)
      · rw [hav] at hc; exact absurd hc h1
      · rw [hav] at hc; exact absurd hc h2
      · exact ⟨by rw [hav]; omega, key hl, hl⟩
      · rw [hav] at hc; omega
  · have hsk : (v.splitAt i).2.skip 1 = ((v.splitAt i).2.splitAt 1).2 := by
      unfold PV.skip
      rw [if_neg (by omega)]
    obtain ⟨b1, b2, b3, b4, b5, b6, b7, b8⟩ := a2.splitAt 1 (by omega)
    constructor
    · intro hc
      unfold RemoveCorrect at hc
      rw [e] at hc
      have hc' := hc.2
      rw [hsk] at hc'
      have hg0 : ((v.splitAt i).2.splitAt 1).2.gap = 0 := by
        apply Classical.byContradiction
        intro hg
        exact ((c08_gap_stays b2 hg).2.2.2 _ _ a1).2 hc'
      have l2 := a2.len_eq
      have l3 := b2.len_eq
      have s2 := a6.length_le
      have s3 := b6.length_le
      rw [List.length_drop] at s2 s3
      have hr : RightOk v i := by
        refine a8.1 (a6.eq_of_length ?_)
        rw [List.length_drop]; omega
      have hr1 : RightOk (v.splitAt i).2 1 := by
        refine b8.1 (b6.eq_of_length ?_)
        rw [List.length_drop]; omega
      refine .inr (.inr (.inr ⟨by omega, hr, hr1, ?_⟩))
      obtain ⟨w, hw, _, hiff⟩ := c09_remove_iff h i (by omega) h2 hr hr1
      rw [e] at hw; cases hw
      exact hiff.1 hc.2
    · rintro (hc | hc | ⟨hc, _⟩ | ⟨_, hr, hr1, hc⟩)
      · exact absurd hc h1
      · exact absurd hc h2
      · exact absurd hc h3
      · obtain ⟨w, hw, _, hiff⟩ := c09_remove_iff h i (by omega) h2 hr hr1
        rw [e] at hw; cases hw
        unfold RemoveCorrect
        rw [e]
        exact ⟨by omega, hiff.2 hc⟩

theorem Readable.split {v : PV α} (h : Readable v) (n : Nat) :
    Readable (v.splitAt n).1 ∧ Readable (v.splitAt n).2 := by
  by_cases hn : n ≤ v.len
  · exact ⟨(h.splitAt n hn).1, (h.splitAt n hn).2.1⟩
  · have e : v.splitAt n = (v, new) := by
      unfold PV.splitAt; rw [if_pos (by omega)]
    rw [e]; exact ⟨h, .of_intact intact_new⟩

theorem Readable.take {v : PV α} (h : Readable v) (n : Nat) : Readable (v.take n) := by
  unfold PV.take; split
  · exact h
  · exact (h.split n).1

theorem Readable.skip {v : PV α} (h : Readable v) (n : Nat) : Readable (v.skip n) := by
  unfold PV.skip; split
  · exact .of_intact intact_new
  · exact (h.split n).2

end PV

/-- All histories of API calls in which no `pop_back` meets a stale end and no `pop_front` a stale
front.  Cuts, insertions and removals are unrestricted. -/
inductive Legible {α : Type} : PV α → Prop where
  | new : Legible PV.new
  | unit (x : α) : Legible (PV.unit x)
  | fromIter (xs : List α) : Legible (PV.fromIter xs)
  | pushBack {v : PV α} (x : α) : Legible v → Legible (v.pushBack x)
  | pushFront {v : PV α} (x : α) : Legible v → Legible (v.pushFront x)
  | extend {v : PV α} (xs : List α) : Legible v → Legible (v.extend xs)
  | update {v : PV α} (i : Nat) (x : α) : Legible v → Legible (v.update i x)
  | concat {v w : PV α} : Legible v → Legible w → Legible (v.concat w)
  | popBack {v w : PV α} {x : α} : Legible v → ¬ v.StaleEnd → v.popBack = some (w, x) → Legible w
  | popFront {v w : PV α} {x : α} : Legible v → ¬ v.StaleFront → v.popFront = some (w, x) → Legible w
  | splitLeft {v : PV α} (i : Nat) : Legible v → Legible (v.splitAt i).1
  | splitRight {v : PV α} (i : Nat) : Legible v → Legible (v.splitAt i).2
  | take {v : PV α} (n : Nat) : Legible v → Legible (v.take n)
  | skip {v : PV α} (n : Nat) : Legible v → Legible (v.skip n)
  | insert {v : PV α} (i : Nat) (x : α) : Legible v → Legible (v.insert i x)
  | remove {v w : PV α} (i : Nat) : Legible v → v.remove i = some w → Legible w

theorem Legible.readable {α : Type} {v : PV α} (h : Legible v) : v.Readable := by
  induction h with
  | new => exact .of_intact PV.intact_new
  | unit x => exact .of_intact ⟨PV.wf_unit x⟩
  | fromIter xs => exact .of_intact (PV.intact_fromIter xs)
  | pushBack x _ ih => exact (ih.pushBack x).1
  | pushFront x _ ih => exact (ih.pushFront x).1
  | extend xs _ ih => exact (ih.extend xs).1
  | update i x _ ih => exact (ih.update i x).1
  | concat _ _ ih1 ih2 => exact (ih1.concat ih2).1
  | popBack _ hg hp ih => exact (ih.popBack hg hp).1
  | popFront _ hg hp ih => exact (ih.popFront hg hp).1
  | splitLeft i _ ih => exact (ih.split i).1
  | splitRight i _ ih => exact (ih.split i).2
  | take n _ ih => exact ih.take n
  | skip n _ ih => exact ih.skip n
  | insert i x _ ih =>
    unfold PV.insert
    split
    · exact (ih.pushBack x).1
    · split
      · exact (ih.pushFront x).1
      · exact (((ih.split i).1.pushBack x).1.concat (ih.split i).2).1
  | remove i _ hp ih =>
    unfold PV.remove at hp
    split at hp
    · cases hp
    · split at hp
      · cases hp; exact .of_intact PV.intact_new
      · simp only [Option.some.injEq] at hp
        subst hp
        exact ((ih.split i).1.concat ((ih.split i).2.skip 1)).1

/-- C04 for every history in which no `pop` meets a stale end, however many bad cuts it makes: the
vector reads as one sequence, through `get`, iteration and folds alike, followed by a gap. -/
theorem Legible.c04_reads {α : Type} {v : PV α} (h : Legible v) : ∃ xs k, v.Reads xs k :=
  ⟨_, _, h.readable.reads⟩

/-- C04: the condition cannot be dropped.  After a `pop_back` at a stale end and more calls, `get`
finds elements behind a position that holds nothing. -/
theorem c04_reads_false : ¬ ∀ v : PV Nat, Reach v → ∃ xs k, v.Reads xs k := by
  intro h
  obtain ⟨v, hr, e⟩ : ∃ v : PV Nat, Reach v ∧
      v.foldRight 0 (fun _ n => n + 1) ≠ v.foldLeft 0 (fun n _ => n + 1) := by
    apply Classical.byContradiction
    intro hc
    exact PV.c12_folds_false fun v hr =>
      Classical.byContradiction fun hne => hc ⟨v, hr, hne⟩
  obtain ⟨xs, k, hx⟩ := h v hr
  apply e
  have e1 : v.foldLeft 0 (fun n _ => n + 1) = xs.length := by
    have : v.items = xs := hx.toVec
    unfold PV.foldLeft
    rw [this]
    have key : ∀ (ys : List Nat) n, ys.foldl (fun n _ => n + 1) n = n + ys.length := by
      intro ys
      induction ys with
      | nil => simp
      | cons y ys ih => intro n; simp [ih]; omega
    rw [key]; omega
  have e2 : v.foldRight 0 (fun _ n => n + 1) = xs.length := by
    unfold PV.foldRight
    rw [hx.len]
    have key : ∀ k, PV.foldRightLoop v (fun _ n => n + 1) (xs.length + k) 0 =
        PV.foldRightLoop v (fun _ n => n + 1) xs.length 0 := by
      intro k
      induction k with
      | zero => rfl
      | succ k ih =>
        rw [← Nat.add_assoc]
        simp only [PV.foldRightLoop, hx.get]
        rw [List.getElem?_eq_none (by omega)]
        exact ih
    rw [key, PV.foldRightLoop_eq v xs hx.get _ _ 0 (Nat.le_refl _), List.take_length]
    clear key e1
    induction xs with
    | nil => rfl
    | cons y ys ih => simp
  rw [e1, e2]

/-! ## Sample cases -/

/-- The left part of a bad cut: 64 elements and a gap of 6. -/
example : Legible PV.cut := .splitLeft 70 (.concat (.fromIter _) (.fromIter _))
example : PV.cut.len = 70 ∧ PV.cut.toVec.length = 64 ∧ PV.cut.gap = 6 := by decide +kernel
/-- A new element at its end becomes number 64, not number 70. -/
example : (PV.cut.pushBack 1000).get 64 = some 1000 ∧ (PV.cut.pushBack 1000).get 70 = none ∧
    (PV.cut.pushBack 1000).gap = 6 := by decide +kernel
/-- `insert` where the cut is bad, and where it is good. -/
example : PV.intactB ((PV.fromIter (List.range 65)).concat (PV.fromIter (List.range 65))) = true ∧
    (((PV.fromIter (List.range 65)).concat (PV.fromIter (List.range 65))).insert 70 7).gap ≠ 0 ∧
    (((PV.fromIter (List.range 65)).concat (PV.fromIter (List.range 65))).insert 129 7).gap = 0 := by
  decide +kernel

/-- `cut` meets the hypotheses of the theorems above: it can be read, with a gap of 6. -/
theorem cut_readable : PV.cut.Readable := (Legible.splitLeft 70 (.concat (.fromIter _) (.fromIter _))).readable

example : PV.cut.foldLeft 0 (· + ·) = PV.cut.toVec.foldl (· + ·) 0 ∧
    (PV.cut.update 3 9).Reads (PV.cut.toVec.set 3 9) PV.cut.gap :=
  have h := PV.c02_gap_reads (β := Nat) cut_readable
  ⟨h.2.1 0 _, h.2.2.2 3 9⟩

example : (PV.cut.pushFront 5).Reads (5 :: PV.cut.toVec) PV.cut.gap := (PV.c03_gap_push cut_readable 5 []).2.1

example : (PV.cut.concat PV.cut).Reads (PV.cut.toVec ++ PV.cut.toVec) (PV.cut.gap + PV.cut.gap) := by
  have h := PV.c05_gap_concat cut_readable cut_readable
  rwa [if_neg (fun hc => absurd hc.2.2 (Nat.lt_irrefl _))] at h

example : ∃ w x, PV.cut.popBack = some (w, x) ∧ PV.cut.toVec = w.toVec ++ [x] :=
  match h : PV.cut.popBack with
  | some (w, x) => ⟨w, x, rfl, (PV.c06_gap_pop_back cut_readable
      (by rw [PV.staleEnd_iff]; decide +kernel) h).1⟩
  | none => absurd h (by decide +kernel)

example : ∃ w x, PV.cut.popFront = some (w, x) ∧ PV.cut.toVec.head? = some x :=
  match h : PV.cut.popFront with
  | some (w, x) =>
    have ⟨_, e, _⟩ := PV.c07_gap_pop_front cut_readable (by rw [PV.staleFront_iff]; decide +kernel) h
    ⟨w, x, rfl, by rw [e]; rfl⟩
  | none => absurd h (by decide +kernel)

example : ∃ xs ys i j, (PV.cut.splitAt 30).1.Reads xs i ∧ (PV.cut.splitAt 30).2.Reads ys j ∧ xs.length + i = 30 :=
  have ⟨xs, ys, i, j, h1, h2, _, _, h3, _⟩ := PV.c08_gap_split cut_readable 30 (by decide +kernel)
  ⟨xs, ys, i, j, h1, h2, h3⟩

example (xs : List Nat) : ¬ (PV.cut.pushBack 1).Shows xs :=
  ((PV.c08_gap_stays cut_readable (by decide +kernel)).2.1 1 xs).1

/-- `c09_insert_exact` and `c09_remove_exact`, on a vector of two levels and on one made by `concat`. -/
example : ∀ v : PV Nat, v = PV.fromIter (List.range 200) → PV.InsertCorrect v 200 7 ∧ PV.RemoveCorrect v 200 :=
  fun _ e =>
  have hl := e ▸ (by decide +kernel : (PV.fromIter (List.range 200)).toVec.length ≤ 200)
  ⟨(PV.c09_insert_exact (e ▸ PV.intact_fromIter _) 200 7).2 (.inr (.inl hl)),
   (PV.c09_remove_exact (e ▸ PV.intact_fromIter _) 200).2 (.inl hl)⟩

example : ∃ xs k, PV.cut.Reads xs k := (Legible.splitLeft 70 (.concat (.fromIter _) (.fromIter _))).c04_reads

end Rustica.PVec
