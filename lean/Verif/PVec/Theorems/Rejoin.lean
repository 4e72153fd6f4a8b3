import Verif.PVec.Theorems.Heights
import Verif.PVec.Theorems.Gap

/-!
# C08: cutting a vector and joining the two parts again

`concat` orders its operands by recorded height (C05), so whether a cut can be undone depends on the
heights the two parts record.
-/

namespace Rustica.PVec
namespace PV

variable {α : Type}

/-- Where position `n` of a tree vector lies: in the front buffer, the back buffer or the tree. -/
inductive Place | front | back | inside
  deriving DecidableEq, Repr

/-- The place of a cut at `n`: `hd` elements in the front buffer, `tr` in the tree. -/
def placeOf (hd tr n : Nat) : Place :=
  if n ≤ hd then .front else if hd + tr ≤ n then .back else .inside

/-- C08: the heights recorded by the parts of a cut through a buffer: the part cut off a buffer is
flat, the other part keeps the height of the whole. -/
theorem c08_part_heights {v : PV α} {t : Tree α} (h : Intact v) (ht : v.inner = .tree t) {n : Nat}
    (h0 : 0 < n) (h1 : n < v.len) :
    (placeOf t.head.length t.root.flat.length n = .front →
      (v.splitAt n).1.heightOf = 0 ∧ (v.splitAt n).2.heightOf = v.heightOf) ∧
    (placeOf t.head.length t.root.flat.length n = .back →
      (v.splitAt n).1.heightOf = v.heightOf ∧ (v.splitAt n).2.heightOf = 0) := by
  obtain ⟨hwf, hl, hv⟩ := Intact.tree h ht
  have e0 : ¬ n ≥ v.len := by omega
  have e1 : ¬ n = 0 := by omega
  have e2 : ¬ n ≥ t.len := by omega
  have hts := hwf.treeSize
  unfold placeOf
  constructor
  · intro hp
    have e3 : n ≤ t.head.length := by
      apply Classical.byContradiction; intro hc
      rw [if_neg hc] at hp; split at hp <;> cases hp
    simp [PV.splitAt, e0, e1, ht, Tree.splitAt, e2, e3, heightOf, Tree.fromHead,
      Tree.fromHeadAndTreeAndTail]
  · intro hp
    have e3 : ¬ n ≤ t.head.length := by
      intro hc; rw [if_pos hc] at hp; cases hp
    have e4 : t.head.length + t.root.flat.length ≤ n := by
      apply Classical.byContradiction; intro hc
      rw [if_neg e3, if_neg hc] at hp; cases hp
    simp [PV.splitAt, e0, e1, ht, Tree.splitAt, e2, e3, hts, e4, heightOf,
      Tree.fromHeadAndTreeAndTail, Tree.fromTail]

/-- A cut outside the tree gives two intact, right parts. -/
theorem buffer_parts {v : PV α} {t : Tree α} (h : Intact v) (ht : v.inner = .tree t) {n : Nat}
    (hp : placeOf t.head.length t.root.flat.length n ≠ .inside) :
    Intact (v.splitAt n).1 ∧ Intact (v.splitAt n).2 ∧
    (v.splitAt n).1.toVec = v.toVec.take n ∧ (v.splitAt n).2.toVec = v.toVec.drop n := by
  have hr : RightOk v n := by
    intro t' ht' hi
    have : t' = t := by rw [ht] at ht'; injection ht' with e; exact e.symm
    subst this
    exfalso; apply hp
    have := hi.1; have := hi.2
    unfold placeOf
    rw [if_neg (by omega), if_neg (by omega)]
  have hi := c08_split_intact h n
  have hs := c08_split_iff h n
  exact ⟨hi.1.2 (hr.left h), hi.2.2 hr, (hs.1.2 (hr.left h)).toVec, (hs.2.2 hr).toVec⟩

/-- C08: cutting an intact vector through its front buffer and joining the parts again swaps them,
unless the vector is flat.  Cutting through the back buffer is always undone. -/
theorem c08_rejoin_buffers {v : PV α} {t : Tree α} (h : Intact v) (ht : v.inner = .tree t) {n : Nat}
    (h0 : 0 < n) (h1 : n < v.len) :
    (placeOf t.head.length t.root.flat.length n = .front →
      ((v.splitAt n).1.concat (v.splitAt n).2).Shows
        (if v.heightOf = 0 then v.toVec else v.toVec.drop n ++ v.toVec.take n)) ∧
    (placeOf t.head.length t.root.flat.length n = .back →
      ((v.splitAt n).1.concat (v.splitAt n).2).Shows v.toVec) := by
  have hlen := h.shows.len
  obtain ⟨k1, k2⟩ := c08_part_heights h ht h0 h1
  have key := fun hp => buffer_parts h ht (n := n) hp
  have ne1 : v.toVec.take n ≠ [] := by
    intro e; have := congrArg List.length e; rw [List.length_take, List.length_nil] at this; omega
  have ne2 : v.toVec.drop n ≠ [] := by
    intro e; have := congrArg List.length e; rw [List.length_drop, List.length_nil] at this; omega
  constructor
  · intro hp
    obtain ⟨i1, i2, s1, s2⟩ := key (by rw [hp]; decide)
    have hc := c05_concat_exact i1 i2
    rw [s1, s2, (k1 hp).1, (k1 hp).2] at hc
    by_cases hz : v.heightOf = 0
    · rw [if_neg (by omega), List.take_append_drop] at hc
      rwa [if_pos hz]
    · rw [if_pos ⟨ne1, ne2, by omega⟩] at hc
      rwa [if_neg hz]
  · intro hp
    obtain ⟨i1, i2, s1, s2⟩ := key (by rw [hp]; decide)
    have hc := c05_concat_exact i1 i2
    rw [s1, s2, (k2 hp).1, (k2 hp).2] at hc
    rwa [if_neg (by omega), List.take_append_drop] at hc

/-- C08, exactly when a cut that gives two right parts is undone by `concat`. -/
theorem c08_rejoin_iff {v : PV α} (h : Intact v) {n : Nat} (hr : RightOk v n) :
    ((v.splitAt n).1.concat (v.splitAt n).2).Shows v.toVec ↔
      (v.toVec.take n = [] ∨ v.toVec.drop n = [] ∨
        (v.splitAt n).2.heightOf ≤ (v.splitAt n).1.heightOf ∨
        v.toVec.drop n ++ v.toVec.take n = v.toVec) := by
  have hi := c08_split_intact h n
  have hs := c08_split_iff h n
  have i1 := hi.1.2 (hr.left h)
  have i2 := hi.2.2 hr
  have := c05_concat_iff i1 i2
  unfold ConcatCorrect at this
  rw [(hs.1.2 (hr.left h)).toVec, (hs.2.2 hr).toVec, List.take_append_drop] at this
  exact this

/-- C09: what `insert` does strictly inside the front buffer of an intact vector: on a vector that is
not flat it always moves the elements before the position, and the new one, to the end. -/
theorem c09_insert_front_buffer {v : PV α} {t : Tree α} (h : Intact v) (ht : v.inner = .tree t)
    {i : Nat} (x : α) (h0 : 0 < i) (h1 : i < v.len) (h2 : i ≤ t.head.length) :
    (v.insert i x).Shows
      (if v.heightOf = 0 then v.toVec.take i ++ x :: v.toVec.drop i
       else v.toVec.drop i ++ (v.toVec.take i ++ [x])) := by
  have hlen := h.shows.len
  have hp : placeOf t.head.length t.root.flat.length i = .front := by
    unfold placeOf; rw [if_pos h2]
  obtain ⟨i1, i2, s1, s2⟩ := buffer_parts h ht (n := i) (by rw [hp]; decide)
  obtain ⟨k1, k2⟩ := (c08_part_heights h ht h0 h1).1 hp
  have hh : ((v.splitAt i).1.pushBack x).heightOf = 0 := by
    have e0 : ¬ i ≥ v.len := by omega
    have e1 : ¬ i = 0 := by omega
    obtain ⟨_, _, hv⟩ := Intact.tree h ht
    have e2 : ¬ i ≥ t.len := by omega
    simp [PV.splitAt, e0, e1, ht, Tree.splitAt, e2, h2, heightOf, Tree.fromHead, PV.pushBack,
      treePushBack, Tree.pushBack, LEAF_CAPACITY]
  have e : v.insert i x = ((v.splitAt i).1.pushBack x).concat (v.splitAt i).2 := by
    unfold PV.insert
    rw [if_neg (by omega), if_neg (by omega)]
  have hc := c05_concat_exact (i1.pushBack x) i2
  rw [hh, k2, (c03_push_back_partial i1 x).toVec, s1, s2] at hc
  have ne2 : v.toVec.drop i ≠ [] := by
    intro e; have := congrArg List.length e; rw [List.length_drop, List.length_nil] at this; omega
  rw [e]
  by_cases hz : v.heightOf = 0
  · rw [if_neg (by omega)] at hc
    rw [if_pos hz]; simpa using hc
  · rw [if_pos ⟨by simp, ne2, by omega⟩] at hc
    rwa [if_neg hz]

/-- Two elements in front of a vector of height one. -/
def twoInFront : PV Nat := ((PV.fromIter (List.range 130)).pushFront 1000).pushFront 1001

/-- The hypotheses of `c08_rejoin_buffers` are met by a vector of height one with two elements in its
front buffer, and the parts come out swapped. -/
example : twoInFront.heightOf = 1 ∧ 1 < twoInFront.len ∧
    (twoInFront.splitAt 1).1.heightOf = 0 ∧ (twoInFront.splitAt 1).2.heightOf = 1 ∧
    ((twoInFront.splitAt 1).1.concat (twoInFront.splitAt 1).2).get 0 = some 1000 ∧
    ((twoInFront.splitAt 1).1.concat (twoInFront.splitAt 1).2).get 131 = some 1001 := by
  decide +kernel

/-- `insert` at position 1 of the same vector: the element at 0 and the new one end up last. -/
example : (twoInFront.insert 1 7).get 0 = some 1000 ∧ (twoInFront.insert 1 7).get 131 = some 1001 ∧
    (twoInFront.insert 1 7).get 132 = some 7 := by
  decide +kernel

/-- C08: `split_at` followed by `concat` does not give the vector back, even where both parts are
right. -/
theorem c08_rejoin_false : ¬ ∀ (v : PV Nat) (n : Nat), Reach v → SplitCorrect v n →
    ((v.splitAt n).1.concat (v.splitAt n).2).Shows v.toVec := by
  intro hall
  have hreach : Reach twoInFront := .pushFront _ (.pushFront _ (.fromIter _))
  have hc : SplitCorrect twoInFront 1 := by
    have hi : Intact twoInFront := intact_of_test (by decide +kernel)
    refine (c08_split_correct_iff hi 1).2 fun t ht hin => ?_
    have hh : t.head.length = 2 := by
      have : (match twoInFront.inner with | .tree t => t.head.length | .inline _ => 0) = 2 := by
        decide +kernel
      rwa [ht] at this
    have := hin.1
    omega
  have := (hall twoInFront 1 hreach hc).get 0
  rw [List.getElem?_eq_some_iff.2 ⟨by decide +kernel, rfl⟩] at this
  revert this; decide +kernel

/-- `c08_part_heights` and `c08_rejoin_buffers` for a cut through the front buffer. -/
example : ∃ t, twoInFront.inner = .tree t ∧ (twoInFront.splitAt 1).2.heightOf = twoInFront.heightOf ∧
    ((twoInFront.splitAt 1).1.concat (twoInFront.splitAt 1).2).Shows
      (if twoInFront.heightOf = 0 then twoInFront.toVec else twoInFront.toVec.drop 1 ++ twoInFront.toVec.take 1) := by
  have hI : Intact twoInFront := intact_of_test (by decide +kernel)
  obtain ⟨t, ht, hp⟩ : ∃ t, twoInFront.inner = .tree t ∧ placeOf t.head.length t.root.flat.length 1 = .front :=
by
    have h : (match twoInFront.inner with
      | .inline _ => false
      | .tree t => decide (placeOf t.head.length t.root.flat.length 1 = .front)) = true := by decide +kernel
    cases e : twoInFront.inner with
    | inline es => rw [e] at h; cases h
    | tree t => rw [e] at h; exact ⟨t, rfl, of_decide_eq_true h⟩
  exact ⟨t, ht, ((c08_part_heights hI ht (by decide) (by decide +kernel)).1 hp).2,
    (c08_rejoin_buffers hI ht (by decide) (by decide +kernel)).1 hp⟩

/-- `c08_rejoin_iff` for a cut inside the tree. -/
example : ((PV.fromIter (List.range 130)).splitAt 70).1.concat ((PV.fromIter (List.range 130)).splitAt 70).2 |>.Shows
    (PV.fromIter (List.range 130)).toVec :=
  (c08_rejoin_iff (intact_fromIter _)
    ((c08_split_correct_iff (intact_fromIter _) 70).1 (c08_split_partial (.fromIter _) 70).1)).2
    (.inr (.inr (.inl (by decide +kernel))))

end PV
end Rustica.PVec
