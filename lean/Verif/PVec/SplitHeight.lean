import Verif.PVec.CoreLemmas

/-!
# Recorded heights of the two halves of a cut

For trees of the class `Tree.Stack` the left half of a cut is never lower than the
right half.  This is what makes `insert` and `remove` (which glue halves together
with `concat`) right for that class.
-/

namespace Rustica.PVec
open Node Tree

variable {α : Type}

theorem makeRelaxed_depth (cs : List (Node α)) : (makeRelaxed cs).depth = 1 + depthL cs := by
  simp [makeRelaxed]

theorem createRight_depth (cs : List (Node α)) (k : Nat) (r : Node α) (d : Nat)
    (hr : r.depth ≤ d) (hc : ∀ c ∈ cs, c.depth ≤ d) : (createRightBranch cs k r).depth ≤ 1 + d := by
  have hdrop : ∀ c ∈ cs.drop (k + 1), c.depth ≤ d := fun c h => hc c (List.mem_of_mem_drop h)
  have h1 : depthL (cs.drop (k + 1)) ≤ d := depthL_le.2 hdrop
  simp only [createRightBranch]
  split
  · simp only [List.cons_append, List.nil_append, List.isEmpty_cons, Bool.false_eq_true, if_false]
    rw [makeRelaxed_depth]; simp only [depthL]; omega
  · split
    · simp
    · rw [makeRelaxed_depth]; simp only [List.nil_append]; omega

/-- The right half of a cut is never deeper than the node that was cut. -/
theorem split_right_depth (n : Node α) : n.Sized → ∀ h i, n.depth ≤ h → i < n.flat.length →
    (splitAlongPath n (findPath n h i) i h).2.depth ≤ n.depth := by
  induction n using Node.induct with
  | hleaf es => intro _ h i _ _; simp [splitAlongPath]
  | hbranch cs s ih =>
    intro hs h i hd hi
    have hs0 := hs
    obtain ⟨_, rfl, hsc⟩ := (sized_branch _ _).1 hs
    simp only [depth_branch] at hd
    obtain ⟨pre, c, post, r, hcs, hidx, hr, heq⟩ := split_branch hs0 (h := h) (by omega)
      (by simpa using hi)
    have hmem : c ∈ cs := by rw [hcs]; simp
    have hde : c.depth ≤ depthL cs := depthL_mono hmem
    rw [heq]
    simp only [depth_branch]
    exact createRight_depth _ _ _ _ (Nat.le_trans (ih c hmem (hsc c hmem) (h - 1) r (by omega) hr) hde)
      fun x hx => depthL_mono hx

/-- Cutting a left-deep node strictly inside: the left half is at least as deep as the right
half. -/
theorem LD.split_height {n : Node α} (hb : LD n) : n.Sized → ∀ h i, n.depth ≤ h → 0 < i →
    i < n.flat.length →
    (splitAlongPath n (findPath n h i) i h).2.depth ≤
      (splitAlongPath n (findPath n h i) i h).1.depth := by
  induction hb with
  | leaf es => intro _ h i _ _ _; simp [splitAlongPath]
  | @spine c ls s hc hl ih =>
    intro hs h i hd hpos hi
    have hs0 := hs
    obtain ⟨_, rfl, hsc⟩ := (sized_branch _ _).1 hs
    simp only [depth_branch] at hd
    obtain ⟨pre, e, post, r, hcs, hidx, hr, heq⟩ := split_branch hs0 (h := h) (by omega)
      (by simpa using hi)
    have hse : e.Sized := hsc e (by rw [hcs]; simp)
    have hde : e.depth ≤ h - 1 := by
      have := depthL_mono (cs := c :: ls) (c := e) (by rw [hcs]; simp)
      omega
    obtain ⟨s1, s2, f1, f2⟩ := splitAlongPath_spec e hse (h - 1) r hde hr
    have hls : depthL ls ≤ 0 := depthL_le.2 fun l hl' => by simp [(hl l hl').depth]
    rw [heq, hcs, createLeft_append, createRight_append, calculateSize_eq s1, calculateSize_eq s2]
    have hpos2 : (splitAlongPath e (findPath e (h - 1) r) r (h - 1)).2.flat.length > 0 := by
      rw [f2]; simp; omega
    simp only [hpos2, if_true]
    cases pre with
    | nil =>
      simp only [List.nil_append, List.cons.injEq] at hcs
      obtain ⟨rfl, rfl⟩ := hcs
      simp only [flatL_nil, List.length_nil, Nat.zero_add] at hidx
      have hpos1 : (splitAlongPath c (findPath c (h - 1) r) r (h - 1)).1.flat.length > 0 := by
        rw [f1]; simp; omega
      simp only [hpos1, if_true, makeRelaxed_depth, List.nil_append, depthL]
      have := ih hse (h - 1) r hde (by omega) hr
      omega
    | cons p pre =>
      simp only [List.cons_append, List.cons.injEq] at hcs
      obtain ⟨rfl, rfl⟩ := hcs
      obtain ⟨b1, b2⟩ := (hl e (by simp)).split hse (h - 1) r (by omega) hr
      have hpost : depthL post ≤ 0 := depthL_le.2 fun l hl' => by
        simp [(hl l (by simp [hl'])).depth]
      have : (makeRelaxed ((splitAlongPath e (findPath e (h - 1) r) r (h - 1)).2 :: post)).depth ≤ 1 := by
        rw [makeRelaxed_depth]; simp only [depthL, b2.depth]; omega
      refine Nat.le_trans this ?_
      split
      · rw [makeRelaxed_depth]; omega
      · simp only [reduceCtorEq, if_false, makeRelaxed_depth]; omega
  | @wide d cs ls s hne hc hl =>
    intro hs h i hd hpos hi
    have hs0 := hs
    obtain ⟨_, rfl, hsc⟩ := (sized_branch _ _).1 hs
    simp only [depth_branch] at hd
    obtain ⟨pre, e, post, r, hcs, hidx, hr, heq⟩ := split_branch hs0 (h := h) (by omega)
      (by simpa using hi)
    have hse : e.Sized := hsc e (by rw [hcs]; simp)
    have hde : e.depth ≤ h - 1 := by
      have := depthL_mono (cs := cs ++ ls) (c := e) (by rw [hcs]; simp)
      omega
    obtain ⟨s1, s2, f1, f2⟩ := splitAlongPath_spec e hse (h - 1) r hde hr
    have hls : depthL ls ≤ 0 := depthL_le.2 fun l hl' => by simp [(hl l hl').depth]
    rw [heq, hcs, createLeft_append, createRight_append, calculateSize_eq s1, calculateSize_eq s2]
    have hpos2 : (splitAlongPath e (findPath e (h - 1) r) r (h - 1)).2.flat.length > 0 := by
      rw [f2]; simp; omega
    simp only [hpos2, if_true]
    rcases append_eq_append_cons_cases hcs with ⟨post', rfl, rfl⟩ | ⟨pre', rfl, rfl⟩
    · obtain ⟨b1, b2⟩ := (hc e (by simp)).split hse (h - 1) r
        (by rw [(hc e (by simp)).depth] at hde; exact hde) hr
      have hright : (makeRelaxed ((splitAlongPath e (findPath e (h - 1) r) r (h - 1)).2 ::
          (post' ++ ls))).depth ≤ 1 + d := by
        rw [makeRelaxed_depth]
        have h2 : depthL post' ≤ d := depthL_le.2 fun l hl' => by
          simp [(hc l (by simp [hl'])).depth]
        simp only [depthL, b2.depth, depthL_append]; omega
      refine Nat.le_trans hright ?_
      split
      · rename_i hpos1
        rcases b1 with h0 | b1
        · rw [f1, h0] at hpos1; simp at hpos1
        · rw [makeRelaxed_depth, depthL_append]
          simp only [depthL, b1.depth]; omega
      · rename_i hpos1
        have hr0 : r = 0 := by
          rw [f1] at hpos1; simp at hpos1
          rcases hpos1 with h | h
          · exact h
          · rw [h] at hr; simp at hr
        have hpre : pre ≠ [] := by
          intro h; subst h; simp at hidx; omega
        simp only [hpre, if_false, makeRelaxed_depth]
        cases pre with
        | nil => exact absurd rfl hpre
        | cons p pre => simp only [depthL, (hc p (by simp)).depth]; omega
    · obtain ⟨b1, b2⟩ := (hl e (by simp)).split hse (h - 1) r (by omega) hr
      have hpost : depthL post ≤ 0 := depthL_le.2 fun l hl' => by
        simp [(hl l (by simp [hl'])).depth]
      have : (makeRelaxed ((splitAlongPath e (findPath e (h - 1) r) r (h - 1)).2 :: post)).depth ≤ 1 := by
        rw [makeRelaxed_depth]; simp only [depthL, b2.depth]; omega
      refine Nat.le_trans this ?_
      split
      · rw [makeRelaxed_depth]; omega
      · have hne' : cs ++ pre' ≠ [] := by simp [hne]
        simp only [hne', if_false, makeRelaxed_depth]; omega

namespace Tree

/-- Heights of the halves of a cut of a `Stack` tree. -/
theorem Stack.split_heights {t : Tree α} (h : t.Stack) {i : Nat} (h0 : 0 < i) (h1 : i < t.len) :
    (t.splitAt i).2.height ≤ (t.splitAt i).1.height ∧
    (t.splitAt i).2.height ≤ t.height ∧
    ((t.splitAt i).2.height = 0 ∨ (t.splitAt i).1.tail = []) := by
  have hl := h.wf.len
  have hh := h.head
  have e1 : ¬ i = 0 := by omega
  have e2 : ¬ i ≥ t.len := by omega
  have e3 : ¬ i ≤ t.head.length := by simp [hh]; omega
  simp only [Tree.splitAt, e1, e2, e3, if_false, h.wf.treeSize]
  split
  · simp [fromHeadAndTreeAndTail, fromTail]
  · rename_i hin
    simp only [hh, List.length_nil, Nat.sub_zero, Nat.zero_add] at hin ⊢
    obtain ⟨l1, l2⟩ := h.ld.split h.wf.sized t.height i h.depth (by omega)
    have hd := h.ld.split_height h.wf.sized t.height i h.depth h0 (by omega)
    have hd2 := split_right_depth t.root h.wf.sized t.height i h.depth (by omega)
    simp only [fromHeadAndRoot, fromRootAndTail, splitTreeAt, l1.height, l2.height]
    exact ⟨hd, Nat.le_trans hd2 h.depth, .inr (by trivial)⟩

end Tree

namespace PV

/-- `insert` on a `Stack` vector. -/
theorem Stack.insert_eq {v : PV α} (h : v.Stack) (i : Nat) (x : α) :
    (v.insert i x).WF ∧ (v.insert i x).abs = v.abs.take i ++ x :: v.abs.drop i := by
  have hlen := h.wf.length
  unfold PV.insert
  split
  · obtain ⟨p1, p2⟩ := pushBack_spec h.wf x
    refine ⟨p1, ?_⟩
    rw [p2, List.take_of_length_le (by omega), List.drop_of_length_le (by omega)]
  · split
    · rename_i h0; subst h0
      obtain ⟨p1, p2⟩ := pushFront_spec h.wf x
      exact ⟨p1, by rw [p2]; simp⟩
    · rename_i hlt h0
      obtain ⟨s1, s2, l1, l2⟩ := h.splitAt i
      obtain ⟨q1, q2⟩ := pushBack_spec s1.wf x
      obtain ⟨c1, c2⟩ := concat_spec q1 s2.wf
      refine ⟨c1, ?_⟩
      have hheight : ¬ ((v.splitAt i).1.pushBack x).heightOf < (v.splitAt i).2.heightOf := by
        clear c1 c2 q1 q2 l1 l2 s1 s2
        have hst := h
        unfold Stack at hst
        have hge : ¬ i ≥ v.len := hlt
        cases hin : v.inner with
        | inline es => simp [PV.splitAt, hge, h0, hin, heightOf]
        | tree t =>
          rw [hin] at hst
          obtain ⟨k1, _, k3⟩ := hst.1.split_heights (i := i) (by omega) (by rw [← hst.2]; omega)
          simp only [PV.splitAt, hge, h0, hin, if_false, heightOf, PV.pushBack, treePushBack]
          rcases k3 with k3 | k3
          · omega
          · simp only [Tree.pushBack, k3, List.length_nil, LEAF_CAPACITY, Nat.zero_lt_succ, if_true]
            omega
      simp only [c2, hheight, and_false, if_false, q2, l1, l2]
      simp

/-- `remove` on a `Stack` vector. -/
theorem Stack.remove_eq {v : PV α} (h : v.Stack) (i : Nat) (hi : i < v.len) :
    ∃ w, v.remove i = some w ∧ w.WF ∧ w.abs = v.abs.eraseIdx i := by
  have hlen := h.wf.length
  have hge : ¬ i ≥ v.len := by omega
  unfold PV.remove
  simp only [hge, if_false]
  split
  · rename_i h1
    refine ⟨_, rfl, wf_new, ?_⟩
    have hi0 : i = 0 := by omega
    subst hi0
    match hv : v.abs, hlen with
    | [], hlen => simp at hlen; omega
    | [a], _ => simp
    | a :: b :: r, hlen => simp at hlen; omega
  · obtain ⟨s1, s2, l1, l2⟩ := h.splitAt i
    obtain ⟨k1, k2⟩ := s2.skip 1
    obtain ⟨c1, c2⟩ := concat_spec s1.wf k1.wf
    refine ⟨_, rfl, c1, ?_⟩
    have hno : ¬ ((v.splitAt i).1.abs ≠ [] ∧ ((v.splitAt i).2.skip 1).abs ≠ [] ∧
        (v.splitAt i).1.heightOf < ((v.splitAt i).2.skip 1).heightOf) := by
      rintro ⟨n1, n2, n3⟩
      revert n3
      have h0 : i ≠ 0 := by
        intro h0; subst h0; simp at l1; exact n1 l1
      have hst := h
      unfold Stack at hst
      cases hin : v.inner with
      | inline es =>
        have hr : (v.splitAt i).2.heightOf = 0 ∧ ((v.splitAt i).2.skip 1).heightOf = 0 := by
          simp only [PV.splitAt, hge, h0, hin, if_false]
          refine ⟨rfl, ?_⟩
          simp only [PV.skip]
          split
          · rfl
          · rename_i hz
            simp only [PV.splitAt, hz, if_false]
            simp [heightOf]
        omega
      | tree t =>
        rw [hin] at hst
        obtain ⟨m1, _, _⟩ := hst.1.split_heights (i := i) (by omega) (by rw [← hst.2]; omega)
        obtain ⟨t1, t2, _, _⟩ := hst.1.splitAt i
        have s2len : (v.splitAt i).2.len = (t.splitAt i).2.len := by
          have := s2
          unfold Stack at this
          simp only [PV.splitAt, hge, h0, hin, if_false] at this ⊢
          exact this.2
        simp only [PV.skip]
        split
        · simp [heightOf, new]
        · rename_i hz
          have hz' : 1 < (t.splitAt i).2.len := by omega
          obtain ⟨_, m2, _⟩ := t2.split_heights (i := 1) (by omega) hz'
          have e1 : (v.splitAt i).1.heightOf = (t.splitAt i).1.height := by
            simp only [PV.splitAt, hge, h0, hin, if_false, heightOf]
          have e2 : ((v.splitAt i).2.splitAt 1).2.heightOf = ((t.splitAt i).2.splitAt 1).2.height := by
            have hin2 : (v.splitAt i).2.inner = .tree (t.splitAt i).2 := by
              simp only [PV.splitAt, hge, h0, hin, if_false]
            generalize (v.splitAt i).2 = u at hin2 hz
            simp [PV.splitAt, hz, hin2, heightOf]
          rw [e1, e2]; omega
    rw [c2, if_neg hno, k2, l1, l2, List.drop_drop, List.eraseIdx_eq_take_drop_succ]

end PV
end Rustica.PVec
