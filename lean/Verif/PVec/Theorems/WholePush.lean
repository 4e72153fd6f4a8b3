import Verif.PVec.Theorems.PanicExact
import Verif.PVec.Theorems.Whole
import Verif.PVec.Theorems.Gap

/-!
# `push_front` and `push_back` on every reachable vector, damaged or not (C03)
-/

namespace Rustica.PVec

variable {α : Type}

namespace Tree

/-- What `get` of a tree with accurate size tables answers. -/
theorem get_flat {t : Tree α} (h : t.root.Sized) (k : Nat) : t.get k =
    if k ≥ t.len then none else if k < t.head.length then t.head[k]?
    else if k - t.head.length < t.treeSize then t.root.flat[k - t.head.length]?
    else t.tail[k - t.head.length - t.treeSize]? := by
  simp only [get, getFromTree, getFromNode_eq t.root h]

/-- `push_front` moves every position of a tree up by one. -/
theorem pushFront_get {t : Tree α} (h : t.root.Sized) (hs : t.head.length < LEAF_CAPACITY ∨ ¬ t.Short) (x : α) :
    (t.pushFront x).get 0 = some x ∧ ∀ j, (t.pushFront x).get (j + 1) = t.get j := by
  have hz := pushFront_sized h x
  simp only [get_flat hz, get_flat h]
  unfold pushFront
  by_cases hr : t.head.length < LEAF_CAPACITY
  · simp only [hr, if_true, treeSize]
    refine ⟨by simp, fun j => ?_⟩
    simp only [List.length_cons]
    rw [show t.len + 1 - (t.head.length + 1) - t.tail.length = t.len - t.head.length - t.tail.length by omega,
      show j + 1 - (t.head.length + 1) = j - t.head.length by omega]
    by_cases h1 : j ≥ t.len
    · rw [if_pos (by omega), if_pos h1]
    · rw [if_neg (by omega), if_neg h1]
      by_cases h2 : j < t.head.length
      · rw [if_pos (by omega), if_pos h2]; simp
      · rw [if_neg (by omega), if_neg h2]; rfl
  · have hs : ¬ t.Short := by rcases hs with hs | hs; exact absurd hs hr; exact hs
    unfold Short at hs
    have hne : t.head.isEmpty = false := by
      cases hh : t.head with
      | nil => rw [hh] at hr; simp [LEAF_CAPACITY] at hr
      | cons a l => rfl
    have hl : (Node.leaf t.head).Sized := by simp
    obtain ⟨_, hf⟩ := Node.pushFrontLeaf_spec h hl
    simp only [hr, if_false, pushHeadToTree, hne, treeSize, Bool.false_eq_true, hf, Node.flat_leaf]
    refine ⟨by simp, fun j => ?_⟩
    simp only [List.length_cons, List.length_nil, Nat.zero_add, Nat.add_sub_cancel]
    by_cases h1 : j ≥ t.len
    · rw [if_pos (by omega), if_pos h1]
    · rw [if_neg (by omega), if_neg h1, if_neg (by omega)]
      by_cases h2 : j < t.head.length
      · rw [if_pos (by omega), if_pos h2, List.getElem?_append_left h2]
      · rw [if_neg h2, List.getElem?_append_right (by omega)]
        by_cases h3 : j - t.head.length < t.len - t.head.length - t.tail.length
        · rw [if_pos (by omega)]; exact (if_pos h3).symm
        · rw [if_neg (by omega)]
          refine Eq.trans ?_ (if_neg h3).symm
          congr 1
          show _ = j - t.head.length - (t.len - t.head.length - t.tail.length)
          omega

/-- The sequence a tree stands for when `len` claims no more than it stores. -/
def seq (t : Tree α) : List α := t.head ++ t.root.flat.take t.treeSize ++ t.tail

theorem seq_spec {t : Tree α} (h : t.root.Sized) (hs : ¬ t.Short) (hr : t.treeSize ≤ t.root.flat.length) :
    t.seq.length = t.len ∧ ∀ k, t.get k = t.seq[k]? := by
  unfold Short at hs
  have hl : t.seq.length = t.len := by
    simp only [seq, List.length_append, List.length_take, treeSize] at *; omega
  refine ⟨hl, fun k => ?_⟩
  rw [get_flat h]
  by_cases h1 : k ≥ t.len
  · rw [if_pos h1, List.getElem?_eq_none (by omega)]
  rw [if_neg h1]
  unfold seq
  by_cases h2 : k < t.head.length
  · rw [if_pos h2, List.append_assoc, List.getElem?_append_left h2]
  rw [if_neg h2, List.append_assoc, List.getElem?_append_right (by omega)]
  by_cases h3 : k - t.head.length < t.treeSize
  · rw [if_pos h3, List.getElem?_append_left (by rw [List.length_take]; omega), List.getElem?_take, if_pos h3]
  · rw [if_neg h3, List.getElem?_append_right (by rw [List.length_take]; omega), List.length_take, Nat.min_eq_left hr]

end Tree

namespace PV

/-- `push_front` on every reachable vector, damaged or not, as long as its counts are not too small for its buffers: the length
goes up by one, index 0 reads the new element, and every index reads what the one before it read, gaps included. -/
theorem c03_push_front_all {v : PV α} (h : Reach v) (hs : ∀ t, v.inner = .tree t → ¬ t.Short) (x : α) :
    (v.pushFront x).len = v.len + 1 ∧ (v.pushFront x).get 0 = some x ∧
    (∀ j, (v.pushFront x).get (j + 1) = v.get j) ∧ (v.pushFront x).toVec = x :: v.toVec := by
  have hl := h.lax
  suffices hg : (v.pushFront x).len = v.len + 1 ∧ (v.pushFront x).get 0 = some x ∧
      ∀ j, (v.pushFront x).get (j + 1) = v.get j by
    obtain ⟨h1, h2, h3⟩ := hg
    refine ⟨h1, h2, h3, ?_⟩
    rw [(c11_collect _ 0).2, (c11_collect _ 0).2]
    unfold answers
    rw [h1, List.range_succ_eq_map, List.map_cons, List.map_map, h2]
    simp only [untilNone, List.cons.injEq, true_and]
    congr 1
    apply List.map_congr_left
    intro j _
    exact h3 j
  unfold Lax at hl
  cases hv : v.inner with
  | tree t =>
    rw [hv] at hl
    have e : v.pushFront x = ⟨.tree (t.pushFront x), v.len + 1, v.generation + 1⟩ := by simp [pushFront, treePushFront, hv]
    obtain ⟨k1, k2⟩ := Tree.pushFront_get hl (.inr (hs t hv)) x
    rw [e]
    refine ⟨rfl, by simp [get, k1], fun j => ?_⟩
    simp only [get, k2, hv]
    by_cases hj : j ≥ v.len
    · rw [if_pos (by omega), if_pos hj]
    · rw [if_neg (by omega), if_neg hj]
  | inline es =>
    rw [hv] at hl
    have hw : v.WF := by unfold WF; rw [hv]; exact hl
    obtain ⟨k1, k2⟩ := pushFront_spec hw x
    have hlen : (v.pushFront x).len = v.len + 1 := by
      have a := k1.length
      have b := hw.length
      rw [k2] at a
      simp only [List.length_cons] at a
      omega
    refine ⟨hlen, by rw [get_eq k1, k2]; rfl, fun j => ?_⟩
    rw [get_eq k1, get_eq hw, k2]; rfl

/-- The hypothesis about the counts, as a test. -/
def counted (v : PV α) : Bool :=
  match v.inner with
  | .inline _ => true
  | .tree t => decide (t.head.length + t.tail.length ≤ t.len)

theorem counted_spec {v : PV α} (h : v.counted = true) : ∀ t, v.inner = .tree t → ¬ t.Short := by
  intro t ht hc
  unfold counted at h
  rw [ht] at h
  simp only [decide_eq_true_eq] at h
  unfold Tree.Short at hc
  omega

/-- A damaged vector: `cut` of `Damaged.lean` has a gap, and keeps it. -/
example : Reach cut ∧ (∀ t, cut.inner = .tree t → ¬ t.Short) ∧ (cut.pushFront 5).get 0 = some 5 :=
  ⟨cut_reach, counted_spec (by decide +kernel), by decide +kernel⟩

/-- What the fields of a vector have to be for `push_back` to append: `len` claims no more of the tree than it stores, the vector
counts everything its tree counts, and either the tail buffer has room or the elements that were cut off but are still stored do
not show when the buffer moves behind them. -/
def BackReady (v : PV α) : Prop := ∀ t, v.inner = .tree t →
  t.treeSize ≤ t.root.flat.length ∧ t.len ≤ v.len ∧
  (t.tail.length < LEAF_CAPACITY ∨ t.tail <+: t.root.flat.drop t.treeSize ++ t.tail)

theorem untilNone_stop (f g : Nat → Option α) (p : Nat) : ∀ n, (∀ j, j ≤ p → f j = g j) → f p = none →
    untilNone ((List.range n).map f) = untilNone ((List.range n).map g) := by
  induction p generalizing f g with
  | zero =>
    intro n h hn
    cases n with
    | zero => rfl
    | succ n =>
      rw [List.range_succ_eq_map, List.map_cons, List.map_cons, ← h 0 (by omega), hn]
      rfl
  | succ p ih =>
    intro n h hn
    cases n with
    | zero => rfl
    | succ n =>
      rw [List.range_succ_eq_map, List.map_cons, List.map_cons, ← h 0 (by omega), List.map_map, List.map_map]
      cases f 0 with
      | none => rfl
      | some a =>
        simp only [untilNone]
        congr 1
        exact ih (f ∘ Nat.succ) (g ∘ Nat.succ) n (fun j hj => h (j + 1) (by omega)) hn

/-- A tree after `push_back`: the new element is last in the tail, and what is in front of it does not depend on it. -/
theorem _root_.Rustica.PVec.Tree.pushBack_fields {t : Tree α} (h : t.root.Sized) : ∃ (R : Node α) (T : List α) (k : Nat),
    R.Sized ∧ (∀ x, t.pushBack x = ⟨R, T ++ [x], t.head, k, t.len + 1⟩) ∧
    (t.tail.length < LEAF_CAPACITY ∧ R.flat = t.root.flat ∧ T = t.tail ∨
      ¬ t.tail.length < LEAF_CAPACITY ∧ R.flat = t.root.flat ++ t.tail ∧ T = []) := by
  by_cases hr : t.tail.length < LEAF_CAPACITY
  · exact ⟨t.root, t.tail, t.height, h, fun x => by simp [Tree.pushBack, hr], .inl ⟨hr, rfl, rfl⟩⟩
  · have hne : t.tail.isEmpty = false := by
      cases hh : t.tail with
      | nil => rw [hh] at hr; simp [LEAF_CAPACITY] at hr
      | cons a l => rfl
    obtain ⟨k1, k2⟩ := Node.pushLeaf_spec h (show (Node.leaf t.tail).Sized by simp)
    refine ⟨_, [], Tree.calculateHeight (t.root.pushLeaf (.leaf t.tail)), k1, fun x => ?_, .inr ⟨hr, by rw [k2, Node.flat_leaf], rfl⟩⟩
    simp only [Tree.pushBack, hr, if_false, Tree.pushTailToTree, hne, Bool.false_eq_true]

/-- C03, exactly when `push_back` appends, for every reachable vector whose counts are not too small for its buffers. -/
theorem c03_push_back_iff (hα : ∃ x y : α, x ≠ y) {v : PV α} (h : Reach v) (hs : ∀ t, v.inner = .tree t → ¬ t.Short) :
    (∀ x, (v.pushBack x).len = v.len + 1 ∧ (v.pushBack x).toVec = v.toVec ++ [x]) ↔ v.BackReady := by
  have hl := h.lax
  unfold Lax at hl
  cases hv : v.inner with
  | inline es =>
    rw [hv] at hl
    have hi : Intact v := ⟨by unfold WF; rw [hv]; exact hl⟩
    refine ⟨fun _ t ht => (by rw [hv] at ht; cases ht), fun _ x => ?_⟩
    obtain ⟨k1, k2⟩ := pushBack_spec hi.wf x
    refine ⟨?_, (c03_push_back_partial hi x).toVec⟩
    have a := k1.length
    have b := hi.wf.length
    rw [k2] at a
    simp only [List.length_append, List.length_cons, List.length_nil] at a
    omega
  | tree t =>
    rw [hv] at hl
    have hs := hs t hv
    obtain ⟨R, T, k, hR, hp, hc⟩ := Tree.pushBack_fields hl
    have e : ∀ x, v.pushBack x = ⟨.tree ⟨R, T ++ [x], t.head, k, t.len + 1⟩, v.len + 1, v.generation + 1⟩ := fun x => by
      simp [pushBack, treePushBack, hv, hp x]
    have hlen : ∀ x, (v.pushBack x).len = v.len + 1 := fun x => by rw [e x]
    have hns := hs
    unfold Tree.Short at hs
    have hT : T.length ≤ t.tail.length ∧ R.flat.length + T.length = t.root.flat.length + t.tail.length := by
      rcases hc with ⟨_, a, b⟩ | ⟨_, a, b⟩ <;> simp [a, b]
    have hts : ∀ x : α, (⟨R, T ++ [x], t.head, k, t.len + 1⟩ : Tree α).treeSize = t.len - t.head.length - T.length := by
      intro x; simp only [Tree.treeSize, List.length_append, List.length_cons, List.length_nil]; omega
    have hts0 : t.treeSize = t.len - t.head.length - t.tail.length := rfl
    have hgt : ∀ x j, (v.pushBack x).get j = if j ≥ v.len + 1 then none else if j ≥ t.len + 1 then none
        else if j < t.head.length then t.head[j]? else if j - t.head.length < t.len - t.head.length - T.length
        then R.flat[j - t.head.length]? else (T ++ [x])[j - t.head.length - (t.len - t.head.length - T.length)]? := by
      intro x j
      rw [e x]
      simp only [get, Tree.get_flat (t := ⟨R, T ++ [x], t.head, k, t.len + 1⟩) hR, hts x]
    have hno : ¬ (t.treeSize ≤ t.root.flat.length ∧ t.len ≤ v.len) → ¬ ∀ x, (v.pushBack x).toVec = v.toVec ++ [x] := by
      intro hn hall
      obtain ⟨x, y, hxy⟩ := hα
      have hsame : (v.pushBack x).toVec = (v.pushBack y).toVec := by
        rw [(c11_collect _ 0).2, (c11_collect _ 0).2]
        unfold answers
        rw [hlen x, hlen y]
        have hbelow : ∀ j, j < t.len → (v.pushBack x).get j = (v.pushBack y).get j := by
          intro j hj
          rw [hgt, hgt]
          by_cases h1 : j ≥ v.len + 1
          · simp [h1]
          by_cases h2 : j < t.head.length
          · simp [h1, h2]
          by_cases h3 : j - t.head.length < t.len - t.head.length - T.length
          · simp [h1, h2, h3]
          · simp only [h1, h2, h3, if_false]
            rw [List.getElem?_append_left (by omega), List.getElem?_append_left (by omega)]
        by_cases h1 : t.len ≤ v.len
        · have h2 : t.root.flat.length < t.treeSize := by
            rcases Nat.lt_or_ge t.root.flat.length t.treeSize with a | a
            · exact a
            · exact absurd ⟨a, h1⟩ hn
          refine untilNone_stop _ _ (t.head.length + R.flat.length) _ (fun j hj => hbelow j (by omega)) ?_
          rw [hgt]
          rw [if_neg (by omega), if_neg (by omega), if_neg (by omega), if_pos (by omega)]
          exact List.getElem?_eq_none (by omega)
        · refine untilNone_stop _ _ (v.len + 1) _ (fun j hj => ?_) ?_
          · by_cases hj' : j = v.len + 1
            · rw [hgt, hgt, if_pos (by omega), if_pos (by omega)]
            · exact hbelow j (by omega)
          · rw [hgt, if_pos (by omega)]
      rw [hall x, hall y] at hsame
      have := List.append_cancel_left hsame
      simp only [List.cons.injEq, and_true] at this
      exact hxy this
    have hyes : t.treeSize ≤ t.root.flat.length → t.len ≤ v.len →
        v.toVec = t.seq ∧ ∀ x, (v.pushBack x).toVec = t.head ++ R.flat.take (t.len - t.head.length - T.length) ++ T ++ [x] := by
      intro h1 h2
      have get_all : ∀ (w : PV α) (u : Tree α), w.inner = .tree u → u.root.Sized → ¬ u.Short →
          u.treeSize ≤ u.root.flat.length → u.len ≤ w.len → w.toVec = u.seq := by
        intro w u hw hu a b c
        obtain ⟨k1, k2⟩ := Tree.seq_spec hu a b
        have hget : ∀ i, w.get i = u.seq[i]? := by
          intro i
          unfold get
          split
          · rw [List.getElem?_eq_none (by omega)]
          · rw [hw]; exact k2 i
        have := collect_gap w u.seq (by omega) hget (w.len + 1) 0 (by omega) (by omega)
        simpa [toVec, items, iter] using this
      refine ⟨get_all v t hv hl hns h1 h2, fun x => ?_⟩
      rw [get_all (v.pushBack x) ⟨R, T ++ [x], t.head, k, t.len + 1⟩ (by rw [e x]) hR
        (by unfold Tree.Short; simp only [List.length_append, List.length_cons, List.length_nil]; omega)
        (by rw [hts x]; show _ ≤ R.flat.length; omega) (by rw [hlen x]; show t.len + 1 ≤ _; omega)]
      unfold Tree.seq
      rw [hts x]
      simp only [List.append_assoc]
    have hone : v.BackReady ↔ t.treeSize ≤ t.root.flat.length ∧ t.len ≤ v.len ∧
        (t.tail.length < LEAF_CAPACITY ∨ t.tail <+: t.root.flat.drop t.treeSize ++ t.tail) := by
      unfold BackReady
      refine ⟨fun hb => hb t hv, fun hb u hu => ?_⟩
      rw [hv] at hu; cases hu; exact hb
    rw [hone]
    by_cases h1 : t.treeSize ≤ t.root.flat.length ∧ t.len ≤ v.len
    · obtain ⟨a, b⟩ := hyes h1.1 h1.2
      simp only [hlen, true_and, a, b, h1.1, h1.2, Tree.seq]
      have hone : (∀ x : α, t.head ++ R.flat.take (t.len - t.head.length - T.length) ++ T ++ [x] =
          t.head ++ t.root.flat.take t.treeSize ++ t.tail ++ [x]) ↔
          R.flat.take (t.len - t.head.length - T.length) ++ T = t.root.flat.take t.treeSize ++ t.tail := by
        obtain ⟨x, _, _⟩ := hα
        constructor
        · intro hh
          have := List.append_cancel_right (hh x)
          rw [List.append_assoc, List.append_assoc] at this
          exact List.append_cancel_left this
        · intro hh x
          rw [List.append_assoc t.head, hh, ← List.append_assoc t.head]
      rw [hone]
      rcases hc with ⟨c1, c2, c3⟩ | ⟨c1, c2, c3⟩
      · subst c3
        simp [c1, c2, hts0]
      · subst c3
        simp only [c1, false_or, c2, List.append_nil, List.length_nil, Nat.sub_zero]
        have e1 : t.len - t.head.length = t.treeSize + t.tail.length := by omega
        have e2 : t.root.flat ++ t.tail = t.root.flat.take t.treeSize ++ (t.root.flat.drop t.treeSize ++ t.tail) := by
          rw [← List.append_assoc, List.take_append_drop]
        have e3 : (t.root.flat.take t.treeSize).length = t.treeSize := by rw [List.length_take]; omega
        rw [e1, e2, List.take_append, e3, List.take_of_length_le (by rw [e3]; omega), Nat.add_sub_cancel_left,
          List.append_right_inj, List.prefix_iff_eq_take]
        exact eq_comm
    · refine ⟨fun hh => absurd (fun x => (hh x).2) (hno h1), fun hh => absurd ⟨hh.1, hh.2.1⟩ h1⟩

/-- Two damaged vectors: `stale` of `Damaged.lean`, whose tree stores more than it counts, still takes a `push_back`; after 64
of them it does not. -/
example : ∃ v w : PV Nat, Reach v ∧ Reach w ∧ (∀ t, v.inner = .tree t → ¬ t.Short) ∧ (∀ t, w.inner = .tree t → ¬ t.Short) ∧
    (∃ t, v.inner = .tree t ∧ t.treeSize < t.root.flat.length) ∧ v.BackReady ∧ ¬ w.BackReady := by
  obtain ⟨w, hw, hc, hg⟩ : ∃ w : PV Nat, Reach w ∧ w.counted = true ∧ (w.pushBack 2).toVec ≠ w.toVec ++ [2] :=
    ⟨times 64 (·.pushBack 1) stale, reach_times (fun _ h => .pushBack 1 h) _ _ stale_reach, by decide +kernel, by decide +kernel⟩
  obtain ⟨v, hv, hd, hn⟩ : ∃ v : PV Nat, Reach v ∧ v.counted = true ∧ (match v.inner with
      | .inline _ => false
      | .tree t => decide (t.treeSize < t.root.flat.length ∧ t.len ≤ v.len ∧ t.tail.length < LEAF_CAPACITY)) = true :=
    ⟨stale, stale_reach, by decide +kernel, by decide +kernel⟩
  have ht : ∃ t, v.inner = .tree t ∧ t.treeSize < t.root.flat.length ∧ t.len ≤ v.len ∧ t.tail.length < LEAF_CAPACITY := by
    cases e : v.inner with
    | inline es => rw [e] at hn; cases hn
    | tree t => rw [e] at hn; exact ⟨t, rfl, by simpa using hn⟩
  obtain ⟨t, e, a, b, c⟩ := ht
  refine ⟨v, w, hv, hw, counted_spec hd, counted_spec hc, ⟨t, e, a⟩, fun u hu => ?_,
    fun hb => hg (((c03_push_back_iff ⟨0, 1, by decide⟩ hw (counted_spec hc)).2 hb) 2).2⟩
  rw [e] at hu; cases hu
  exact ⟨by omega, b, .inl c⟩

end PV
end Rustica.PVec
