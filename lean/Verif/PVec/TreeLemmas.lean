import Verif.PVec.NodeLemmas

/-!
# Lemmas about trees: every operation's effect on the represented sequence
-/

namespace Rustica.PVec

variable {α : Type}

/-! ### `chunks` -/

section Chunks

theorem chunksAux_flatten (n : Nat) (hn : 0 < n) : ∀ (fuel : Nat) (xs : List α),
    xs.length ≤ fuel → (chunksAux n fuel xs).flatten = xs := by
  intro fuel
  induction fuel with
  | zero => intro xs h; have : xs = [] := List.length_eq_zero_iff.1 (by omega); simp [chunksAux, this]
  | succ fuel ih =>
    intro xs h
    simp only [chunksAux]
    by_cases hx : xs = []
    · simp [hx]
    · have hpos : 0 < xs.length := List.length_pos_iff.2 hx
      have : xs.isEmpty = false := by simp [hx]
      simp only [this, Bool.false_eq_true, if_false, List.flatten_cons]
      rw [ih _ (by simp; omega), List.take_append_drop]

theorem chunks_flatten {n : Nat} (hn : 0 < n) (xs : List α) : (chunks n xs).flatten = xs :=
  chunksAux_flatten n hn _ _ (Nat.le_refl _)

theorem chunksAux_mem (n : Nat) (hn : 0 < n) : ∀ (fuel : Nat) (xs : List α),
    ∀ c ∈ chunksAux n fuel xs, c ≠ [] ∧ c.length ≤ n := by
  intro fuel
  induction fuel with
  | zero => intro xs c h; simp [chunksAux] at h
  | succ fuel ih =>
    intro xs c h
    simp only [chunksAux] at h
    by_cases hx : xs = []
    · simp [hx] at h
    · have hpos : 0 < xs.length := List.length_pos_iff.2 hx
      have he : xs.isEmpty = false := by simp [hx]
      simp only [he, Bool.false_eq_true, if_false, List.mem_cons] at h
      rcases h with rfl | h
      · refine ⟨?_, by simp; omega⟩
        intro h0
        have := congrArg List.length h0
        simp only [List.length_take, List.length_nil] at this; omega
      · exact ih _ c h

theorem chunks_mem {n : Nat} (hn : 0 < n) (xs : List α) :
    ∀ c ∈ chunks n xs, c ≠ [] ∧ c.length ≤ n := chunksAux_mem n hn _ xs

theorem chunksAux_length (n : Nat) (hn : 0 < n) : ∀ (fuel : Nat) (xs : List α),
    xs.length ≤ fuel → (chunksAux n fuel xs).length = (xs.length + n - 1) / n := by
  intro fuel
  induction fuel with
  | zero =>
    intro xs h
    have : xs = [] := List.length_eq_zero_iff.1 (by omega)
    subst this
    simp only [chunksAux, List.length_nil]
    rw [Nat.div_eq_of_lt (by omega)]
  | succ fuel ih =>
    intro xs h
    simp only [chunksAux]
    by_cases hx : xs = []
    · subst hx
      simp only [List.isEmpty_nil, if_true, List.length_nil]
      rw [Nat.div_eq_of_lt (by omega)]
    · have hpos : 0 < xs.length := List.length_pos_iff.2 hx
      have he : xs.isEmpty = false := by simp [hx]
      simp only [he, Bool.false_eq_true, if_false, List.length_cons]
      rw [ih _ (by simp; omega)]
      simp only [List.length_drop]
      by_cases hle : xs.length ≤ n
      · have h1 : xs.length - n = 0 := by omega
        rw [h1, Nat.div_eq_of_lt (by omega)]
        symm
        rw [Nat.div_eq_iff hn]
        omega
      · have : xs.length + n - 1 = (xs.length - n + n - 1) + n := by omega
        rw [this, Nat.add_div_right _ hn]

theorem chunks_length {n : Nat} (hn : 0 < n) (xs : List α) :
    (chunks n xs).length = (xs.length + n - 1) / n := chunksAux_length n hn _ _ (Nat.le_refl _)

end Chunks

namespace Tree
open Node

/-! ### Construction -/

theorem flatL_map_makeRelaxed (css : List (List (Node α))) :
    flatL (css.map makeRelaxed) = flatL css.flatten := by
  induction css with
  | nil => simp
  | cons c cs ih => simp [ih]

theorem flatL_map_leaf (css : List (List α)) : flatL (css.map Node.leaf) = css.flatten := by
  induction css with
  | nil => simp
  | cons c cs ih => simp [ih]

/-- `build_tree_recursive` keeps the sequence, and the fuel given by the caller
is enough. -/
theorem buildTree_spec : ∀ (fuel : Nat) (nodes : List (Node α)), nodes ≠ [] →
    nodes.length ≤ fuel → (∀ n ∈ nodes, n.Sized) →
    (buildTreeRecursive fuel nodes).1.Sized ∧
    (buildTreeRecursive fuel nodes).1.flat = flatL nodes := by
  intro fuel
  induction fuel with
  | zero => intro nodes hne hlen; exact absurd (List.length_eq_zero_iff.1 (by omega)) hne
  | succ fuel ih =>
    intro nodes hne hlen hs
    match nodes, hne, hlen, hs with
    | [n], _, _, hs => simp [buildTreeRecursive, hs n (by simp)]
    | n :: m :: rest, _, hlen, hs =>
      simp only [buildTreeRecursive]
      have hpos : 0 < BRANCHING_FACTOR := by decide
      have hcl := chunks_length hpos (n :: m :: rest)
      have hmem := chunks_mem hpos (n :: m :: rest)
      have hfl := chunks_flatten hpos (n :: m :: rest)
      generalize hcs : chunks BRANCHING_FACTOR (n :: m :: rest) = cs at hcl hmem hfl ⊢
      have hsub : ∀ c ∈ cs, ∀ x ∈ c, x ∈ n :: m :: rest := by
        intro c hc x hx
        rw [← hfl]; exact List.mem_flatten.2 ⟨c, hc, hx⟩
      have hne' : cs.map makeRelaxed ≠ [] := by
        intro h
        have : cs = [] := by simpa using h
        rw [this] at hfl; simp at hfl
      obtain ⟨h1, h2⟩ := ih (cs.map makeRelaxed) hne' (by
          simp only [List.length_map, List.length_cons] at hcl hlen ⊢
          simp only [BRANCHING_FACTOR] at hcl
          omega) (by
          intro x hx
          obtain ⟨c, hc, rfl⟩ := List.mem_map.1 hx
          exact sized_makeRelaxed (hmem c hc).1 fun y hy => hs y (hsub c hc y hy))
      refine ⟨h1, ?_⟩
      rw [h2, flatL_map_makeRelaxed, hfl]

theorem fromElements_spec (xs : List α) :
    (fromElements xs).WF ∧ (fromElements xs).toList = xs ∧ (fromElements xs).len = xs.length ∧
    (fromElements xs).head = [] := by
  simp only [fromElements]
  split
  · exact ⟨⟨by simp, by simp⟩, by simp [toList], rfl, rfl⟩
  · rename_i hlen
    simp only [LEAF_CAPACITY] at hlen
    simp only [buildTreeWithTail]
    have hk : 0 < (xs.length / LEAF_CAPACITY) * LEAF_CAPACITY ∧
        (xs.length / LEAF_CAPACITY) * LEAF_CAPACITY ≤ xs.length := by
      simp only [LEAF_CAPACITY]; omega
    generalize (xs.length / LEAF_CAPACITY) * LEAF_CAPACITY = k at hk
    have hne : xs.take k ≠ [] := by
      intro h; have := congrArg List.length h
      simp only [List.length_take, List.length_nil] at this; omega
    have he : (xs.take k).isEmpty = false := by simpa using hne
    simp only [he, Bool.false_eq_true, if_false]
    have hfl := chunks_flatten (n := LEAF_CAPACITY) (by decide) (xs.take k)
    generalize chunks LEAF_CAPACITY (xs.take k) = cs at hfl ⊢
    obtain ⟨h1, h2⟩ := buildTree_spec (cs.map Node.leaf).length (cs.map Node.leaf) (by
      intro h
      have : cs = [] := by simpa using h
      rw [this] at hfl; exact hne (by simpa using hfl.symm)) (Nat.le_refl _) (by
      intro n hn
      obtain ⟨c, _, rfl⟩ := List.mem_map.1 hn
      simp)
    rw [flatL_map_leaf, hfl] at h2
    refine ⟨⟨h1, ?_⟩, ?_, by trivial, by trivial⟩
    · simp only [h2]; simp; omega
    · simp only [toList, h2]; simp

/-! ### Reading and updating -/

theorem getFromNodeL_append (pre : List (Node α)) (c : Node α) (post) (r h : Nat) :
    getFromNodeL (pre ++ c :: post) pre.length r h = getFromNode c r h := by
  induction pre with
  | nil => simp [getFromNodeL]
  | cons p pre ih => simpa [getFromNodeL] using ih

theorem getFromNode_eq (n : Node α) : n.Sized → ∀ i h, getFromNode n i h = n.flat[i]? := by
  induction n using Node.induct with
  | hleaf es => intro _ i h; simp [getFromNode]
  | hbranch cs s ih =>
    intro hs i h
    obtain ⟨_, rfl, hc⟩ := (sized_branch _ _).1 hs
    rcases scan_spec0 cs i with ⟨pre, c, post, r, rfl, hscan, hi, hr⟩ | ⟨hscan, hle⟩
    · rw [getFromNode]
      simp only [hscan, getFromNodeL_append]
      rw [ih c (by simp) (hc c (by simp))]
      simp only [flat_branch, flatL_append, flatL_cons]
      rw [List.getElem?_append_right (by omega), List.getElem?_append_left (by omega)]
      congr 1; omega
    · rw [getFromNode]
      simp only [hscan, flat_branch]
      rw [List.getElem?_eq_none hle]

theorem WF.treeSize {t : Tree α} (h : t.WF) : t.treeSize = t.root.flat.length := by
  have := h.len
  simp only [Tree.treeSize]; omega

theorem WF.length {t : Tree α} (h : t.WF) : t.toList.length = t.len := by
  have := h.len
  simp [toList]; omega

theorem get_eq {t : Tree α} (h : t.WF) (i : Nat) : t.get i = t.toList[i]? := by
  have hl := h.len
  simp only [get, h.treeSize, getFromTree]
  split
  · rw [List.getElem?_eq_none]; rw [h.length]; omega
  · split
    · simp only [toList]
      rw [List.append_assoc, List.getElem?_append_left (by omega)]
    · split
      · rw [getFromNode_eq _ h.sized]
        simp only [toList]
        rw [List.append_assoc, List.getElem?_append_right (by omega),
          List.getElem?_append_left (by omega)]
      · simp only [toList]
        rw [List.append_assoc, List.getElem?_append_right (by omega),
          List.getElem?_append_right (by omega)]

theorem update_spec {t : Tree α} (h : t.WF) (i : Nat) (x : α) :
    (t.update i x).WF ∧ (t.update i x).toList = t.toList.set i x ∧ (t.update i x).len = t.len := by
  have hl := h.len
  simp only [update, h.treeSize]
  split
  · refine ⟨h, ?_, by trivial⟩
    rw [List.set_eq_of_length_le]; rw [h.length]; omega
  · split
    · refine ⟨⟨h.sized, by simp [hl]⟩, ?_, rfl⟩
      simp only [toList]
      rw [List.append_assoc, List.append_assoc, List.set_append_left _ _ (by omega)]
    · split
      · obtain ⟨h1, h2⟩ := Node.update_spec t.root h.sized (i - t.head.length) x
        refine ⟨⟨h1, by simp [h2, hl]⟩, ?_, rfl⟩
        simp only [toList, h2]
        rw [List.append_assoc, List.append_assoc, List.set_append_right _ _ (by omega),
          List.set_append_left _ _ (by omega)]
      · have hlt : i - t.head.length - t.root.flat.length < t.tail.length := by omega
        simp only [hlt, if_true]
        refine ⟨⟨h.sized, by simp [hl]⟩, ?_, by trivial⟩
        simp only [toList]
        rw [List.append_assoc, List.append_assoc, List.set_append_right _ _ (by omega),
          List.set_append_right _ _ (by omega)]

/-! ### Pushing -/

theorem pushTailToTree_spec {t : Tree α} (h : t.WF) :
    t.pushTailToTree.WF ∧ t.pushTailToTree.toList = t.toList ∧ t.pushTailToTree.len = t.len ∧
    t.pushTailToTree.tail = [] ∧ t.pushTailToTree.head = t.head := by
  have hl := h.len
  simp only [pushTailToTree]
  split
  · rename_i he
    have he : t.tail = [] := by simpa using he
    exact ⟨h, rfl, rfl, he, rfl⟩
  · obtain ⟨h1, h2⟩ := Node.pushLeaf_spec h.sized (sized_leaf t.tail)
    refine ⟨⟨h1, ?_⟩, ?_, rfl, rfl, rfl⟩
    · simp [h2, hl]; omega
    · simp [toList, h2]

theorem pushHeadToTree_spec {t : Tree α} (h : t.WF) :
    t.pushHeadToTree.WF ∧ t.pushHeadToTree.toList = t.toList ∧ t.pushHeadToTree.len = t.len ∧
    t.pushHeadToTree.head = [] ∧ t.pushHeadToTree.tail = t.tail := by
  have hl := h.len
  simp only [pushHeadToTree]
  split
  · rename_i he
    have he : t.head = [] := by simpa using he
    exact ⟨h, rfl, rfl, he, rfl⟩
  · obtain ⟨h1, h2⟩ := Node.pushFrontLeaf_spec h.sized (sized_leaf t.head)
    refine ⟨⟨h1, ?_⟩, ?_, rfl, rfl, rfl⟩
    · simp [h2, hl]
    · simp [toList, h2]

theorem pushBack_spec {t : Tree α} (h : t.WF) (x : α) :
    (t.pushBack x).WF ∧ (t.pushBack x).toList = t.toList ++ [x] ∧
    (t.pushBack x).len = t.len + 1 := by
  simp only [pushBack]
  split
  · have hl := h.len
    exact ⟨⟨h.sized, by simp [hl]; omega⟩, by simp [toList], rfl⟩
  · obtain ⟨h1, h2, h3, h4, _⟩ := pushTailToTree_spec h
    have hl := h1.len
    refine ⟨⟨h1.sized, by simp [hl]; omega⟩, ?_, by simp [h3]⟩
    rw [← h2]; simp [toList]

theorem pushFront_spec {t : Tree α} (h : t.WF) (x : α) :
    (t.pushFront x).WF ∧ (t.pushFront x).toList = x :: t.toList ∧
    (t.pushFront x).len = t.len + 1 := by
  simp only [pushFront]
  split
  · have hl := h.len
    exact ⟨⟨h.sized, by simp [hl]; omega⟩, by simp [toList], rfl⟩
  · obtain ⟨h1, h2, h3, h4, _⟩ := pushHeadToTree_spec h
    have hl := h1.len
    refine ⟨⟨h1.sized, by simp [hl]; omega⟩, ?_, by simp [h3]⟩
    rw [← h2]; simp [toList]

/-! ### Concatenation -/

theorem concatLast_append (pre : List (Node α)) (c r : Node α) :
    concatLast (pre ++ [c]) r = some (concatNodes c r) := by
  induction pre with
  | nil => simp [concatLast]
  | cons p pre ih =>
    cases pre with
    | nil => simp [concatLast]
    | cons q pre => simpa [concatLast] using ih

theorem concatNodes_spec (l : Node α) : l.Sized → ∀ r : Node α, r.Sized →
    (concatNodes l r).Sized ∧ (concatNodes l r).flat = l.flat ++ r.flat := by
  induction l using Node.induct with
  | hleaf es =>
    intro _ r hr
    cases r with
    | leaf fs =>
      simp only [concatNodes]
      split
      · simp
      · exact ⟨sized_makeRelaxed (by simp) (by simp), by simp⟩
    | branch cs s =>
      obtain ⟨hne, rfl, hc⟩ := (sized_branch _ _).1 hr
      simp only [concatNodes]
      exact ⟨sized_makeRelaxed (by simp) (by simpa using hc), by simp⟩
  | hbranch cs s ih =>
    intro hl r hr
    obtain ⟨hne, rfl, hc⟩ := (sized_branch _ _).1 hl
    cases r with
    | leaf fs =>
      simp only [concatNodes]
      refine ⟨sized_makeRelaxed (by simp) ?_, by simp⟩
      intro c h
      simp only [List.mem_append, List.mem_singleton] at h
      rcases h with h | rfl
      · exact hc c h
      · simp
    | branch ds s =>
      obtain ⟨hne', rfl, hd⟩ := (sized_branch _ _).1 hr
      obtain ⟨pre, c, rfl⟩ := exists_eq_append_singleton hne
      cases ds with
      | nil => exact absurd rfl hne'
      | cons d ds =>
        simp only [concatNodes, concatLast_append]
        obtain ⟨h1, h2⟩ := ih c (by simp) (hc c (by simp)) d (hd d (by simp))
        refine ⟨sized_makeRelaxed (by simp) ?_, ?_⟩
        · intro x hx
          simp only [List.dropLast_concat, Option.toList_some, List.mem_append, List.mem_singleton,
            List.drop_succ_cons, List.drop_zero] at hx
          rcases hx with (hx | rfl) | hx
          · exact hc x (by simp [hx])
          · exact h1
          · exact hd x (by simp [hx])
        · simp [h2]

theorem concatSameHeight_spec {a b : Tree α} (ha : a.WF) (hb : b.WF) :
    (a.concatSameHeight b).WF ∧ (a.concatSameHeight b).toList = a.toList ++ b.toList ∧
    (a.concatSameHeight b).len = a.len + b.len := by
  have key : ∀ l r : Tree α, l.WF → r.WF → l.tail = [] → r.head = [] →
      l.toList = a.toList → r.toList = b.toList → l.len = a.len → r.len = b.len → ∀ hgt,
      (Tree.mk (concatNodes l.root r.root) r.tail l.head hgt (a.len + b.len)).WF ∧
      (Tree.mk (concatNodes l.root r.root) r.tail l.head hgt (a.len + b.len)).toList =
        a.toList ++ b.toList := by
    intro l r hl hr ht hh h1 h2 h3 h4 hgt
    obtain ⟨c1, c2⟩ := concatNodes_spec l.root hl.sized r.root hr.sized
    have := hl.len
    have := hr.len
    refine ⟨⟨c1, ?_⟩, ?_⟩
    · simp [c2, ht, hh] at *; omega
    · rw [← h1, ← h2]; simp [toList, c2, ht, hh]
  have hL : ∃ l, (if !a.tail.isEmpty then a.pushTailToTree else a) = l ∧ l.WF ∧ l.tail = [] ∧
      l.toList = a.toList ∧ l.len = a.len := by
    refine ⟨_, rfl, ?_⟩
    obtain ⟨h1, h2, h3, h4, _⟩ := pushTailToTree_spec ha
    split
    · exact ⟨h1, h4, h2, h3⟩
    · rename_i he
      exact ⟨ha, by simpa using he, rfl, rfl⟩
  have hR : ∃ r, (if !b.head.isEmpty then b.pushHeadToTree else b) = r ∧ r.WF ∧ r.head = [] ∧
      r.toList = b.toList ∧ r.len = b.len := by
    refine ⟨_, rfl, ?_⟩
    obtain ⟨h1, h2, h3, h4, _⟩ := pushHeadToTree_spec hb
    split
    · exact ⟨h1, h4, h2, h3⟩
    · rename_i he
      exact ⟨hb, by simpa using he, rfl, rfl⟩
  obtain ⟨l, el, l1, l2, l3, l4⟩ := hL
  obtain ⟨r, er, r1, r2, r3, r4⟩ := hR
  simp only [concatSameHeight, el, er]
  obtain ⟨k1, k2⟩ := key l r l1 r1 l2 r2 l3 r3 l4 r4 (max a.height b.height)
  exact ⟨k1, k2, by trivial⟩

theorem elevateRoot_spec : ∀ (k : Nat) (n : Node α), n.Sized →
    (elevateRoot k n).Sized ∧ (elevateRoot k n).flat = n.flat := by
  intro k
  induction k with
  | zero => intro n h; exact ⟨h, rfl⟩
  | succ k ih =>
    intro n h
    simp only [elevateRoot]
    obtain ⟨h1, h2⟩ := ih (.branch [n] (some [n.calculateSize]))
      ((sized_branch _ _).2 ⟨by simp, by simp [calculateSize_eq h], by simpa using h⟩)
    exact ⟨h1, by simp [h2]⟩

theorem elevateTree_spec {t : Tree α} (h : t.WF) (k : Nat) :
    (elevateTree t k).WF ∧ (elevateTree t k).toList = t.toList ∧ (elevateTree t k).len = t.len := by
  obtain ⟨h1, h2⟩ := elevateRoot_spec (k - t.height) t.root h.sized
  exact ⟨⟨h1, by simp [elevateTree, h2, h.len]⟩, by simp [toList, elevateTree, h2], rfl⟩

/-- Exact effect of `concat` on trees: when the left tree's recorded height is
smaller, the operands come out in the opposite order. -/
theorem concat_spec {a b : Tree α} (ha : a.WF) (hb : b.WF) :
    (a.concat b).WF ∧ (a.concat b).len = a.len + b.len ∧
    (a.concat b).toList =
      if a.len ≠ 0 ∧ b.len ≠ 0 ∧ a.height < b.height then b.toList ++ a.toList
      else a.toList ++ b.toList := by
  simp only [concat]
  by_cases h1 : a.len = 0
  · have : a.toList = [] := List.length_eq_zero_iff.1 (by rw [ha.length, h1])
    simp [h1, hb, this]
  · by_cases h2 : b.len = 0
    · have : b.toList = [] := List.length_eq_zero_iff.1 (by rw [hb.length, h2])
      simp [h1, h2, ha, this]
    · simp only [h1, h2, if_false]
      by_cases h3 : a.height = b.height
      · obtain ⟨k1, k2, k3⟩ := concatSameHeight_spec ha hb
        simp [h3, k1, k2, k3]
      · by_cases h4 : a.height < b.height
        · obtain ⟨e1, e2, e3⟩ := elevateTree_spec hb a.height
          obtain ⟨k1, k2, k3⟩ := concatSameHeight_spec e1 ha
          simp [h3, h4, concatDifferentHeight, k1, k2, k3, e2, e3]
          omega
        · obtain ⟨e1, e2, e3⟩ := elevateTree_spec hb a.height
          obtain ⟨k1, k2, k3⟩ := concatSameHeight_spec ha e1
          simp [h3, h4, concatDifferentHeight, k1, k2, k3, e2, e3]

end Tree
end Rustica.PVec
