import Verif.PVec.TreeLemmas

/-!
# Lemmas about popping and splitting trees
-/

namespace Rustica.PVec
namespace Tree
open Node

variable {α : Type}

/-! ### `pop_back` -/

/-- Cases in which `pop_back` on a well-formed tree is right. -/
theorem popBack_ok {t : Tree α} (h : t.WF) (h0 : t.len ≠ 0)
    (hc : t.tail ≠ [] ∨ (t.head = [] ∧ (t.root.lastLeaf ≠ [] ∨ t.len = 1))) :
    ∃ t' x, t.popBack = some (t', x) ∧ t'.WF ∧ t.toList = t'.toList ++ [x] ∧
      t'.len = t.len - 1 := by
  have hl := h.len
  simp only [popBack, h0, if_false]
  by_cases ht : t.tail = []
  · obtain ⟨hh, hlast⟩ : t.head = [] ∧ (t.root.lastLeaf ≠ [] ∨ t.len = 1) := by
      rcases hc with hc | hc
      · exact absurd ht hc
      · exact hc
    simp only [ht, List.getLast?_nil, popFromTree, h0, if_false, List.length_nil, Nat.sub_zero]
    simp only [ht, hh, List.length_nil] at hl
    have hne : t.root.flat ≠ [] := by
      intro he; simp [he] at hl; omega
    rw [Node.get_eq _ h.sized, hl]
    simp only [Nat.zero_add, Nat.add_zero]
    have hidx : t.root.flat.length - 1 < t.root.flat.length := by omega
    rw [List.getElem?_eq_getElem hidx]
    simp only
    have hlastx : t.root.flat[t.root.flat.length - 1] = t.root.flat.getLast hne :=
      (List.getLast_eq_getElem hne).symm
    by_cases h1 : t.root.flat.length = 1
    · simp only [h1, if_true]
      refine ⟨_, _, rfl, ⟨by simp, by simp [hh]⟩, ?_, by simp⟩
      simp only [toList, hh, ht]
      obtain ⟨x, hx⟩ := List.length_eq_one_iff.1 h1
      simp [hx]
    · simp only [h1, if_false]
      rcases Node.popBack_spec t.root h.sized with ⟨_, n', x, hp, hs, hf⟩ | ⟨hbad, _⟩
      · have hfl : t.root.flat.length = n'.flat.length + 1 := by rw [hf]; simp
        simp only [hp]
        refine ⟨_, _, rfl, ⟨hs, ?_⟩, ?_, by simp⟩
        · simp [hh]; omega
        · simp only [toList, hh, ht]
          rw [hlastx]
          simp [hf]
      · rcases hlast with hlast | hlast
        · exact absurd hbad hlast
        · omega
  · rw [List.getLast?_eq_some_getLast ht]
    refine ⟨_, _, rfl, ⟨h.sized, ?_⟩, ?_, rfl⟩
    · have : 0 < t.tail.length := List.length_pos_iff.2 ht
      simp; omega
    · simp only [toList, List.append_assoc]
      rw [List.dropLast_concat_getLast]

/-- With an empty suffix buffer and a non-empty prefix buffer, `pop_back` fails. -/
theorem popBack_none {t : Tree α} (h : t.WF) (ht : t.tail = []) (hh : t.head ≠ []) :
    t.popBack = none := by
  have hl := h.len
  have hpos : 0 < t.head.length := List.length_pos_iff.2 hh
  have h0 : t.len ≠ 0 := by omega
  simp only [popBack, h0, if_false, ht, List.getLast?_nil, popFromTree, List.length_nil,
    Nat.sub_zero]
  rw [Node.get_eq _ h.sized, List.getElem?_eq_none (by simp [ht] at hl; omega)]

/-- With empty buffers and an empty last leaf, `pop_back` returns the last element
but leaves it in the tree. -/
theorem popBack_stale {t : Tree α} (h : t.WF) (h2 : 2 ≤ t.len) (ht : t.tail = [])
    (hh : t.head = []) (hlast : t.root.lastLeaf = []) :
    t.popBack = (t.toList.getLast?).map fun x => ({ t with len := t.len - 1 }, x) := by
  have hl := h.len
  have h0 : t.len ≠ 0 := by omega
  simp only [ht, hh, List.length_nil] at hl
  simp only [popBack, h0, if_false, ht, List.getLast?_nil, popFromTree, List.length_nil,
    Nat.sub_zero]
  have hne : t.root.flat ≠ [] := by
    intro he; simp [he] at hl; omega
  rw [Node.get_eq _ h.sized, hl]
  simp only [Nat.zero_add, Nat.add_zero]
  have hidx : t.root.flat.length - 1 < t.root.flat.length := by omega
  have h1 : ¬ t.root.flat.length = 1 := by omega
  rw [List.getElem?_eq_getElem hidx]
  rcases Node.popBack_spec t.root h.sized with ⟨hbad, _⟩ | ⟨_, hp⟩
  · exact absurd hlast hbad
  · simp only [h1, if_false, hp, toList, hh, ht, List.nil_append, List.append_nil]
    rw [List.getLast?_eq_some_getLast hne, List.getLast_eq_getElem]
    simp

/-! ### `pop_front` -/

/-- Cases in which `pop_front` on a well-formed tree is right. -/
theorem popFront_ok {t : Tree α} (h : t.WF) (h0 : t.len ≠ 0)
    (hc : t.head ≠ [] ∨ (t.root.flat ≠ [] ∧ t.root.firstLeaf ≠ []) ∨
      (t.root.flat = [] ∧ t.tail.length ≤ 2)) :
    ∃ t' x, t.popFront = some (t', x) ∧ t'.WF ∧ t.toList = x :: t'.toList ∧
      t'.len = t.len - 1 := by
  have hl := h.len
  simp only [popFront, h0, if_false]
  cases hh : t.head with
  | cons x xs =>
    simp only
    refine ⟨_, _, rfl, ⟨h.sized, ?_⟩, ?_, rfl⟩
    · simp [hh] at hl ⊢; omega
    · simp [toList, hh]
  | nil =>
    simp only [hh, List.length_nil] at hl
    simp only [popFrontFromTree, h.treeSize]
    have hc' : (t.root.flat ≠ [] ∧ t.root.firstLeaf ≠ []) ∨
        (t.root.flat = [] ∧ t.tail.length ≤ 2) := by
      rcases hc with hc | hc
      · exact absurd hh hc
      · exact hc
    rcases hc' with ⟨hne, hfl⟩ | ⟨hnil, htl⟩
    · have hpos : t.root.flat.length > 0 := List.length_pos_iff.2 hne
      simp only [hpos, if_true]
      rcases Node.popFront_spec t.root h.sized with ⟨_, n', x, hp, hs, hf⟩ | ⟨hbad, _⟩
      · simp only [hp]
        refine ⟨_, _, rfl, ⟨hs, ?_⟩, ?_, rfl⟩
        · simp [hf, hh] at hl ⊢; omega
        · simp [toList, hh, hf]
      · exact absurd hbad hfl
    · have hpos : ¬ t.root.flat.length > 0 := by simp [hnil]
      simp only [hpos, if_false, popFrontFromTail]
      cases htail : t.tail with
      | nil => simp [hnil, htail] at hl; omega
      | cons x xs =>
        simp only [List.reverse_cons, List.getLast?_concat, List.dropLast_concat]
        refine ⟨_, _, rfl, ⟨by simp, ?_⟩, ?_, rfl⟩
        · simp [hnil, htail] at hl ⊢; omega
        · have : xs.reverse = xs := by
            rw [htail] at htl
            match xs, htl with
            | [], _ => rfl
            | [y], _ => rfl
            | _ :: _ :: _, htl => simp at htl
          simp [toList, hh, hnil, htail, this]

/-- When only the suffix buffer is left, `pop_front` returns its first element and
reverses the rest. -/
theorem popFront_tail {t : Tree α} (h : t.WF) (hh : t.head = []) (hn : t.root.flat = [])
    (x : α) (xs : List α) (ht : t.tail = x :: xs) :
    ∃ t', t.popFront = some (t', x) ∧ t'.WF ∧ t'.toList = xs.reverse ∧ t'.len = t.len - 1 := by
  have hl := h.len
  simp only [hh, hn, ht, List.length_nil, List.length_cons] at hl
  have h0 : t.len ≠ 0 := by omega
  have hpos : ¬ t.root.flat.length > 0 := by simp [hn]
  simp only [popFront, h0, if_false, hh, popFrontFromTree, h.treeSize, hpos, popFrontFromTail, ht,
    List.reverse_cons, List.getLast?_concat, List.dropLast_concat]
  refine ⟨_, rfl, ⟨by simp, ?_⟩, ?_, rfl⟩
  · simp; omega
  · simp [toList]

/-- When the tree part is not empty but its leftmost leaf is, `pop_front` ignores
the tree: it fails if the suffix buffer is empty, and otherwise pops from it,
losing the tree. -/
theorem popFront_emptyLeaf {t : Tree α} (h : t.WF) (hh : t.head = []) (hn : t.root.flat ≠ [])
    (hf : t.root.firstLeaf = []) :
    t.popFront = match t.tail with
      | [] => none
      | x :: xs => some ({ root := .leaf [], tail := [], head := xs.reverse, height := 0,
                           len := t.len - 1 }, x) := by
  have hl := h.len
  have hpos : t.root.flat.length > 0 := List.length_pos_iff.2 hn
  have h0 : t.len ≠ 0 := by omega
  rcases Node.popFront_spec t.root h.sized with ⟨hbad, _⟩ | ⟨_, hp⟩
  · exact absurd hf hbad
  · simp only [popFront, h0, if_false, hh, popFrontFromTree, h.treeSize, hpos, if_true, hp,
      popFrontFromTail]
    cases t.tail with
    | nil => simp
    | cons x xs => simp

/-! ### `split_at` -/

theorem findPathL_append (pre : List (Node α)) (c : Node α) (post) (h r : Nat) :
    findPathL (pre ++ c :: post) pre.length h r = findPath c h r := by
  induction pre with
  | nil => simp [findPathL]
  | cons p pre ih => simpa [findPathL] using ih

theorem splitChild_append (pre : List (Node α)) (c : Node α) (post) (path) (r h : Nat) :
    splitChild (pre ++ c :: post) pre.length path r h = some (splitAlongPath c path r h) := by
  induction pre with
  | nil => simp [splitChild]
  | cons p pre ih => simpa [splitChild] using ih

theorem depthL_le {cs : List (Node α)} {k : Nat} : depthL cs ≤ k ↔ ∀ c ∈ cs, c.depth ≤ k := by
  induction cs with
  | nil => simp [depthL]
  | cons c cs ih => simp only [depthL, List.mem_cons, forall_eq_or_imp, ← ih]; omega

@[simp] theorem depth_leaf (es : List α) : (Node.leaf es).depth = 0 := by simp [depth]
@[simp] theorem depth_branch (cs : List (Node α)) (s) :
    (Node.branch cs s).depth = 1 + depthL cs := by simp [depth]

theorem createLeftBranch_spec {pre : List (Node α)} (hpre : ∀ c ∈ pre, c.Sized) (rest)
    {l : Node α} (hl : l.Sized) :
    (createLeftBranch (pre ++ rest) pre.length l).Sized ∧
    (createLeftBranch (pre ++ rest) pre.length l).flat = flatL pre ++ l.flat := by
  simp only [createLeftBranch, calculateSize_eq hl, List.take_left]
  by_cases h0 : l.flat.length > 0
  · simp only [h0, if_true]
    have : (pre ++ [l]).isEmpty = false := by simp
    simp only [this, Bool.false_eq_true, if_false]
    refine ⟨sized_makeRelaxed (by simp) ?_, by simp⟩
    intro c hc
    simp only [List.mem_append, List.mem_singleton] at hc
    rcases hc with hc | rfl
    · exact hpre c hc
    · exact hl
  · have hnil : l.flat = [] := List.length_eq_zero_iff.1 (by omega)
    simp only [hnil, List.length_nil, gt_iff_lt, Nat.lt_irrefl, if_false, List.append_nil]
    by_cases hp : pre = []
    · simp [hp]
    · have : pre.isEmpty = false := by simpa using hp
      simp only [this, Bool.false_eq_true, if_false]
      exact ⟨sized_makeRelaxed hp hpre, by simp⟩

theorem createRightBranch_spec {pre : List (Node α)} {c : Node α} {post : List (Node α)}
    (hpost : ∀ c ∈ post, c.Sized) {r : Node α} (hr : r.Sized) :
    (createRightBranch (pre ++ c :: post) pre.length r).Sized ∧
    (createRightBranch (pre ++ c :: post) pre.length r).flat = r.flat ++ flatL post := by
  have hdrop : (pre ++ c :: post).drop (pre.length + 1) = post := by
    rw [List.drop_append]; simp
  simp only [createRightBranch, calculateSize_eq hr, hdrop]
  by_cases h0 : r.flat.length > 0
  · simp only [h0, if_true]
    have : ([r] ++ post).isEmpty = false := by simp
    simp only [this, Bool.false_eq_true, if_false]
    refine ⟨sized_makeRelaxed (by simp) ?_, by simp⟩
    intro d hd
    simp only [List.mem_append, List.mem_singleton] at hd
    rcases hd with rfl | hd
    · exact hr
    · exact hpost d hd
  · have hnil : r.flat = [] := List.length_eq_zero_iff.1 (by omega)
    simp only [hnil, List.length_nil, gt_iff_lt, Nat.lt_irrefl, if_false, List.nil_append]
    by_cases hp : post = []
    · simp [hp]
    · have : post.isEmpty = false := by simpa using hp
      simp only [this, Bool.false_eq_true, if_false]
      exact ⟨sized_makeRelaxed hp hpost, by simp⟩

/-- One level of the split, made explicit: the pieces are the pieces of the child
that contains the cut, surrounded by the siblings. -/
theorem split_branch {cs : List (Node α)} (hs : (Node.branch cs (some (cs.map flen))).Sized)
    {h i : Nat} (hh : 0 < h) (hi : i < (flatL cs).length) :
    ∃ pre c post r, cs = pre ++ c :: post ∧ i = (flatL pre).length + r ∧ r < c.flat.length ∧
      splitAlongPath (.branch cs (some (cs.map flen)))
          (findPath (.branch cs (some (cs.map flen))) h i) i h =
        (createLeftBranch cs pre.length
           (splitAlongPath c (findPath c (h - 1) r) r (h - 1)).1,
         createRightBranch cs pre.length
           (splitAlongPath c (findPath c (h - 1) r) r (h - 1)).2) := by
  rcases scan_spec0 cs i with ⟨pre, c, post, r, rfl, hscan, hidx, hr⟩ | ⟨_, hle⟩
  · refine ⟨pre, c, post, r, rfl, hidx, hr, ?_⟩
    rw [findPath]
    have hh' : h ≠ 0 := by omega
    simp only [hh', if_false, hscan, Option.getD_some, findPathL_append]
    rw [splitAlongPath]
    have hadj : calculateAdjustedIndex i pre.length (some ((pre ++ c :: post).map flen)) (h - 1)
        = r := by
      simp only [calculateAdjustedIndex, List.map_append]
      have : pre.length = (pre.map flen).length := by simp
      rw [this, List.take_left, sum_map_flen]; omega
    simp only [hadj, splitChild_append]
  · omega

theorem splitAlongPath_spec (n : Node α) : n.Sized → ∀ h i, n.depth ≤ h → i < n.flat.length →
    (splitAlongPath n (findPath n h i) i h).1.Sized ∧
    (splitAlongPath n (findPath n h i) i h).2.Sized ∧
    (splitAlongPath n (findPath n h i) i h).1.flat = n.flat.take i ∧
    (splitAlongPath n (findPath n h i) i h).2.flat = n.flat.drop i := by
  induction n using Node.induct with
  | hleaf es => intro _ h i _ _; simp [splitAlongPath]
  | hbranch cs s ih =>
    intro hs h i hd hi
    obtain ⟨_, rfl, hc⟩ := (sized_branch _ _).1 hs
    simp only [depth_branch] at hd
    obtain ⟨pre, c, post, r, rfl, hidx, hr, heq⟩ := split_branch hs (h := h) (by omega)
      (by simpa using hi)
    have hdc : c.depth ≤ h - 1 := (depthL_le (cs := pre ++ c :: post) (k := h - 1)).1 (by omega) c (by simp)
    obtain ⟨s1, s2, f1, f2⟩ := ih c (by simp) (hc c (by simp)) (h - 1) r hdc hr
    rw [heq]
    obtain ⟨l1, l2⟩ := createLeftBranch_spec (pre := pre) (fun d hd => hc d (by simp [hd]))
      (c :: post) s1
    obtain ⟨r1, r2⟩ := createRightBranch_spec (pre := pre) (c := c) (post := post)
      (fun d hd => hc d (by simp [hd])) s2
    refine ⟨l1, r1, ?_, ?_⟩
    · rw [l2, f1, hidx]
      simp only [flat_branch, flatL_append, flatL_cons]
      rw [List.take_length_add_append, List.take_append_of_le_length (by omega)]
    · rw [r2, f2, hidx]
      simp only [flat_branch, flatL_append, flatL_cons]
      rw [List.drop_length_add_append, List.drop_append_of_le_length (by omega)]

/-- `split_at` is right when the recorded height is at least the real depth, or
when the cut does not fall inside the tree part. -/
theorem splitAt_ok {t : Tree α} (h : t.WF) (i : Nat)
    (hc : t.root.depth ≤ t.height ∨ i ≤ t.head.length ∨
      t.head.length + t.root.flat.length ≤ i) :
    (t.splitAt i).1.WF ∧ (t.splitAt i).2.WF ∧
    (t.splitAt i).1.toList = t.toList.take i ∧ (t.splitAt i).2.toList = t.toList.drop i := by
  have hl := h.len
  simp only [splitAt, h.treeSize]
  have hempty : (Tree.empty : Tree α).WF := ⟨by simp [empty], by simp [empty]⟩
  split
  · rename_i h0; subst h0
    exact ⟨hempty, h, by simp [toList, empty], by simp⟩
  · split
    · rename_i hge
      refine ⟨h, hempty, ?_, ?_⟩
      · rw [List.take_of_length_le]; rw [h.length]; exact hge
      · rw [List.drop_of_length_le (by rw [h.length]; exact hge)]; simp [toList, empty]
    · split
      · rename_i hle
        refine ⟨⟨by simp [fromHead], by simp [fromHead]⟩, ⟨h.sized, ?_⟩, ?_, ?_⟩
        · simp [fromHeadAndTreeAndTail, calculateSize_eq h.sized]
        · simp only [fromHead, toList, flat_leaf, List.append_nil, List.append_assoc]
          rw [List.take_append_of_le_length hle]
        · simp only [fromHeadAndTreeAndTail, toList, List.append_assoc]
          rw [List.drop_append_of_le_length hle]
      · split
        · rename_i h1 h2 h3 h4
          have hi : i = (t.head ++ t.root.flat).length + (i - t.head.length - t.root.flat.length) := by
            simp; omega
          refine ⟨⟨h.sized, ?_⟩, ⟨by simp [fromTail], by simp [fromTail]⟩, ?_, ?_⟩
          · simp [fromHeadAndTreeAndTail, calculateSize_eq h.sized]
          · simp only [fromHeadAndTreeAndTail, toList]
            conv => rhs; rw [hi]
            rw [List.take_length_add_append]
          · simp only [fromTail, toList, flat_leaf, List.nil_append]
            conv => rhs; rw [hi]
            rw [List.drop_length_add_append]
        · rename_i h1 h2 h3 h4
          have hd : t.root.depth ≤ t.height := by
            rcases hc with hc | hc | hc <;> omega
          obtain ⟨s1, s2, f1, f2⟩ := splitAlongPath_spec t.root h.sized t.height
            (i - t.head.length) hd (by omega)
          simp only [splitTreeAt]
          have hi : i = t.head.length + (i - t.head.length) := by omega
          refine ⟨⟨s1, ?_⟩, ⟨s2, ?_⟩, ?_, ?_⟩
          · simp [fromHeadAndRoot, calculateSize_eq s1]
          · simp [fromRootAndTail, calculateSize_eq s2]
          · simp only [fromHeadAndRoot, toList, f1, List.append_nil, List.append_assoc]
            conv => rhs; rw [hi]
            rw [List.take_length_add_append, List.take_append_of_le_length (by omega)]
          · simp only [fromRootAndTail, toList, f2, List.nil_append, List.append_assoc]
            conv => rhs; rw [hi]
            rw [List.drop_length_add_append, List.drop_append_of_le_length (by omega)]

end Tree
end Rustica.PVec
