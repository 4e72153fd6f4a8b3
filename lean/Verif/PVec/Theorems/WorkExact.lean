import Verif.PVec.Theorems.Work
import Verif.PVec.Theorems.Capacity

/-!
# How many calls removing an element at an end makes, exactly (C102)

The bounds of `Work.lean` are reached: a node on the way to the end costs three calls when an element is removed at the front
(itself and twice the size of what is left of its child) and four at the back, where the element is read first.
-/

namespace Rustica.PVec.Frames
open Node Rustica.PVec.Tree

variable {α X Y : Type}

theorem get_visits (n : Node α) : n.Sized → ∀ i ht, (get n i).calls = n.visits i ht := by
  induction n using Node.induct with
  | hleaf es => intro _ i ht; simp [Node.visits, get]
  | hbranch cs s ih =>
    intro hs i ht
    obtain ⟨hn, rfl, hc⟩ := (Node.sized_branch _ _).mp hs
    simp only [Node.visits, get, calls_call]
    cases Node.scanSizes _ 0 0 i with
    | none => rfl
    | some r =>
      obtain ⟨k, j⟩ := r
      simp only
      congr 1
      clear hs hn
      induction cs generalizing k with
      | nil => rfl
      | cons c cs ih2 =>
        cases k with
        | zero => simp only [getL, Node.visitsL]; exact ih c (by simp) (hc c (by simp)) j _
        | succ k =>
          simp only [getL, Node.visitsL]
          exact ih2 (fun c h => ih c (by simp [h])) (fun c h => hc c (by simp [h])) k

theorem firstLeaf_le_flat (n : Node α) : n.firstLeaf.length ≤ n.flat.length := by
  induction n using Node.induct with
  | hleaf es => simp
  | hbranch cs s ih =>
    cases cs with
    | nil => simp [firstLeaf]
    | cons c cs => have := ih c (by simp); simp; omega

theorem lastLeaf_le_flat (n : Node α) : n.Sized → n.lastLeaf.length ≤ n.flat.length := by
  induction n using Node.induct with
  | hleaf es => simp
  | hbranch cs s ih =>
    intro hs
    obtain ⟨hne, rfl, hc⟩ := (sized_branch _ _).1 hs
    obtain ⟨pre, c, rfl⟩ := exists_eq_append_singleton hne
    have := ih c (by simp) (hc c (by simp))
    simp only [lastLeaf_branch, lastLeafL_append]
    simp; omega

theorem afterPopFront_exact (cs : List (Node α)) (s) {c : Node α} (h : c.Sized) (h0 : c.flat ≠ []) (x : α) :
    (afterPopFront cs s c x).calls = 2 := by
  have h1 := size_calls h
  have h2 : (size c).val ≠ 0 := by
    rw [size_val, calculateSize_eq h]; exact fun e => h0 (List.length_eq_zero_iff.1 e)
  simp only [afterPopFront, calls_bind, if_neg h2, calls_pure]; omega

theorem afterPopBack_exact (cs : List (Node α)) (s) {c : Node α} (h : c.Sized) (h0 : c.flat ≠ []) (x : α) :
    (afterPopBack cs s c x).calls = 2 := by
  have h1 := size_calls h
  have h2 : (size c).val ≠ 0 := by
    rw [size_val, calculateSize_eq h]; exact fun e => h0 (List.length_eq_zero_iff.1 e)
  simp only [afterPopBack, calls_bind, if_neg h2, calls_pure]; omega

theorem nodePopFront_exact (n : Node α) : n.Sized → 2 ≤ n.firstLeaf.length → ∀ ht,
    (nodePopFront n).calls + 2 = 3 * n.visits 0 ht := by
  induction n using Node.induct with
  | hleaf es => intro _ _ ht; simp [nodePopFront, Node.visits]
  | hbranch cs s ih =>
    intro hs h2 ht
    obtain ⟨hne, rfl, hc⟩ := (sized_branch _ _).1 hs
    cases cs with
    | nil => exact absurd rfl hne
    | cons c cs =>
      simp only [firstLeaf_branch] at h2
      have h1 := ih c (by simp) (hc c (by simp)) h2 (ht - 1)
      have hl := firstLeaf_le_flat c
      rcases Node.popFront_spec c (hc c (by simp)) with ⟨_, c', x, e, hc', hf⟩ | ⟨h, _⟩
      · have h0 : c'.flat ≠ [] := by
          intro h; rw [hf, h] at hl; simp at hl; omega
        have h4 := afterPopFront_exact cs (some ((c :: cs).map flen)) hc' h0 x
        have hsc : Node.scanSizes ((c :: cs).map flen) 0 0 0 = some (0, 0) := by
          simp only [List.map_cons, Node.scanSizes]
          rw [if_pos (by simp only [flen]; omega)]
        simp only [nodePopFront, calls_call, calls_bind, nodePopFront_val, e, Node.visits, hsc, Node.visitsL]
        change _ = 3 * (c.visits 0 (ht - 1) + 1)
        omega
      · rw [h] at h2; simp at h2

theorem nodePopBackLast_append (pre : List (Node α)) (c : Node α) :
    nodePopBackLast (pre ++ [c]) = nodePopBack c := by
  induction pre with
  | nil => simp [nodePopBackLast]
  | cons p pre ih =>
    cases pre with
    | nil => simp [nodePopBackLast]
    | cons q pre => simpa [nodePopBackLast] using ih

theorem nodePopBack_exact (n : Node α) : n.Sized → 2 ≤ n.lastLeaf.length → ∀ ht,
    (nodePopBack n).calls + 2 = 3 * n.visits (n.flat.length - 1) ht := by
  induction n using Node.induct with
  | hleaf es => intro _ _ ht; simp [nodePopBack, Node.visits]
  | hbranch cs s ih =>
    intro hs h2 ht
    obtain ⟨hne, rfl, hc⟩ := (sized_branch _ _).1 hs
    obtain ⟨pre, c, rfl⟩ := exists_eq_append_singleton hne
    simp only [lastLeaf_branch, lastLeafL_append] at h2
    have hcs := hc c (by simp)
    have h1 := ih c (by simp) hcs h2 (ht - 1)
    have hl := lastLeaf_le_flat c hcs
    rcases Node.popBack_spec c hcs with ⟨_, c', x, e, hc', hf⟩ | ⟨h, _⟩
    · have h0 : c'.flat ≠ [] := by
        intro h; rw [hf, h] at hl; simp at hl; omega
      have h4 := afterPopBack_exact (pre ++ [c]) (some ((pre ++ [c]).map flen)) hc' h0 x
      have hlen : (Node.branch (pre ++ [c]) (some ((pre ++ [c]).map flen))).flat.length
          = (pre.map flen).sum + c.flat.length := by
        rw [← calculateSize_eq hs]; simp [Node.calculateSize, flen]
      have hsc : Node.scanSizes ((pre ++ [c]).map flen) 0 0 ((pre.map flen).sum + c.flat.length - 1)
          = some (pre.length, c.flat.length - 1) := by
        rw [List.map_append, List.map_singleton, PV.scan_last _ _ _ _ _ (by omega) (by simp only [flen]; omega)]
        simp only [List.length_map, Option.some.injEq, Prod.mk.injEq]; omega
      rw [hlen]
      simp only [nodePopBack, calls_call, calls_bind, nodePopBackLast_append, nodePopBack_val, e, Node.visits, hsc,
        Node.visitsL_append]
      change _ = 3 * (c.visits (c.flat.length - 1) (ht - 1) + 1)
      omega
    · rw [h] at h2; simp at h2

theorem fromIter_tree (xs : List α) (h : 64 < xs.length) : (PV.fromIter xs).inner = .tree (Tree.fromElements xs) := by
  rw [PV.fromIter, if_neg (by simpa [ADAPTIVE_INLINE_SIZE] using h)]

/-- C102, `pop_front` exactly: when the first element is in the tree and the leaf it is in has another one, there are two calls
less than three for each node a lookup of the first element reads. -/
theorem c102_pop_front_exact {v : PV α} (h : Reach v) {t : Tree α} (ht : v.inner = .tree t) (hl : 0 < v.len)
    (hh : t.head = []) (hs : 0 < t.treeSize) (h2 : 2 ≤ t.root.firstLeaf.length) :
    (popFront v).calls + 2 = 3 * v.visits 0 := by
  have hx := h.lax
  obtain ⟨inner, len, g⟩ := v
  simp only at ht hl; subst ht
  have hr := nodePopFront_exact t.root (lax_tree hx) h2 t.height
  have hle : 0 < t.len := by simp only [Tree.treeSize] at hs; omega
  rcases Node.popFront_spec t.root (lax_tree hx) with ⟨_, c', x, e, _, _⟩ | ⟨h, _⟩
  · simp only [popFront, PV.isEmpty, PV.visits, hh, List.length_nil, Nat.sub_zero, Nat.le_refl, true_and, hle, hs, if_true,
      show ¬ (len = 0) by omega, treePopFront, show ¬ t.len = 0 by omega, if_false, calls_bind, calls_pure,
      popFrontFromTree, nodePopFront_val, e, beq_iff_eq]
    omega
  · rw [h] at h2; simp at h2

/-- Meets the hypotheses: 200 elements, two nodes for the first one, four calls. -/
example : (popFront (PV.fromIter (List.range 200))).calls + 2 = 3 * 2 :=
  (c102_pop_front_exact (.fromIter _) (t := Tree.fromElements (List.range 200)) (fromIter_tree _ (by simp)) (by decide +kernel) (by decide +kernel)
    (by decide +kernel) (by decide +kernel)).trans (by decide +kernel)

/-- C102, `pop_back` exactly: when the last element is in the tree and the leaf it is in has another one, there are two calls
less than four for each node a lookup of the last element reads. -/
theorem c102_pop_back_exact {v : PV α} (h : Reach v) {t : Tree α} (ht : v.inner = .tree t) (hl : v.len = t.len)
    (hh : t.head = []) (htl : t.tail = []) (hs : t.len = t.root.flat.length) (h2 : 2 ≤ t.root.lastLeaf.length) :
    (popBack v).calls + 2 = 4 * v.visits (v.len - 1) := by
  have hx := h.lax
  obtain ⟨inner, len, g⟩ := v
  simp only at ht hl; subst ht; subst hl
  have hr := nodePopBack_exact t.root (lax_tree hx) h2 t.height
  have hg := get_visits t.root (lax_tree hx) (t.len - 1) t.height
  have hlf := lastLeaf_le_flat t.root (lax_tree hx)
  have hsz : t.treeSize = t.len := by simp [Tree.treeSize, hh, htl]
  have hge : ∃ y, t.root.get (t.len - 1) = some y := by
    rw [Node.get_eq _ (lax_tree hx), List.getElem?_eq_getElem (by omega)]; exact ⟨_, rfl⟩
  obtain ⟨y, hy⟩ := hge
  rw [← hs] at hr
  have hvis : (⟨.tree t, t.len, g⟩ : PV α).visits (t.len - 1) = t.root.visits (t.len - 1) t.height := by
    simp only [PV.visits, hh, List.length_nil, Nat.sub_zero, hsz]
    rw [if_pos (by omega)]
  rw [hvis]
  simp only [popBack, PV.isEmpty, show ¬ (t.len = 0) by omega, treePopBack, htl, List.getLast?_nil, popFromTree,
    List.length_nil, Nat.sub_zero, calls_bind, calls_pure, get_val, hy, popRoot, show ¬ t.len = 1 by omega, if_false,
    nodePopBack_val, beq_iff_eq]
  rcases Node.popBack_spec t.root (lax_tree hx) with ⟨_, c', x, e, _, _⟩ | ⟨h, _⟩
  · simp only [e, calls_pure]; omega
  · rw [h] at h2; simp at h2

/-- Meets the hypotheses: 192 elements, two nodes for the last one, six calls. -/
example : (popBack (PV.fromIter (List.range 192))).calls + 2 = 4 * 2 :=
  (c102_pop_back_exact (.fromIter _) (t := Tree.fromElements (List.range 192)) (fromIter_tree _ (by simp)) (by decide +kernel) (by decide +kernel)
    (by decide +kernel) (by decide +kernel) (by decide +kernel)).trans (by decide +kernel)

theorem splitChild_append (pre : List (Node α)) (c : Node α) (p : List Nat) (j h : Nat) :
    splitChild (pre ++ [c]) pre.length p j h = (do return some (← splitAlongPath c p j h)) := by
  induction pre with
  | nil => simp [splitChild]
  | cons q pre ih => simpa [splitChild] using ih

theorem createLeftBranch_exact {cs : List (Node α)} (hc : ∀ c ∈ cs, c.Sized) (i : Nat) {c : Node α} (h : c.Sized)
    (h0 : 0 < c.calculateSize) : (createLeftBranch cs i c).calls = 2 + (cs.take i).length := by
  have h1 := size_calls h
  simp only [createLeftBranch, calls_bind, size_val, gt_iff_lt, h0, if_true]
  rw [if_neg (by simp), makeRelaxed_calls _ (by
    intro d hd
    rcases List.mem_append.1 hd with hd | hd
    · exact hc d (List.mem_of_mem_take hd)
    · rw [List.mem_singleton.1 hd]; exact h)]
  simp only [List.length_append, List.length_singleton]; omega

theorem createRightBranch_exact {cs : List (Node α)} (hc : ∀ c ∈ cs, c.Sized) (i : Nat) {c : Node α} (h : c.Sized)
    (h0 : 0 < c.calculateSize) : (createRightBranch cs i c).calls = 2 + (cs.drop (i + 1)).length := by
  have h1 := size_calls h
  simp only [createRightBranch, calls_bind, size_val, gt_iff_lt, h0, if_true]
  rw [if_neg (by simp), makeRelaxed_calls _ (by
    intro d hd
    rcases List.mem_append.1 hd with hd | hd
    · rw [List.mem_singleton.1 hd]; exact h
    · exact hc d (List.mem_of_mem_drop hd))]
  simp only [List.length_append, List.length_singleton]; omega

/-- Splitting a tree of two levels inside its last leaf: the sizes of all children before it are asked for. -/
theorem split_last_calls (l : List α) (r : List (Node α)) (es : List α) (i : Nat)
    (hc : ∀ c ∈ r, c.Sized) (h0 : 0 < i) (hi : i < es.length) :
    (treeSplitAt ⟨.branch ((Node.leaf l :: r) ++ [.leaf es]) (some ((Node.leaf l :: r).map flen ++ [es.length])), [], [], 1,
      ((Node.leaf l :: r).map flen).sum + es.length⟩ (((Node.leaf l :: r).map flen).sum + i)).calls = r.length + 13 := by
  obtain ⟨cs, hcs⟩ : ∃ cs, cs = Node.leaf l :: r := ⟨_, rfl⟩
  rw [← hcs]
  have hs : ∀ c ∈ cs ++ [Node.leaf es], c.Sized := by
    intro c hm
    rw [hcs] at hm
    simp only [List.mem_append, List.mem_cons] at hm
    rcases hm with (rfl | hm) | rfl | hm
    · simp
    · exact hc c hm
    · simp
    · simp at hm
  have hsc := PV.scan_last (cs.map flen) es.length 0 0 ((cs.map flen).sum + i) (by omega) (by omega)
  have hp : Tree.findPath (.branch (cs ++ [.leaf es]) (some (cs.map flen ++ [es.length]))) 1 ((cs.map flen).sum + i)
      = [cs.length] := by
    simp only [Tree.findPath, Nat.one_ne_zero, if_false, hsc, Option.getD_some, Nat.zero_add, List.length_map,
      Tree.findPathL_append]
  have ht : ((cs.map flen ++ [es.length]).take cs.length) = cs.map flen := by
    rw [List.take_append_of_le_length (by simp), List.take_of_length_le (by simp)]
  have htc : (cs ++ [Node.leaf es]).take cs.length = cs := by
    rw [List.take_append_of_le_length (by simp), List.take_of_length_le (by simp)]
  have hdc : (cs ++ [Node.leaf es]).drop (cs.length + 1) = [] := by simp
  have hl0 : 0 < (Node.leaf (es.take i)).calculateSize := by simp [Node.calculateSize]; omega
  have hr0 : 0 < (Node.leaf (es.drop i)).calculateSize := by simp [Node.calculateSize]; omega
  have h1 := createLeftBranch_exact hs cs.length (sized_leaf (es.take i)) hl0
  have h2 := createRightBranch_exact hs cs.length (sized_leaf (es.drop i)) hr0
  rw [htc] at h1
  rw [hdc] at h2
  have v1 : Tree.createLeftBranch (cs ++ [.leaf es]) cs.length (.leaf (es.take i)) =
      Node.makeRelaxed (cs ++ [.leaf (es.take i)]) := by
    simp only [Tree.createLeftBranch, htc, gt_iff_lt, hl0, if_true]
    rw [if_neg (by simp)]
  have v2 : Tree.createRightBranch (cs ++ [.leaf es]) cs.length (.leaf (es.drop i)) =
      Node.makeRelaxed [.leaf (es.drop i)] := by
    simp only [Tree.createRightBranch, hdc, gt_iff_lt, hr0, if_true]
    rw [if_neg (by simp)]; rfl
  have hsum : (cs.map flen).sum + i < (cs.map flen).sum + es.length := by omega
  simp only [treeSplitAt, List.length_nil, Tree.treeSize, Nat.sub_zero, Nat.zero_add]
  rw [if_neg (by omega), if_neg (by omega), if_neg (by omega), if_neg (by omega), hp]
  simp only [splitAlongPath, calls_call, calls_bind, splitChild_append, Tree.calculateAdjustedIndex, ht,
    Nat.add_sub_cancel_left, val_bind, val_call, val_pure, calls_pure, fromHeadAndRoot, fromRootAndTail,
    createLeftBranch_val, createRightBranch_val, v1, v2, h1, h2, calculateHeight_calls]
  have z1 : (size (Node.makeRelaxed (cs ++ [.leaf (es.take i)]))).calls = 1 := by simp [Node.makeRelaxed, size]
  have z2 : (size (Node.makeRelaxed [.leaf (es.drop i)])).calls = 1 := by simp [Node.makeRelaxed, size]
  have z3 : Tree.calculateHeight (Node.makeRelaxed (cs ++ [.leaf (es.take i)])) = 1 := by
    rw [hcs]; simp [Node.makeRelaxed, Tree.calculateHeight]
  have z4 : Tree.calculateHeight (Node.makeRelaxed [.leaf (es.drop i)]) = 1 := by
    simp [Node.makeRelaxed, Tree.calculateHeight]
  have z5 : cs.length = r.length + 1 := by rw [hcs]; simp
  rw [z1, z2, z3, z4, z5]
  simp only [List.length_nil]
  omega

/-- Meets the hypotheses: three leaves of 64 elements. -/
example (es : List Nat) (h : es.length = 64) : (∀ c ∈ [Node.leaf es], c.Sized) ∧ 0 < 32 ∧ 32 < es.length := by
  simp [h]

/-- C102, what `split_at` costs: cutting 32 elements off `k + 1` vectors of 128 elements joined before makes `k + 13` calls,
as the sizes of all children of the root are asked for again, although no lookup reads more than three nodes. -/
theorem c102_split_exact (k : Nat) : (splitAt (PV.joined k) (128 * (k + 1) - 32)).calls = k + 13 := by
  obtain ⟨cs, sizes, g, h, hc, hsz, hsum, _, r, hr⟩ := PV.joined_last k
  have hlax := (PV.reach_joined k).lax
  rw [h] at hlax
  have hs := ((sized_branch _ _).1 (lax_tree hlax)).2.2
  have hfl : sizes = cs.map flen := by
    rw [hsz]
    exact List.map_congr_left fun c hm => calculateSize_eq (hs c (by simp [hm]))
  subst hfl
  have hm := split_last_calls (List.replicate 64 ()) r (List.replicate 64 ()) 32
    (fun c hm => hs c (by simp [hr, hm])) (by omega) (by simp)
  rw [← hr, hsum, List.length_replicate] at hm
  rw [h]
  simp only [splitAt]
  rw [if_neg (by omega), if_neg (by omega)]
  simp only [calls_bind, calls_pure]
  rw [show 128 * (k + 1) - 32 = 128 * k + 64 + 32 by omega, show 128 * (k + 1) = 128 * k + 64 + 64 by omega, hm]
  rw [hr] at hc
  simp only [List.length_cons] at hc
  omega

/-- C102 is false of the code also where the tree is flat: no bound `a * log2(len) + b` holds for the number of calls made by
`split_at` of vectors of which no lookup reads more than three nodes. -/
theorem c102_split_false : ¬ ∃ a b : Nat, ∀ (v : PV Unit) (i : Nat), Reach v → (∀ i, v.visits i ≤ 3) →
    (splitAt v i).calls ≤ a * Nat.log2 v.len + b := by
  rintro ⟨a, b, h⟩
  obtain ⟨m, hm⟩ := PV.exp_beats a (b + 2)
  have hb : 1 ≤ 2 ^ m := Nat.one_le_two_pow
  obtain ⟨h1, _, h3⟩ := PV.c99_concat_exact (2 ^ m - 1)
  have h4 := h (PV.joined (2 ^ m - 1)) (128 * (2 ^ m - 1 + 1) - 32) (PV.reach_joined _) h3
  rw [c102_split_exact, h1] at h4
  have h6 : Nat.log2 (128 * (2 ^ m - 1 + 1)) = m + 7 := by
    rw [show 128 * (2 ^ m - 1 + 1) = 2 ^ (m + 7) by rw [Nat.sub_add_cancel hb, pow_add]; ring]
    exact Nat.log2_two_pow
  rw [h6] at h4
  have h8 : a * (m + 7) ≤ a * (m + 11) := Nat.mul_le_mul_left _ (by omega)
  omega

/-- Sizes asked for when a leaf is pushed: one where the root has room for one more child, two where a new root is made. -/
def asked : Node α → Nat
  | .branch cs _ => if cs.length < 32 then 1 else 2
  | .leaf _ => 2

theorem pushLeaf_exact {n l : Node α} (hn : n.Sized) (hl : l.Sized) : (pushLeaf n l).calls = asked n := by
  have h1 := size_calls hn
  have h2 := size_calls hl
  cases n with
  | leaf es => simp only [pushLeaf, calls_bind, calls_pure, asked]; omega
  | branch cs s =>
    obtain ⟨_, rfl, _⟩ := (sized_branch _ _).1 hn
    simp only [pushLeaf, asked, BRANCHING_FACTOR]
    split <;> (simp only [calls_bind, calls_pure]; omega)

theorem pushFrontLeaf_exact {n l : Node α} (hn : n.Sized) (hl : l.Sized) : (pushFrontLeaf n l).calls = asked n := by
  have h1 := size_calls hn
  have h2 := size_calls hl
  cases n with
  | leaf es => simp only [pushFrontLeaf, calls_bind, calls_pure, asked]; omega
  | branch cs s =>
    obtain ⟨_, rfl, _⟩ := (sized_branch _ _).1 hn
    simp only [pushFrontLeaf, asked, BRANCHING_FACTOR]
    split <;> (simp only [calls_bind, calls_pure]; omega)

/-- C102, the pushes exactly, whatever made the vector: no call while the tail or the head has room; else one or two sizes are
asked for and the height of the new root is found by walking down to its first leaf. -/
theorem c102_push_exact {v : PV α} (h : Reach v) {t : Tree α} (ht : v.inner = .tree t) (x : α) :
    (pushBack v x).calls = (if t.tail.length < 64 then 0
      else asked t.root + 1 + Tree.calculateHeight (t.root.pushLeaf (.leaf t.tail))) ∧
    (pushFront v x).calls = (if t.head.length < 64 then 0
      else asked t.root + 1 + Tree.calculateHeight (t.root.pushFrontLeaf (.leaf t.head))) := by
  have hx := h.lax
  obtain ⟨inner, len, g⟩ := v
  simp only at ht; subst ht
  have h1 := pushLeaf_exact (lax_tree hx) (sized_leaf t.tail)
  have h2 := pushFrontLeaf_exact (lax_tree hx) (sized_leaf t.head)
  constructor
  · simp only [pushBack, vecTreePushBack, calls_bind, calls_pure, treePushBack, LEAF_CAPACITY]
    split
    · rfl
    · rename_i hl
      have : t.tail.isEmpty = false := by cases e : t.tail <;> simp_all
      simp only [pushTailToTree, this, Bool.false_eq_true, if_false, calls_bind, calls_pure, pushLeaf_val,
        calculateHeight_calls, h1]
      omega
  · simp only [pushFront, vecTreePushFront, calls_bind, calls_pure, treePushFront, LEAF_CAPACITY]
    split
    · rfl
    · rename_i hl
      have : t.head.isEmpty = false := by cases e : t.head <;> simp_all
      simp only [pushHeadToTree, this, Bool.false_eq_true, if_false, calls_bind, calls_pure, pushFrontLeaf_val,
        calculateHeight_calls, h2]
      omega

/-- Meets the hypotheses: 192 elements in 2 leaves and a full tail; one size and two steps to the first leaf. -/
example : (pushBack ((PV.fromIter (List.range 128)).extend (List.range 64)) 0).calls = 3 ∧
    (pushFront ((PV.fromIter (List.range 128)).extend (List.range 64)) 0).calls = 0 := by
  constructor <;> decide +kernel

/-- C102, the operations put together from others make the calls of these, one after the other. -/
theorem c102_composed_exact (v : PV α) (i : Nat) (x : α) (h0 : 0 < i) (hi : i < v.len) :
    (take v i).calls = (splitAt v i).calls ∧ (skip v i).calls = (splitAt v i).calls ∧
    (insert v i x).calls = (splitAt v i).calls + (pushBack (v.splitAt i).1 x).calls +
      (concat ((v.splitAt i).1.pushBack x) (v.splitAt i).2).calls ∧
    (remove v i).calls = (splitAt v i).calls + (skip (v.splitAt i).2 1).calls +
      (concat (v.splitAt i).1 ((v.splitAt i).2.skip 1)).calls := by
  refine ⟨?_, ?_, ?_, ?_⟩
  · simp only [take, show ¬ i ≥ v.len by omega, if_false, calls_bind, calls_pure]; omega
  · simp only [skip, show ¬ i ≥ v.len by omega, if_false, calls_bind, calls_pure]; omega
  · simp only [insert, show ¬ i ≥ v.len by omega, show ¬ i = 0 by omega, if_false, calls_bind, splitAt_val, pushBack_val]
    omega
  · simp only [remove, show ¬ i ≥ v.len by omega, show ¬ v.len = 1 by omega, if_false, calls_bind, calls_pure, splitAt_val,
      skip_val]
    omega

/-- Meets the hypotheses: the middle of 200 elements. -/
example : 0 < 100 ∧ 100 < (PV.fromIter (List.range 200)).len := by decide +kernel

/-- How many elements wait in the tail of a vector. -/
def waiting (v : PV α) : Nat :=
  match v.inner with
  | .inline _ => 0
  | .tree t => t.tail.length

/-- One push either makes the tail one longer and makes no call, or finds 64 elements in it, or leaves inline storage. -/
theorem pushBack_waiting {p : Nat} {v : PV α} (hv : PV.Costs p v) (x : α) :
    ((pushBack v x).calls = 0 ∧ waiting (v.pushBack x) ≤ waiting v + 1) ∨
    ((pushBack v x).calls ≤ 3 + p / 1984 ∧ waiting v = 64 ∧ waiting (v.pushBack x) = 1) := by
  have hb := (c102_ends_partial hv 0 x).2.1
  have hw := PV.c60_leaves (Costs.reach hv)
  obtain ⟨inner, len, g⟩ := v
  cases inner with
  | inline es =>
    left
    have h1 := hv.paid.inline rfl
    simp only [pushBack, PV.pushBack]
    split
    · simp [waiting]
    · simp only [transitionToTree, vecTreePushBack, calls_bind, calls_pure, val_bind, val_pure, fromElements_val,
        fromElements_small_calls h1.1, treePushBack, PV.transitionToTree, PV.treePushBack, waiting, Tree.pushBack,
        Tree.fromElements, LEAF_CAPACITY, if_pos h1.1, List.length_nil]
      rw [if_pos (by omega), if_pos (by omega)]; simp
  | tree t =>
    simp only [PV.Within] at hw
    by_cases h : t.tail.length < 64
    · left; simp [pushBack, PV.pushBack, vecTreePushBack, PV.treePushBack, treePushBack, Tree.pushBack, LEAF_CAPACITY, h, waiting]
    · right
      refine ⟨hb, by simp [waiting]; omega, ?_⟩
      have : t.tail ≠ [] := by intro e; simp [e] at h
      simp [PV.pushBack, PV.treePushBack, Tree.pushBack, LEAF_CAPACITY, h, waiting, Tree.pushTailToTree, this]

/-- C102: whatever calls made a vector, `extend` goes down its tree at most once for every 64 elements,
and each time through the levels that were paid for (`Costs`) until then.  Missing from C102: the number of levels is not
logarithmic (`c102_log_false`). -/
theorem c102_extend_partial (xs : List α) : ∀ {p : Nat} {v : PV α}, PV.Costs p v →
    (extend v xs).calls ≤ (waiting v + xs.length) / 64 * (3 + (p + xs.length) / 1984) := by
  induction xs with
  | nil => intro p v _; simp [extend]
  | cons x xs ih =>
    intro p v hv
    have h1 := ih (hv.pushBack x)
    have e : (extend v (x :: xs)).calls = (pushBack v x).calls + (extend (v.pushBack x) xs).calls := by
      simp [extend]
    have ep : p + 1 + xs.length = p + (x :: xs).length := by simp; omega
    rw [ep] at h1
    generalize hD : 3 + (p + (x :: xs).length) / 1984 = D at *
    have hD' : 3 + p / 1984 ≤ D := by
      rw [← hD]; have := Nat.div_le_div_right (c := 1984) (Nat.le_add_right p (x :: xs).length); omega
    simp only [List.length_cons] at *
    rcases pushBack_waiting hv x with ⟨h2, h3⟩ | ⟨h2, h3, h4⟩
    · have : (waiting (v.pushBack x) + xs.length) / 64 ≤ (waiting v + (xs.length + 1)) / 64 := Nat.div_le_div_right (by omega)
      have := Nat.mul_le_mul_right D this
      omega
    · rw [h4] at h1
      have : (waiting v + (xs.length + 1)) / 64 = (1 + xs.length) / 64 + 1 := by omega
      rw [this, Nat.add_mul]; omega
/-- Meets the hypothesis: 192 elements with a full tail; 130 more make 9 calls of at most 15. -/
example : (extend ((PV.fromIter (List.range 128)).extend (List.range 64)) (List.range 130)).calls = 9 ∧
    PV.Costs (1984 * 2 + 64 + (List.range 64).length) ((PV.fromIter (List.range 128)).extend (List.range 64)) ∧
    waiting ((PV.fromIter (List.range 128)).extend (List.range 64)) = 64 :=
  ⟨by decide +kernel, .extend _ (.fromIter _ 1 (by simp)), by decide +kernel⟩

end Rustica.PVec.Frames
