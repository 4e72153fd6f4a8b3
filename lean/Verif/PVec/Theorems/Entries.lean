import Verif.PVec.Theorems.ReadAll
import Verif.PVec.Theorems.Growth

/-!
# How many size-table entries a lookup looks at (C99)

Inside a branch the child is found by going through the size table from the front (`find_child_relaxed`).  The entries
looked at are counted here by an instrumented copy of the lookup.
-/

namespace Rustica.PVec

variable {α : Type}

namespace Node

/-- Number of iterations of the loop of `find_child_relaxed` (node.rs:57-63), i.e. of entries looked at. -/
def scanCount : List Nat → (cumulative index : Nat) → Nat
  | [], _, _ => 0
  | size :: rest, cumulative, index =>
    if index < cumulative + size then 1 else scanCount rest (cumulative + size) index + 1

mutual
/-- Number of entries looked at by `get_from_tree` (tree.rs:134-158); a branch without a table is searched by a division
(node.rs:70-90). -/
def entries : Node α → (index height : Nat) → Nat
  | .leaf _, _, _ => 0
  | .branch children sizes, index, height =>
    let here := match sizes with
      | some s => scanCount s 0 index
      | none => 0
    match (match sizes with
      | some s => Node.scanSizes s 0 0 index
      | none => Node.findChildRegular children index (height - 1)) with
    | some (childIdx, subIndex) => entriesL children childIdx subIndex (height - 1) + here
    | none => here
/-- The loop continues in child `childIdx`. -/
def entriesL : List (Node α) → (childIdx index height : Nat) → Nat
  | [], _, _, _ => 0
  | c :: _, 0, j, h => entries c j h
  | _ :: cs, i + 1, j, h => entriesL cs i j h
end

theorem scanCount_eq (s : List Nat) : ∀ i cum idx,
    scanCount s cum idx = match scanSizes s i cum idx with
      | some (k, _) => k + 1 - i
      | none => s.length := by
  induction s with
  | nil => intro i cum idx; simp [scanCount, scanSizes]
  | cons a s ih =>
    intro i cum idx
    simp only [scanCount, scanSizes]
    by_cases h : idx < cum + a
    · simp [h]
    · simp only [h, if_false]
      have hle : ∀ k r, scanSizes s (i + 1) (cum + a) idx = some (k, r) → i + 1 ≤ k := by
        clear ih h
        generalize cum + a = c
        generalize i + 1 = j
        induction s generalizing j c with
        | nil => intro k r h; simp [scanSizes] at h
        | cons b s ih =>
          intro k r h
          simp only [scanSizes] at h
          split at h
          · simp only [Option.some.injEq, Prod.mk.injEq] at h; omega
          · have := ih _ _ _ _ h; omega
      rw [ih (i + 1)]
      cases e : scanSizes s (i + 1) (cum + a) idx with
      | none => simp
      | some q => obtain ⟨k, r⟩ := q; have := hle k r e; simp only; omega

theorem entriesL_append (pre : List (Node α)) (c : Node α) (post) (r h : Nat) :
    entriesL (pre ++ c :: post) pre.length r h = entries c r h := by
  induction pre with
  | nil => simp [entriesL]
  | cons p pre ih => simpa [entriesL] using ih

theorem visitsL_append (pre : List (Node α)) (c : Node α) (post) (r h : Nat) :
    visitsL (pre ++ c :: post) pre.length r h = visits c r h := by
  induction pre with
  | nil => simp [visitsL]
  | cons p pre ih => simpa [visitsL] using ih

/-- A lookup that succeeds looks at no more entries than the widest branch has, in each branch it passes. -/
theorem entries_le {w : Nat} (n : Node α) : n.Sized → n.Within (· ≤ w) → ∀ i h, i < n.flat.length →
    1 ≤ visits n i h ∧ entries n i h + w ≤ w * visits n i h := by
  induction n using Node.induct with
  | hleaf es => intro _ _ i h _; simp [visits, entries]
  | hbranch cs s ih =>
    intro hs hw i h hi
    obtain ⟨_, rfl, hs'⟩ := (sized_branch _ _).1 hs
    obtain ⟨hw1, hw2⟩ := (within_branch _ _ _).1 hw
    rcases scan_spec0 cs i with ⟨pre, c, post, r, rfl, e, hidx, hr⟩ | ⟨e, hle⟩
    · have hc := ih c (by simp) (hs' c (by simp)) (hw2 c (by simp)) r (h - 1) hr
      have hsc : scanCount ((pre ++ c :: post).map flen) 0 i = pre.length + 1 := by
        rw [scanCount_eq _ 0, e]; simp
      simp only [entries, visits, e, hsc, entriesL_append, visitsL_append]
      simp only [List.length_append, List.length_cons] at hw1
      refine ⟨Nat.succ_pos _, ?_⟩
      change c.entries r (h - 1) + (pre.length + 1) + w ≤ w * (c.visits r (h - 1) + 1)
      rw [Nat.mul_succ]
      omega
    · simp only [flat] at hi; omega

theorem entriesL_full {ls : List (Node α)} (h : Full ls) : ∀ k i ht, entriesL ls k i ht = 0 := by
  induction ls with
  | nil => intro k i ht; simp [entriesL]
  | cons l ls ih =>
    intro k i ht
    cases k with
    | zero =>
      obtain ⟨es, he, _⟩ := h l (by simp)
      rw [entriesL, he, entries]
    | succ k =>
      rw [entriesL]
      exact ih (fun l hl => h l (by simp [hl])) k i ht

theorem Spine.entries {d k : Nat} {n : Node α} (h : Spine d k n) : ∀ (i ht : Nat), i < 64 * (31 * (d - 1) + k) →
    entries n i ht = d - 1 - (i / 64 - 1) / 31 + if i / 64 = 0 then 1 else (i / 64 - 1) % 31 + 2 := by
  induction h with
  | base ls h1 h2 h3 =>
    intro i ht hi
    have hs := scan_replicate ls.length 0 0 i (by omega) (by omega)
    have hn := scanCount_eq (List.replicate ls.length 64) 0 0 i
    rw [hs] at hn
    replace hn : scanCount (List.replicate ls.length 64) 0 i = i / 64 + 1 := by rw [hn]; simp
    simp only [Node.entries, hs, hn, entriesL_full h1, Nat.zero_add]
    change i / 64 + 1 = _
    split <;> omega
  | step d c ls h1 h2 h3 h4 h5 ih =>
    intro i ht hi
    simp only [Node.entries, scanSizes, scanCount]
    by_cases hc : i < 0 + 64 * (31 * (d - 1) + 32)
    · rw [if_pos hc, if_pos hc]
      simp only [entriesL, Nat.sub_zero]
      rw [Nat.zero_add] at hc
      rw [ih i (ht - 1) hc]
      split <;> omega
    · have hs := scan_replicate ls.length (0 + 1) (0 + 64 * (31 * (d - 1) + 32)) i (by omega) (by omega)
      have hn := scanCount_eq (List.replicate ls.length 64) (0 + 1) (0 + 64 * (31 * (d - 1) + 32)) i
      rw [hs] at hn
      simp only at hn
      rw [if_neg hc, if_neg hc, hs, hn]
      simp only [Nat.zero_add, Nat.add_comm 1 _, entriesL]
      rw [entriesL_full h3]
      rw [if_neg (by omega)]
      omega

end Node

namespace PV

/-- Number of size-table entries looked at by `get(i)` (core.rs:204-213, tree.rs:114-158). -/
def entries (v : PV α) (i : Nat) : Nat :=
  match v.inner with
  | .inline _ => 0
  | .tree t =>
    if i < t.len ∧ t.head.length ≤ i ∧ i - t.head.length < t.treeSize then
      t.root.entries (i - t.head.length) t.height
    else 0

/-- C99, from the shape: in an intact vector whose branches have at most `w` children, a lookup looks at no more than
`w` entries in each node above the leaf. -/
theorem c99_width {w : Nat} {v : PV α} (h : Intact v) (hw : v.Within (· ≤ w)) (i : Nat) :
    v.entries i ≤ w * (v.visits i - 1) := by
  have h1 := h.wf
  unfold entries visits
  unfold PV.WF at h1
  unfold Within at hw
  cases e : v.inner with
  | inline es => simp
  | tree t =>
    rw [e] at h1 hw
    simp only at h1 hw ⊢
    split
    · rename_i hc
      have hl : i - t.head.length < t.root.flat.length := by
        have h2 := hc.2.2
        simp only [Tree.treeSize] at h2
        have := h1.1.len
        omega
      obtain ⟨h3, h4⟩ := Node.entries_le t.root h1.1.sized hw.1 _ t.height hl
      rw [Nat.mul_sub, Nat.mul_one]
      omega
    · simp

theorem intact_fromIter (xs : List α) : Intact (fromIter xs) := ⟨(fromIter_spec xs).1⟩

/-- The hypotheses are met by a collected vector with one element pushed at the front. -/
example : ∃ v : PV Nat, v.len = 201 ∧ Intact v ∧ v.Within (· ≤ 32) := by
  have h : ∀ v : PV Nat, Intact v → Intact (v.pushFront 7) := fun _ h => h.pushFront 7
  have h' : ∀ v : PV Nat, NoConcat v → NoConcat (v.pushFront 7) := fun _ h => h.pushFront 7
  generalize e : (fromIter (List.range 200)).pushFront 7 = v
  have h1 := h _ (intact_fromIter (List.range 200))
  have h2 := h' _ (.fromIter (List.range 200))
  rw [e] at h1 h2
  exact ⟨v, by rw [← e]; decide +kernel, h1, c60_children_partial h2⟩

/-- C99 with every call: 32 entries for each vector joined in, times the levels its calls have paid for (`Joins`,
`Costs`).  Missing from C99: both numbers grow linearly in the number of calls (`c99_log_false`). -/
theorem c99_calls_partial {k p : Nat} {v : PV α} (h : Intact v) (hk : Joins k v) (hp : Costs p v) (i : Nat) :
    v.entries i ≤ 32 * k * (p / 1984) := by
  refine (c99_width h (c60_children_joins_partial hk) i).trans (Nat.mul_le_mul_left _ ?_)
  have := c59_calls_partial hp i
  omega

/-- The hypotheses are met by two collected vectors joined. -/
example : ∃ v : PV Nat, v.len = 500 ∧ Intact v ∧ Joins 2 v ∧ Costs (4032 + 4032 + 3 * 1984) v := by
  have h1 : Costs 4032 (fromIter (List.range 200)) := .fromIter _ 1 (by simp)
  have h2 : Costs 4032 (fromIter (List.range 300)) := .fromIter _ 1 (by simp)
  exact ⟨(fromIter (List.range 200)).concat (fromIter (List.range 300)), by decide +kernel,
    (intact_fromIter _).concat (intact_fromIter _), .concat (.fromIter _) (.fromIter _), .concat h1 h2⟩

/-- C99 for vectors made in one go: at most `32 * k` entries in a vector of at most `64 * 32^k` elements.  Missing from
C99: pushes and `concat` afterwards. -/
theorem c99_from_iter_partial (xs : List α) (k : Nat) (h : xs.length ≤ 64 * 32 ^ k) (i : Nat) :
    (fromIter xs).entries i ≤ 32 * k := by
  refine (c99_width ⟨(fromIter_spec xs).1⟩ (c60_children_partial (.fromIter xs)) i).trans (Nat.mul_le_mul_left _ ?_)
  by_contra hc
  have := c59_from_iter_partial xs i k (by omega)
  omega

/-- The hypothesis is met with `k = 1` by 2000 elements. -/
example : (List.range 2000).length ≤ 64 * 32 ^ 1 := by simp

set_option maxRecDepth 20000 in
theorem concat64 : Tree.concatNodes (.leaf (List.replicate 64 ())) (.leaf (List.replicate 64 ())) =
    Node.branch [.leaf (List.replicate 64 ()), .leaf (List.replicate 64 ())] (some [64, 64]) := by
  rfl

/-- The shape of a vector joined from `k + 1` parts of 128 elements: its last leaf is behind `k + 1` other children. -/
theorem joined_last (k : Nat) : ∃ cs sizes g, joined k =
    ⟨.tree ⟨.branch (cs ++ [.leaf (List.replicate 64 ())]) (some (sizes ++ [64])), [], [], 1, 128 * (k + 1)⟩,
      128 * (k + 1), g⟩ ∧ cs.length = k + 1 ∧ sizes = cs.map Node.calculateSize ∧ sizes.sum = 128 * k + 64 ∧
      (∀ c ∈ cs, c.depth ≤ 1) ∧ ∃ r, cs = .leaf (List.replicate 64 ()) :: r := by
  induction k with
  | zero =>
    exact ⟨[.leaf (List.replicate 64 ())], [64], 0, fromIter128, rfl, by simp [Node.calculateSize], by simp,
      by simp [Node.depth], [], rfl⟩
  | succ k ih =>
    obtain ⟨cs, sizes, g, h, hc, hs, hf, hd, r, hr⟩ := ih
    have hl : (Node.leaf (List.replicate 64 ())).calculateSize = 64 := by rw [Node.calculateSize, List.length_replicate]
    have e2 : (Node.branch [.leaf (List.replicate 64 ()), .leaf (List.replicate 64 ())] (some [64, 64])).calculateSize =
        128 := by rw [Node.calculateSize]; rfl
    refine ⟨cs ++ [.branch [.leaf (List.replicate 64 ()), .leaf (List.replicate 64 ())] (some [64, 64])], sizes ++ [128],
      g + 1, ?_, by simp [hc], ?_, ?_, ?_, r ++ [_], by rw [hr]; rfl⟩
    · simp only [joined, h, fromIter128, PV.concat, Tree.concat]
      rw [if_neg (by omega), if_neg (by omega)]
      simp only [if_true, Tree.concatSameHeight, List.isEmpty_nil, Bool.not_true, Bool.false_eq_true, if_false]
      rw [Tree.concatNodes]
      simp only [Tree.concatLast_append, concat64, Option.toList_some, List.dropLast_concat, List.drop_succ_cons,
        List.drop_zero, Node.makeRelaxed, List.map_append, List.map_cons, List.map_nil, hl, e2, ← hs]
      rfl
    · rw [List.map_append, ← hs, List.map_singleton, e2]
    · rw [List.sum_append, hf, List.sum_singleton]; omega
    · intro c hc'
      rcases List.mem_append.1 hc' with hc' | hc'
      · exact hd c hc'
      · rw [List.mem_singleton.1 hc']; simp only [Node.depth, Node.depthL]; omega

theorem scan_last (sizes : List Nat) (b : Nat) : ∀ i cum idx, cum + sizes.sum ≤ idx → idx < cum + sizes.sum + b →
    Node.scanSizes (sizes ++ [b]) i cum idx = some (i + sizes.length, idx - cum - sizes.sum) := by
  induction sizes with
  | nil =>
    intro i cum idx h1 h2
    simp only [List.sum_nil] at h1 h2
    simp only [List.nil_append, Node.scanSizes, List.length_nil, List.sum_nil]
    rw [if_pos (by omega)]; simp
  | cons a s ih =>
    intro i cum idx h1 h2
    simp only [List.sum_cons] at h1 h2
    simp only [List.cons_append, Node.scanSizes]
    rw [if_neg (by omega), ih _ _ _ (by omega) (by omega)]
    simp only [List.length_cons, List.sum_cons, Option.some.injEq, Prod.mk.injEq]
    omega

theorem depthL_last (cs : List (Node α)) (es : List α) (h : ∀ c ∈ cs, c.depth ≤ 1) :
    Node.depthL (cs ++ [.leaf es]) ≤ 1 := by
  induction cs with
  | nil => simp [Node.depthL, Node.depth]
  | cons c cs ih =>
    rw [List.cons_append, Node.depthL]
    have h1 := h c (by simp)
    have h2 := ih fun c hc => h c (by simp [hc])
    omega

/-- C99, what `concat` builds: after joining `k + 1` vectors of 128 elements, finding the last element looks at `k + 2`
entries, one per 128 elements and one more, although no lookup reads more than three nodes. -/
theorem c99_concat_exact (k : Nat) : (joined k).len = 128 * (k + 1) ∧ (joined k).entries (128 * (k + 1) - 1) = k + 2 ∧
    ∀ i, (joined k).visits i ≤ 3 := by
  obtain ⟨cs, sizes, g, h, hc, hs, hf, hd, _⟩ := joined_last k
  have hsl : sizes.length = k + 1 := by rw [hs, List.length_map, hc]
  rw [h]
  refine ⟨rfl, ?_, fun i => ?_⟩
  · have hsc := scan_last sizes 64 0 0 (128 * (k + 1) - 1) (by omega) (by omega)
    have hn := Node.scanCount_eq (sizes ++ [64]) 0 0 (128 * (k + 1) - 1)
    replace hn : Node.scanCount (sizes ++ [64]) 0 (128 * (k + 1) - 1) = k + 2 := by rw [hn, hsc]; simp [hsl]
    simp only [entries, List.length_nil, Nat.sub_zero]
    rw [if_pos ⟨by omega, by omega, by simp [Tree.treeSize]⟩]
    simp only [Node.entries, hsc, hn]
    rw [Nat.zero_add, hsl, ← hc, Node.entriesL_append]
    simp only [Node.entries, Nat.zero_add]
  · simp only [visits]
    split
    · refine (Node.visits_le _ _ _).trans ?_
      have := depthL_last cs (List.replicate 64 ()) hd
      simp only [Node.depth]; omega
    · omega

/-- C99, what `push_back` builds, exactly: with `l = (n - 1) / 64 ≥ 2` leaves in the tree, an element of leaf `j` is
found by one entry in each branch above the one that holds the leaf, and there by one for the leaf and each child before
it. -/
theorem c99_push_back_exact (xs : List α) (h : 128 < xs.length) (i : Nat) :
    (new.extend xs : PV α).entries i =
      if i / 64 < (xs.length - 1) / 64 then
        ((xs.length - 1) / 64 + 29) / 31 - 1 - (i / 64 - 1) / 31 + (if i / 64 = 0 then 1 else (i / 64 - 1) % 31 + 2)
      else 0 := by
  obtain ⟨t, hv, hh, hl, hvl, hn, ht, hr⟩ := spined_new xs (by omega)
  have hts : t.treeSize = 64 * ((xs.length - 1) / 64) := by
    simp only [Tree.treeSize, hh, hl, ht, List.length_nil]; omega
  simp only [entries, hv, hh, List.length_nil, Nat.sub_zero, hl, hts]
  by_cases hi : i / 64 < (xs.length - 1) / 64
  · rw [if_pos ⟨by omega, by omega, by omega⟩, if_pos hi]
    rcases hr with ⟨h1, es, he, hes⟩ | ⟨d, k, hc, hL⟩
    · omega
    · have hp := hc.pos
      rw [hc.entries _ _ (by omega), hL]
      split <;> omega
  · rw [if_neg (by omega), if_neg hi]

/-- The hypothesis is met by 5000 elements. -/
example : 128 < (List.range 5000).length := by simp

/-- C99 is false of the code, also among vectors of which no lookup reads more than three nodes: no bound
`a * log2(len) + b` holds for the size-table entries looked at. -/
theorem c99_log_false : ¬ ∃ a b : Nat, ∀ v : PV Unit, Reach v → (∀ i, v.visits i ≤ 3) →
    ∀ i, v.entries i ≤ a * Nat.log2 v.len + b := by
  rintro ⟨a, b, h⟩
  obtain ⟨m, hm⟩ := exp_beats a b
  have hb : 1 ≤ 2 ^ m := Nat.one_le_two_pow
  obtain ⟨h1, h2, h3⟩ := c99_concat_exact (2 ^ m - 1)
  have h4 := h _ (reach_joined _) h3 (128 * (2 ^ m - 1 + 1) - 1)
  have h5 : Nat.log2 (128 * (2 ^ m - 1 + 1)) = m + 7 := by
    rw [Nat.sub_add_cancel hb, show 128 * 2 ^ m = 2 ^ (m + 7) by rw [pow_add]; ring]
    exact Nat.log2_two_pow
  rw [h2, h1, h5] at h4
  have h6 : a * (m + 7) ≤ a * (m + 11) := Nat.mul_le_mul_left _ (by omega)
  omega

end PV
end Rustica.PVec
