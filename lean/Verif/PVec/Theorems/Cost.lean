import Verif.PVec.Theorems.Reach
import Mathlib.Tactic.Ring
import Mathlib.Data.List.Induction

/-!
# How many nodes a lookup reads (C59)

The documentation promises logarithmic time.  The number of nodes that `get` reads is counted here by an
instrumented copy of the lookup loop.
-/

namespace Rustica.PVec

variable {α : Type}

namespace Node
mutual
/-- Number of iterations of the loop of `get_from_tree` (tree.rs:134-158), i.e. of nodes read. -/
def visits : Node α → (index height : Nat) → Nat
  | .leaf _, _, _ => 1
  | .branch children sizes, index, height =>
    match (match sizes with
      | some s => Node.scanSizes s 0 0 index
      | none => Node.findChildRegular children index (height - 1)) with
    | some (childIdx, subIndex) => visitsL children childIdx subIndex (height - 1) + 1
    | none => 1
/-- The loop continues in child `childIdx`. -/
def visitsL : List (Node α) → (childIdx index height : Nat) → Nat
  | [], _, _, _ => 0
  | c :: _, 0, j, h => visits c j h
  | _ :: cs, i + 1, j, h => visitsL cs i j h
end

theorem visitsL_le (cs : List (Node α)) (hc : ∀ c ∈ cs, ∀ i h, visits c i h ≤ 1 + depth c) :
    ∀ k i h, visitsL cs k i h ≤ 1 + depthL cs := by
  induction cs with
  | nil => intro k i h; simp [visitsL]
  | cons c cs ih =>
    intro k i h
    cases k with
    | zero => simp only [visitsL, depthL]; have := hc c (by simp) i h; omega
    | succ k =>
      simp only [visitsL, depthL]
      have := ih (fun c' h' => hc c' (by simp [h'])) k i h; omega

/-- A lookup reads at most one node per level. -/
theorem visits_le (n : Node α) : ∀ i h, visits n i h ≤ 1 + n.depth := by
  induction n using Node.induct with
  | hleaf es => intro i h; simp [visits]
  | hbranch cs s ih =>
    intro i h
    have := visitsL_le cs ih
    simp only [visits, depth]
    split
    · rename_i k j _
      have := this k j (h - 1)
      calc _ ≤ (1 + depthL cs) + 1 := Nat.succ_le_succ this
        _ = _ := by omega
    · omega

/-- A branch with `k` children whose first child is not empty and takes `d` reads. -/
def Comb (d k : Nat) : Node α → Prop
  | .branch (c :: ls) (some (sz :: _)) => 0 < sz ∧ (∀ h, visits c 0 h = d) ∧ ls.length + 1 = k
  | _ => False

theorem Comb.visits {d k : Nat} {n : Node α} (h : Comb d k n) (ht : Nat) : visits n 0 ht = d + 1 := by
  match n, h with
  | .branch (c :: ls) (some (sz :: szs)), ⟨h0, h1, _⟩ =>
    simp only [Node.visits, scanSizes, Nat.zero_add, h0, if_true, visitsL, Nat.sub_zero, h1]

theorem Comb.size {d k : Nat} {n : Node α} (h : Comb d k n) : 0 < n.calculateSize := by
  match n, h with
  | .branch (c :: ls) (some (sz :: szs)), ⟨h0, _, _⟩ =>
    simp only [calculateSize, List.sum_cons]; omega

theorem Comb.pushLeaf {d k : Nat} {n : Node α} (h : Comb d k n) (l : Node α) :
    (k < 32 → Comb d (k + 1) (n.pushLeaf l)) ∧ (¬ k < 32 → Comb (d + 1) 2 (n.pushLeaf l)) := by
  have hv := h.visits
  have hs := h.size
  match n, h with
  | .branch (c :: ls) (some (sz :: szs)), ⟨h0, h1, h2⟩ =>
    constructor
    · intro hk
      simp only [Node.pushLeaf, BRANCHING_FACTOR, List.length_cons]
      rw [if_pos (by omega)]
      exact ⟨h0, h1, by simp; omega⟩
    · intro hk
      simp only [Node.pushLeaf, BRANCHING_FACTOR, List.length_cons]
      rw [if_neg (by omega)]
      exact ⟨hs, hv, rfl⟩
end Node

namespace PV

/-- Number of tree nodes read by `get(i)` (core.rs:204-213, tree.rs:114-158). -/
def visits (v : PV α) (i : Nat) : Nat :=
  match v.inner with
  | .inline _ => 0
  | .tree t =>
    if i < t.len ∧ t.head.length ≤ i ∧ i - t.head.length < t.treeSize then
      t.root.visits (i - t.head.length) t.height
    else 0

/-- The shape of a root made of `L` leaves pushed one after another. -/
def PushedRoot (L : Nat) (root : Node α) : Prop :=
  (L = 1 ∧ ∃ es, root = .leaf es ∧ es ≠ []) ∨
    ∃ d k, Node.Comb d k root ∧ 1 ≤ d ∧ 2 ≤ k ∧ k ≤ 32 ∧ L = 31 * (d - 1) + k

/-- The shape of a vector built by `n > 64` calls of `push_back`. -/
def Pushed (n : Nat) (v : PV α) : Prop :=
  ∃ t, v.inner = .tree t ∧ t.head = [] ∧ t.len = n ∧ v.len = n ∧ 64 < n ∧ t.tail.length = (n - 1) % 64 + 1 ∧
    PushedRoot ((n - 1) / 64) t.root

theorem Pushed.push {n : Nat} {v : PV α} (h : Pushed n v) (x : α) : Pushed (n + 1) (v.pushBack x) := by
  obtain ⟨t, hv, hh, hl, hvl, hn, ht, hr⟩ := h
  have e : v.pushBack x =
      { inner := .tree (t.pushBack x), len := v.len + 1, generation := v.generation + 1 } := by
    simp only [PV.pushBack, hv, treePushBack]
  rw [e]
  refine ⟨t.pushBack x, rfl, ?_⟩
  simp only [Tree.pushBack, LEAF_CAPACITY]
  by_cases hlt : t.tail.length < 64
  · rw [if_pos hlt]
    have hd : (n + 1 - 1) / 64 = (n - 1) / 64 := by omega
    refine ⟨hh, by simp [hl], by simp [hvl], by omega, by simp; omega, ?_⟩
    rw [hd]; exact hr
  · rw [if_neg hlt]
    have hd : (n + 1 - 1) / 64 = (n - 1) / 64 + 1 := by omega
    have hne : t.tail.isEmpty = false := by
      rw [List.isEmpty_eq_false_iff]; intro h0; rw [h0] at hlt; simp at hlt
    simp only [Tree.pushTailToTree, hne, Bool.false_eq_true, if_false, List.nil_append]
    refine ⟨hh, by simp [hl], by simp [hvl], by omega, by simp; omega, Or.inr ?_⟩
    rw [hd]
    rcases hr with ⟨h1, es, he, hes⟩ | ⟨d, k, hc, hd1, hk2, hk, hL⟩
    · refine ⟨1, 2, ?_, by omega, by omega, by omega, by omega⟩
      rw [he]
      exact ⟨by simpa [Node.calculateSize, List.length_pos_iff] using hes, fun _ => by simp [Node.visits], rfl⟩
    · by_cases hk32 : k < 32
      · exact ⟨d, k + 1, (hc.pushLeaf _).1 hk32, hd1, by omega, by omega, by omega⟩
      · exact ⟨d + 1, 2, (hc.pushLeaf _).2 hk32, by omega, by omega, by omega, by omega⟩

theorem pushed_extend (v : PV α) (n : Nat) (h : Pushed n v) (xs : List α) :
    Pushed (n + xs.length) (v.extend xs) := by
  induction xs generalizing v n with
  | nil => exact h
  | cons x xs ih =>
    have := ih _ _ (h.push x)
    simp only [PV.extend, List.foldl_cons, List.length_cons] at this ⊢
    rwa [show n + 1 + xs.length = n + (xs.length + 1) by omega] at this

theorem extend_append (v : PV α) (xs ys : List α) : v.extend (xs ++ ys) = (v.extend xs).extend ys := by
  simp [PV.extend]

theorem extend_small (xs : List α) (h : xs.length ≤ 64) : ∃ g, (new.extend xs : PV α) =
    { inner := .inline xs, len := xs.length, generation := g } := by
  induction xs using List.reverseRecOn with
  | nil => exact ⟨0, rfl⟩
  | append_singleton xs x ih =>
    simp only [List.length_append, List.length_singleton] at h
    obtain ⟨g, hg⟩ := ih (by omega)
    refine ⟨g + 1, ?_⟩
    rw [extend_append, hg]
    simp only [PV.extend, List.foldl_cons, List.foldl_nil, PV.pushBack, ADAPTIVE_INLINE_SIZE]
    rw [if_pos (by omega)]
    simp

theorem pushed_new (xs : List α) (h : 64 < xs.length) : Pushed xs.length (new.extend xs) := by
  have hsplit : xs = xs.take 64 ++ ([xs[64]] ++ xs.drop 65) := by
    conv_lhs => rw [← List.take_append_drop 64 xs]
    rw [List.drop_eq_getElem_cons h]; rfl
  have hlen : (xs.take 64).length = 64 := by simp; omega
  obtain ⟨g, hg⟩ := extend_small (xs.take 64) (by omega)
  have h65 : Pushed 65 ((new.extend (xs.take 64)).extend [xs[64]] : PV α) := by
    rw [hg]
    simp only [PV.extend, List.foldl_cons, List.foldl_nil, PV.pushBack, ADAPTIVE_INLINE_SIZE]
    rw [if_neg (by omega)]
    simp only [transitionToTree, treePushBack, Tree.fromElements, LEAF_CAPACITY]
    rw [if_pos (by omega)]
    refine ⟨_, rfl, ?_⟩
    simp only [Tree.pushBack, LEAF_CAPACITY, List.length_nil]
    rw [if_pos (by omega)]
    refine ⟨rfl, by simp; omega, by simp; omega, by omega, by simp, Or.inl ⟨by omega, _, rfl, ?_⟩⟩
    intro h0; rw [h0] at hlen; simp at hlen
  have := pushed_extend _ _ h65 (xs.drop 65)
  rw [← extend_append, ← extend_append, ← hsplit] at this
  have hd : (xs.drop 65).length = xs.length - 65 := by simp
  rw [hd, show 65 + (xs.length - 65) = xs.length by omega] at this
  exact this

/-- C59, what `push_back` builds: reading the first element of a vector made by `n > 64` calls of `push_back`
takes `1 + ((n - 1) / 64 + 29) / 31` nodes; the depth grows linearly with the length. -/
theorem c59_push_back_exact (xs : List α) (h : 64 < xs.length) :
    (new.extend xs : PV α).visits 0 = 1 + ((xs.length - 1) / 64 + 29) / 31 := by
  obtain ⟨t, hv, hh, hl, hvl, hn, ht, hr⟩ := pushed_new xs h
  have hts : 0 < t.treeSize := by
    simp only [Tree.treeSize, hh, hl, ht, List.length_nil]; omega
  simp only [visits, hv, hh, List.length_nil, Nat.sub_zero, hl]
  rw [if_pos ⟨by omega, by omega, hts⟩]
  rcases hr with ⟨h1, es, he, hes⟩ | ⟨d, k, hc, hd1, hk2, hk, hL⟩
  · rw [he]; simp only [Node.visits]; omega
  · rw [hc.visits, hL]; omega

theorem exp_beats (a b : Nat) : ∃ m, a * (m + 11) + b < 2 ^ m := by
  let j := 13 * a + b
  refine ⟨2 * j, ?_⟩
  have h1 : j + 1 ≤ 2 ^ j := Nat.lt_two_pow_self
  have h2 : (j + 1) * (j + 1) ≤ 2 ^ (2 * j) := by
    rw [two_mul, pow_add]; exact Nat.mul_le_mul h1 h1
  refine lt_of_lt_of_le ?_ h2
  have h3 : (j + 1) * (j + 1) = 13 * a * (j + 1) + (b + 1) * (j + 1) := by
    have : j + 1 = 13 * a + (b + 1) := by omega
    conv_lhs => rw [show (j + 1) * (j + 1) = (13 * a + (b + 1)) * (j + 1) by rw [← this]]
    ring
  rw [h3]
  have h4 : a * (2 * j + 11) ≤ 13 * a * (j + 1) := by
    rw [Nat.mul_comm 13 a, Nat.mul_assoc]; exact Nat.mul_le_mul_left a (by omega)
  have h5 : b < (b + 1) * (j + 1) := Nat.lt_of_lt_of_le (Nat.lt_succ_self b) (Nat.le_mul_of_pos_right _ (by omega))
  exact Nat.add_lt_add_of_le_of_lt h4 h5

/-- C59 is false of the code: no logarithmic bound `a * log2(len) + b` holds for the number of nodes read by
`get(0)`. -/
theorem c59_log_false : ¬ ∃ a b : Nat, ∀ v : PV Unit, Reach v → ∀ i, v.visits i ≤ a * Nat.log2 v.len + b := by
  rintro ⟨a, b, h⟩
  obtain ⟨m, hm⟩ := exp_beats a b
  have hb : 1 ≤ 2 ^ m := Nat.one_le_two_pow
  have hl : (List.replicate (2048 * 2 ^ m) ()).length = 2048 * 2 ^ m := by simp
  have h1 := c59_push_back_exact (List.replicate (2048 * 2 ^ m) ()) (by rw [hl]; omega)
  have h2 := h _ (Reach.extend (List.replicate (2048 * 2 ^ m) ()) Reach.new) 0
  have h3 : (new.extend (List.replicate (2048 * 2 ^ m) ()) : PV Unit).len = 2048 * 2 ^ m := by
    obtain ⟨t, _, _, _, h, _⟩ := pushed_new (List.replicate (2048 * 2 ^ m) ()) (by rw [hl]; omega)
    rw [h, hl]
  have h4 : Nat.log2 (2048 * 2 ^ m) = m + 11 := by
    rw [show 2048 * 2 ^ m = 2 ^ (m + 11) by rw [pow_add]; ring]
    exact Nat.log2_two_pow
  rw [h1, h3, h4, hl] at h2
  omega

/-- The depth of a node built by `build_tree_recursive` from `m` leaves is the number of times `m` can be divided by
32, rounding up. -/
theorem build_height : ∀ (fuel : Nat) (nodes : List (Node α)), nodes ≠ [] → nodes.length ≤ fuel →
    (Tree.buildTreeRecursive fuel nodes).2 = 0 ∨
    32 ^ ((Tree.buildTreeRecursive fuel nodes).2 - 1) < nodes.length := by
  intro fuel
  induction fuel with
  | zero => intro nodes hne hlen; exact absurd (List.length_eq_zero_iff.1 (by omega)) hne
  | succ fuel ih =>
    intro nodes hne hlen
    match nodes, hne, hlen with
    | [n], _, _ => left; simp [Tree.buildTreeRecursive]
    | n :: m :: rest, _, hlen =>
      right
      simp only [Tree.buildTreeRecursive]
      have hcl := chunks_length (n := BRANCHING_FACTOR) (by decide) (n :: m :: rest)
      generalize chunks BRANCHING_FACTOR (n :: m :: rest) = cs at hcl ⊢
      simp only [BRANCHING_FACTOR, List.length_cons] at hcl hlen
      have hne' : cs.map Node.makeRelaxed ≠ [] := by
        intro h
        have : cs = [] := by simpa using h
        subst this; simp at hcl; omega
      have := ih (cs.map Node.makeRelaxed) hne' (by simp only [List.length_map]; omega)
      generalize (Tree.buildTreeRecursive fuel (cs.map Node.makeRelaxed)).2 = q at this ⊢
      simp only [List.length_map] at this
      simp only [Nat.add_sub_cancel, List.length_cons]
      rcases this with h0 | h1
      · rw [h0]; simp
      · cases q with
        | zero => simp
        | succ q =>
          simp only [Nat.add_sub_cancel] at h1
          rw [pow_succ]; omega

/-- C59 for vectors made in one go (`from_iter`, `from_slice`, `map`, `filter`, …): a lookup that reads `k + 2` nodes
happens only in vectors of more than `64 * 32^k` elements.  Missing from C59: `push_back`, `push_front` and
`concat` afterwards (see `c59_log_false`). -/
theorem c59_from_iter_partial (xs : List α) (i k : Nat) (h : k + 2 ≤ (fromIter xs).visits i) :
    64 * 32 ^ k < xs.length := by
  unfold fromIter at h
  by_cases hle : xs.length ≤ ADAPTIVE_INLINE_SIZE
  · simp [hle, visits] at h
  · simp only [hle, if_false, visits] at h
    split at h
    · rename_i hc
      have hv := Node.visits_le (Tree.fromElements xs).root (i - (Tree.fromElements xs).head.length)
        (Tree.fromElements xs).height
      simp only [ADAPTIVE_INLINE_SIZE] at hle
      rcases Tree.fromElements_shape xs with ⟨h0, _⟩ | ⟨hl, hb, _⟩
      · simp only [LEAF_CAPACITY] at h0; omega
      · rw [hb.depth] at hv
        have hh : k + 1 ≤ (Tree.fromElements xs).height := by omega
        clear hv h hc hb
        simp only [Tree.fromElements, Tree.buildTreeWithTail, LEAF_CAPACITY,
          show ¬ xs.length ≤ 64 by omega, if_false] at hh
        have hne : (xs.take (xs.length / 64 * 64)).isEmpty = false := by
          rw [List.isEmpty_eq_false_iff]; intro h0
          have := congrArg List.length h0
          simp only [List.length_take, List.length_nil] at this; omega
        simp only [hne, Bool.false_eq_true, if_false] at hh
        have hcl := chunks_length (n := 64) (by decide) (xs.take (xs.length / 64 * 64))
        simp only [List.length_take] at hcl
        generalize chunks 64 (xs.take (xs.length / 64 * 64)) = cs at hcl hh
        have := build_height (cs.map Node.leaf).length (cs.map Node.leaf) (by
          intro h; have : cs = [] := by simpa using h
          subst this; simp at hcl; omega) (Nat.le_refl _)
        rcases this with h0 | h1
        · omega
        · simp only [List.length_map] at h1 hh
          have : 32 ^ k ≤ 32 ^ ((Tree.buildTreeRecursive cs.length (cs.map Node.leaf)).2 - 1) :=
            Nat.pow_le_pow_right (by omega) (by omega)
          omega
    · omega

/-- The hypothesis of `c59_from_iter_partial` is met with `k = 0` by 128 elements. -/
example : (fromIter (List.replicate 128 ()) : PV Unit).visits 0 = 2 := by decide +kernel

/-- A vector built by 100000 `push_back` calls: 52 nodes to reach its first element, where 4 would do. -/
example : (new.extend (List.replicate 100000 ()) : PV Unit).visits 0 = 52 := by
  rw [c59_push_back_exact _ (by rw [List.length_replicate]; omega), List.length_replicate]

end PV
end Rustica.PVec
