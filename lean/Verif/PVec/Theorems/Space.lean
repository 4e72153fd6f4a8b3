import Verif.PVec.Theorems.ReadAll
import Verif.PVec.Theorems.Entries
import Verif.PVec.Theorems.Frames
import Verif.PVec.Theorems.Sharing

/-!
# How many nodes a vector holds (C100)

The nodes of the tree of a vector are counted, a node once for every place it has in the tree.  `take` keeps every
level of the tree above the elements it keeps, so that a vector of any length can hold any number of nodes, and a lookup
in it can read any number of nodes.
-/

namespace Rustica.PVec

variable {α : Type}

namespace Node
mutual
/-- Nodes of a tree (node.rs:9-20: a leaf, or a branch with its children). -/
def nodes : Node α → Nat
  | .leaf _ => 1
  | .branch children _ => nodesL children + 1
/-- Nodes of a list of trees. -/
def nodesL : List (Node α) → Nat
  | [] => 0
  | c :: cs => nodes c + nodesL cs
end

theorem nodes_pos (n : Node α) : 1 ≤ n.nodes := by
  cases n with
  | leaf es => simp [nodes]
  | branch cs s => simp [nodes]

theorem nodesL_append (xs ys : List (Node α)) : nodesL (xs ++ ys) = nodesL xs + nodesL ys := by
  induction xs with
  | nil => simp [nodesL]
  | cons x xs ih => simp only [List.cons_append, nodesL, ih]; omega

theorem visitsL_le_nodesL (cs : List (Node α)) (hc : ∀ c ∈ cs, ∀ i h, visits c i h ≤ nodes c) :
    ∀ k i h, visitsL cs k i h ≤ nodesL cs := by
  induction cs with
  | nil => intro k i h; simp [visitsL]
  | cons c cs ih =>
    intro k i h
    cases k with
    | zero => simp only [visitsL, nodesL]; have := hc c (by simp) i h; omega
    | succ k =>
      simp only [visitsL, nodesL]
      have := ih (fun c' h' => hc c' (by simp [h'])) k i h; omega

/-- A lookup reads no node twice. -/
theorem visits_le_nodes (n : Node α) : ∀ i h, visits n i h ≤ nodes n := by
  induction n using Node.induct with
  | hleaf es => intro i h; simp [visits, nodes]
  | hbranch cs s ih =>
    intro i h
    have := visitsL_le_nodesL cs ih
    simp only [visits, nodes]
    split
    · exact Nat.succ_le_succ (this _ _ _)
    · omega

/-- `d` branches with one child each around a leaf. -/
def chain (es : List α) : Nat → Node α
  | 0 => .leaf es
  | d + 1 => .branch [chain es d] (some [es.length])

theorem chain_size (es : List α) (d : Nat) : (chain es d).calculateSize = es.length := by
  cases d <;> simp [chain, calculateSize]

theorem chain_height (es : List α) (d : Nat) : Tree.calculateHeight (chain es d) = d := by
  induction d with
  | zero => simp [chain, Tree.calculateHeight]
  | succ d ih => simp only [chain, Tree.calculateHeight, ih]; omega

theorem chain_visits (es : List α) (d : Nat) (h : es ≠ []) : ∀ ht, visits (chain es d) 0 ht = d + 1 := by
  have : 0 < es.length := List.length_pos_iff.2 h
  induction d with
  | zero => intro ht; simp [chain, visits]
  | succ d ih =>
    intro ht
    simp only [chain, visits, scanSizes, Nat.zero_add, this, if_true, visitsL, Nat.sub_zero, ih]

theorem Spine.height {d k : Nat} {n : Node α} (h : Spine d k n) : Tree.calculateHeight n = d := by
  induction h with
  | base ls h1 h2 h3 =>
    cases ls with
    | nil => simp at h2
    | cons l ls =>
      obtain ⟨es, he, _⟩ := h1 l (by simp)
      simp [Tree.calculateHeight, he]
  | step d c ls h1 h2 h3 h4 h5 ih => simp only [Tree.calculateHeight, ih]; omega

/-- Cutting a tree of pushed leaves within its first leaf leaves a chain as deep as the tree. -/
theorem Spine.cut {d k : Nat} {n : Node α} (h : Spine d k n) (j : Nat) (h0 : 0 < j) (h1 : j < 64) :
    ∃ es, es.length = j ∧ (Tree.splitAlongPath n (Tree.findPath n d j) j d).1 = chain es d := by
  induction h with
  | base ls h1' h2 h3 =>
    cases ls with
    | nil => simp at h2
    | cons l ls =>
      obtain ⟨es, he, hl⟩ := h1' l (by simp)
      refine ⟨es.take j, by simp; omega, ?_⟩
      simp [Tree.findPath, Tree.findPathL, Tree.splitAlongPath, Tree.splitChild, he, scanSizes, h1, chain,
        Tree.createLeftBranch, Tree.calculateAdjustedIndex, calculateSize, makeRelaxed, h0, List.replicate_succ, hl]
  | step d c ls h1' h2 h3 h4 h5 ih =>
    obtain ⟨es, he, e⟩ := ih
    refine ⟨es, he, ?_⟩
    have hj : j < 64 * (31 * (d - 1) + 32) := by omega
    have hsz := chain_size es d
    simp only [Tree.findPath, scanSizes, Nat.zero_add, hj, if_true, Option.getD, Tree.findPathL, Tree.splitAlongPath,
      Tree.splitChild, Tree.calculateAdjustedIndex, List.take_zero, List.sum_nil, Nat.sub_zero, Nat.add_sub_cancel,
      Nat.add_eq_zero_iff, one_ne_zero, and_false, if_false, e, Tree.createLeftBranch, List.nil_append, hsz, he, h0,
      List.isEmpty_cons, Bool.false_eq_true, makeRelaxed, List.map_cons, List.map_nil, chain]
end Node

namespace PV

/-- The recorded height is the length of the leftmost path, and an inline vector is small. -/
def HeightOk (v : PV α) : Prop :=
  match v.inner with
  | .inline es => es.length ≤ 64
  | .tree t => t.height = Tree.calculateHeight t.root

theorem HeightOk.push {v : PV α} (h : HeightOk v) (x : α) : HeightOk (v.pushBack x) := by
  obtain ⟨inner, len, g⟩ := v
  cases inner with
  | inline es =>
    simp only [HeightOk] at h
    simp only [PV.pushBack, ADAPTIVE_INLINE_SIZE]
    split
    · simp only [HeightOk]; simp; omega
    · simp only [transitionToTree, treePushBack, Tree.fromElements, LEAF_CAPACITY, h, if_true]
      simp [HeightOk, Tree.pushBack, LEAF_CAPACITY, Tree.calculateHeight]
  | tree t =>
    simp only [HeightOk] at h
    simp only [HeightOk, PV.pushBack, treePushBack, Tree.pushBack]
    split
    · exact h
    · simp only [Tree.pushTailToTree]
      split
      · exact h
      · rfl

theorem heightOk_extend (xs : List α) : ∀ v : PV α, HeightOk v → HeightOk (v.extend xs) := by
  induction xs with
  | nil => intro v h; exact h
  | cons x xs ih => intro v h; exact ih _ (h.push x)

/-- `take` of fewer than 64 elements from what `push_back` built keeps all the levels. -/
theorem take_pushed (xs : List α) (h : 64 < xs.length) (j : Nat) (h0 : 0 < j) (h1 : j < 64) :
    ∃ es g, es.length = j ∧ (new.extend xs : PV α).take j =
      ⟨.tree ⟨Node.chain es (((xs.length - 1) / 64 + 29) / 31), [], [], ((xs.length - 1) / 64 + 29) / 31, j⟩, j, g⟩ := by
  have hh := heightOk_extend xs (new : PV α) (by simp [HeightOk, new])
  obtain ⟨t, hv, ht, hl, hvl, hn, htl, hr⟩ := spined_new xs h
  simp only [HeightOk, hv] at hh
  have hts : t.treeSize = 64 * ((xs.length - 1) / 64) := by
    simp only [Tree.treeSize, ht, hl, htl, List.length_nil]; omega
  have key : ∃ es, es.length = j ∧ (t.splitTreeAt j).1 = Node.chain es (((xs.length - 1) / 64 + 29) / 31) := by
    rcases hr with ⟨hL, es, he, hes⟩ | ⟨d, k, hs, hL⟩
    · refine ⟨es.take j, by simp; omega, ?_⟩
      rw [hL]
      simp [Tree.splitTreeAt, he, Tree.splitAlongPath, Node.chain]
    · have hp := hs.pos
      have hd : ((xs.length - 1) / 64 + 29) / 31 = d := by omega
      rw [hs.height] at hh
      rw [hd, Tree.splitTreeAt, hh]
      exact hs.cut j h0 h1
  obtain ⟨es, he, hk⟩ := key
  refine ⟨es, (new.extend xs : PV α).generation + 1, he, ?_⟩
  simp only [take, splitAt, hvl, hv]
  rw [if_neg (by omega), if_neg (by omega), if_neg (by omega)]
  simp only [Tree.splitAt, ht, hl, hts, List.length_nil, Nat.sub_zero, Nat.zero_add]
  rw [if_neg (by omega), if_neg (by omega), if_neg (by omega), if_neg (by omega)]
  simp only [hk, Tree.fromHeadAndRoot, Node.chain_size, Node.chain_height, he, List.length_nil, Nat.zero_add]

/-- The hypotheses are met by the first three of 5000 elements. -/
example : 64 < (List.range 5000).length ∧ 0 < 3 ∧ 3 < 64 := by simp

/-- The first element lies more than `b` nodes deep. -/
def DeepFirst (b : Nat) (v : PV α) : Prop :=
  ∃ t, v.inner = .tree t ∧ t.head = [] ∧ t.len = v.len ∧ 0 < t.treeSize ∧ ∃ d c, b ≤ d ∧ Node.Comb d c t.root

theorem DeepFirst.push {b : Nat} {v : PV α} (h : DeepFirst b v) (x : α) : DeepFirst b (v.pushBack x) ∧
    (v.pushBack x).len = v.len + 1 := by
  obtain ⟨t, hv, hh, hl, hs, d, c, hd, hc⟩ := h
  have e : v.pushBack x =
      { inner := .tree (t.pushBack x), len := v.len + 1, generation := v.generation + 1 } := by
    simp only [PV.pushBack, hv, treePushBack]
  rw [e]
  refine ⟨⟨t.pushBack x, rfl, ?_⟩, rfl⟩
  simp only [Tree.treeSize, hh, List.length_nil, Nat.sub_zero] at hs
  simp only [Tree.pushBack]
  split
  · exact ⟨hh, by simp [hl], by simp [Tree.treeSize, hh]; omega, d, c, hd, hc⟩
  · rename_i hlt
    have hne : t.tail.isEmpty = false := by
      rw [List.isEmpty_eq_false_iff]; intro h0; rw [h0] at hlt; simp [LEAF_CAPACITY] at hlt
    simp only [Tree.pushTailToTree, hne, Bool.false_eq_true, if_false, List.nil_append]
    refine ⟨hh, by simp [hl], by simp [Tree.treeSize, hh]; omega, ?_⟩
    by_cases hk : c < 32
    · exact ⟨d, c + 1, hd, (hc.pushLeaf _).1 hk⟩
    · exact ⟨d + 1, 2, by omega, (hc.pushLeaf _).2 hk⟩

theorem DeepFirst.extend {b : Nat} (xs : List α) : ∀ {v : PV α}, DeepFirst b v →
    DeepFirst b (v.extend xs) ∧ (v.extend xs).len = v.len + xs.length := by
  induction xs with
  | nil => intro v h; exact ⟨h, rfl⟩
  | cons x xs ih =>
    intro v h
    obtain ⟨h1, h2⟩ := h.push x
    obtain ⟨h3, h4⟩ := ih h1
    refine ⟨h3, ?_⟩
    rw [h2] at h4
    rw [List.length_cons, show v.extend (x :: xs) = (v.pushBack x).extend xs from rfl, h4]
    omega

theorem DeepFirst.visits {b : Nat} {v : PV α} (h : DeepFirst b v) : b < v.visits 0 := by
  obtain ⟨t, hv, hh, hl, hs, d, c, hd, hc⟩ := h
  have hlen : 0 < t.len := by simp only [Tree.treeSize] at hs; omega
  simp only [PV.visits, hv, hh, List.length_nil, Nat.sub_zero]
  rw [if_pos ⟨hlen, by omega, hs⟩, hc.visits]
  omega

/-- Push many elements, take one, push `k` more. -/
def deep (k b : Nat) : PV Unit :=
  ((new.extend (List.replicate (1984 * (b + 2)) ())).take 1).extend (List.replicate k ())

theorem reach_deep (k b : Nat) : Reach (deep k b) := .extend _ (.take 1 (.extend _ .new))

/-- The first element of a vector of `k + 1` elements lies as deep as one likes. -/
theorem deep_spec (k b : Nat) : (deep k b).len = k + 1 ∧ DeepFirst b (deep k b) := by
  have hl : (List.replicate (1984 * (b + 2)) ()).length = 1984 * (b + 2) := by simp
  obtain ⟨es, g, he, ht⟩ := take_pushed (List.replicate (1984 * (b + 2)) ()) (by rw [hl]; omega) 1 (by omega) (by omega)
  rw [hl] at ht
  obtain ⟨d, hd⟩ : ∃ d, ((1984 * (b + 2) - 1) / 64 + 29) / 31 = d + 1 := ⟨_, (Nat.succ_pred_eq_of_pos (by omega)).symm⟩
  rw [hd] at ht
  have hdeep : DeepFirst b ((new.extend (List.replicate (1984 * (b + 2)) ())).take 1) := by
    rw [ht]
    refine ⟨_, rfl, rfl, rfl, by simp [Tree.treeSize], d + 1, 1, by omega, ?_⟩
    exact ⟨by omega, Node.chain_visits es d (by intro h0; simp [h0] at he), rfl⟩
  obtain ⟨h1, h2⟩ := hdeep.extend (List.replicate k ())
  refine ⟨?_, h1⟩
  rw [deep, h2, ht]
  simp; omega

/-- C59, what fails, in the strongest form: for no length is there a bound on the nodes read by reading the first element. -/
theorem c59_no_bound (k b : Nat) : ∃ v : PV Unit, Reach v ∧ v.len = k + 1 ∧ b < v.visits 0 := by
  obtain ⟨h1, h2⟩ := deep_spec k b
  exact ⟨_, reach_deep k b, h1, h2.visits⟩

/-- C98, what fails, in the strongest form: for no length is there a bound on the nodes read by going through a vector. -/
theorem c98_no_bound (k b : Nat) : ∃ v : PV Unit, Reach v ∧ v.len = k + 1 ∧ b < v.eachVisits := by
  obtain ⟨v, h1, h2, h3⟩ := c59_no_bound k b
  refine ⟨v, h1, h2, ?_⟩
  rw [eachVisits, h2, List.range_succ_eq_map, List.map_cons, List.sum_cons]
  omega

/-- Nodes of the tree of a vector (core.rs:24-32: an inline vector has none). -/
def nodes (v : PV α) : Nat :=
  match v.inner with
  | .inline _ => 0
  | .tree t => t.root.nodes

theorem visits_le_nodes (v : PV α) (i : Nat) : v.visits i ≤ v.nodes := by
  unfold visits nodes
  cases v.inner with
  | inline es => exact Nat.le_refl _
  | tree t =>
    simp only
    split
    · exact Node.visits_le_nodes _ _ _
    · omega

/-- C100 is false of the code: for no length is there a bound on the nodes that a vector of that length holds. -/
theorem c100_no_bound (k b : Nat) : ∃ v : PV Unit, Reach v ∧ v.len = k + 1 ∧ b < v.nodes := by
  obtain ⟨v, h1, h2, h3⟩ := c59_no_bound k b
  exact ⟨v, h1, h2, Nat.lt_of_lt_of_le h3 (visits_le_nodes v 0)⟩

theorem Node.nodes_chain (es : List α) (d : Nat) : (Node.chain es d).nodes = d + 1 := by
  induction d with
  | zero => rfl
  | succ d ih => simp only [Node.chain, Node.nodes, Node.nodesL, ih]

/-- C100, exactly, for what `take` keeps of pushed elements: taking fewer than 64 of `n` pushed elements holds one node
for every level of the tree they came from. -/
theorem c100_take_exact (xs : List α) (h : 64 < xs.length) (j : Nat) (h0 : 0 < j) (h1 : j < 64) :
    ((new.extend xs : PV α).take j).nodes = 1 + ((xs.length - 1) / 64 + 29) / 31 ∧
    ((new.extend xs : PV α).take j).len = j := by
  obtain ⟨es, g, _, e⟩ := take_pushed xs h j h0 h1
  rw [e]
  refine ⟨?_, rfl⟩
  simp only [nodes, Node.nodes_chain]
  omega

/-- The hypotheses are met by the first three of 5000 elements. -/
example : ((new.extend (List.range 5000) : PV Nat).take 3).nodes = 4 := by
  rw [(c100_take_exact (List.range 5000) (by simp) 3 (by omega) (by omega)).1]
  simp

end PV

namespace Node

theorem visitsL_le_drop (cs : List (Node α)) (hc : ∀ c ∈ cs, ∀ i h, visits c i h ≤ (Frames.nodeDrop c).depth) :
    ∀ k i h, visitsL cs k i h ≤ (Frames.nodeDropL cs).depth := by
  induction cs with
  | nil => intro k i h; simp [visitsL]
  | cons c cs ih =>
    intro k i h
    cases k with
    | zero =>
      have := hc c (by simp) i h
      simp only [visitsL, Frames.nodeDropL, Frames.depth_bind]; omega
    | succ k =>
      have := ih (fun c' h' => hc c' (by simp [h'])) k i h
      simp only [visitsL, Frames.nodeDropL, Frames.depth_bind]; omega

/-- Dropping a tree nests at least as deep as any lookup reads. -/
theorem visits_le_drop (n : Node α) : ∀ i h, visits n i h ≤ (Frames.nodeDrop n).depth := by
  induction n using Node.induct with
  | hleaf es => intro i h; simp [visits, Frames.nodeDrop]
  | hbranch cs s ih =>
    intro i h
    have := visitsL_le_drop cs ih
    simp only [visits, Frames.nodeDrop, Frames.depth_call]
    split
    · exact Nat.succ_le_succ (this _ _ _) |>.trans (by omega)
    · omega

theorem visitsL_le_entriesL (cs : List (Node α)) (hs : SizedL cs)
    (hc : ∀ c ∈ cs, Sized c → ∀ i h, visits c i h ≤ entries c i h + 1) :
    ∀ k i h, visitsL cs k i h ≤ entriesL cs k i h + 1 := by
  induction cs with
  | nil => intro k i h; simp [visitsL]
  | cons c cs ih =>
    intro k i h
    cases k with
    | zero => exact hc c (by simp) hs.1 i h
    | succ k => exact ih hs.2 (fun c' h' => hc c' (by simp [h'])) k i h

/-- A lookup looks at a size-table entry in every branch it reads. -/
theorem visits_le_entries (n : Node α) : Sized n → ∀ i h, visits n i h ≤ entries n i h + 1 := by
  induction n using Node.induct with
  | hleaf es => intro _ i h; simp [visits]
  | hbranch cs s ih =>
    intro hs i h
    obtain ⟨_, hs1, hs2⟩ := hs
    have hL := visitsL_le_entriesL cs hs2 ih
    subst hs1
    simp only [visits, entries]
    split
    · rename_i k j e
      have h1 := scanCount_eq (cs.map fun c => (flat c).length) 0 0 i
      rw [e] at h1
      simp only at h1
      have h2 := hL k j (h - 1)
      refine Nat.succ_le_succ (h2.trans ?_)
      rw [e]
      simp only
      omega
    · omega

end Node

namespace PV

/-- C96, what fails, in the strongest form: for no length is there a bound on the nesting of dropping a vector. -/
theorem c96_no_bound (k b : Nat) : ∃ v : PV Unit, Reach v ∧ v.len = k + 1 ∧ b < (Frames.drop v).depth := by
  obtain ⟨h1, t, hv, hh, hl, hs, d, c, hd, hc⟩ := deep_spec k b
  refine ⟨_, reach_deep k b, h1, ?_⟩
  have h2 := Node.visits_le_drop t.root 0 0
  rw [hc.visits] at h2
  simp only [Frames.drop, hv]
  omega

/-- C99, what fails, in another form: for no length is there a bound on the size-table entries looked at to read the first
element. -/
theorem c99_no_bound (k b : Nat) : ∃ v : PV Unit, Reach v ∧ v.len = k + 1 ∧ b < v.entries 0 := by
  obtain ⟨h1, t, hv, hh, hl, hs, d, c, hd, hc⟩ := deep_spec k (b + 1)
  refine ⟨_, reach_deep k (b + 1), h1, ?_⟩
  have hx := (reach_deep k (b + 1)).lax
  simp only [Lax, hv] at hx
  have h2 := Node.visits_le_entries t.root hx 0 t.height
  rw [hc.visits] at h2
  have hlen : 0 < t.len := by simp only [Tree.treeSize] at hs; omega
  simp only [entries, hv, hh, List.length_nil, Nat.sub_zero]
  rw [if_pos ⟨hlen, by omega, hs⟩]
  omega

end PV

namespace Node

theorem nodes_pushLeaf (n l : Node α) : (n.pushLeaf l).nodes ≤ n.nodes + l.nodes + 1 := by
  cases n with
  | leaf es => simp only [Node.pushLeaf, nodes, nodesL]; omega
  | branch cs s =>
    simp only [Node.pushLeaf]
    split <;> simp only [nodes, nodesL_append, nodesL] <;> omega

theorem nodes_pushFrontLeaf (n l : Node α) : (n.pushFrontLeaf l).nodes ≤ n.nodes + l.nodes + 1 := by
  cases n with
  | leaf es => simp only [Node.pushFrontLeaf, nodes, nodesL]; omega
  | branch cs s =>
    simp only [Node.pushFrontLeaf]
    split <;> simp only [nodes, nodesL] <;> omega

theorem nodesL_updateL (cs : List (Node α)) (h : ∀ c ∈ cs, ∀ i x, (update c i x).nodes = c.nodes) :
    ∀ k j x, nodesL (updateL cs k j x) = nodesL cs := by
  induction cs with
  | nil => intro k j x; simp [updateL]
  | cons c cs ih =>
    intro k j x
    cases k with
    | zero => simp only [updateL, nodesL, h c (by simp)]
    | succ k => simp only [updateL, nodesL, ih (fun c' h' => h c' (by simp [h'])) k j x]

theorem nodes_update (n : Node α) : ∀ i x, (n.update i x).nodes = n.nodes := by
  induction n using Node.induct with
  | hleaf es => intro i x; simp [update, nodes]
  | hbranch cs s ih =>
    intro i x
    simp only [update]
    split
    · simp only [nodes, nodesL_updateL cs ih]
    · rfl

theorem popBackLast_nodes (cs : List (Node α)) (h : ∀ c ∈ cs, ∀ m x, popBack c = some (m, x) → m.nodes ≤ c.nodes) :
    ∀ m x, popBackLast cs = some (m, x) → nodesL (cs.set (cs.length - 1) m) ≤ nodesL cs ∧ nodesL cs.dropLast ≤ nodesL cs := by
  induction cs with
  | nil => intro m x e; simp [popBackLast] at e
  | cons c cs ih =>
    intro m x e
    cases cs with
    | nil =>
      have := h c (by simp) m x e
      simp only [List.length_singleton, Nat.sub_self, List.set_cons_zero, nodesL, List.dropLast_singleton]
      omega
    | cons c' cs =>
      have := ih (fun a ha => h a (by simp [ha])) m x e
      simp only [List.length_cons, Nat.add_sub_cancel, List.set_cons_succ, nodesL, List.dropLast_cons_cons] at this ⊢
      omega

theorem popBack_nodes (n : Node α) : ∀ m x, n.popBack = some (m, x) → m.nodes ≤ n.nodes := by
  induction n using Node.induct with
  | hleaf es =>
    intro m x e
    simp only [popBack] at e
    split at e
    · cases e
    · injection e with e; injection e with e _; rw [← e]; simp [nodes]
  | hbranch cs s ih =>
    intro m x e
    simp only [popBack] at e
    split at e
    · cases e
    · rename_i c y e'
      obtain ⟨h1, h2⟩ := popBackLast_nodes cs ih _ _ e'
      split at e
      · split at e
        · injection e with e; injection e with e _; rw [← e]; simp [nodes]
        · injection e with e; injection e with e _; rw [← e]; simp only [nodes]; omega
      · injection e with e; injection e with e _; rw [← e]; simp only [nodes]; omega

theorem popFront_nodes (n : Node α) : ∀ m x, n.popFront = some (m, x) → m.nodes ≤ n.nodes := by
  induction n using Node.induct with
  | hleaf es =>
    intro m x e
    simp only [popFront] at e
    split at e
    · cases e
    · injection e with e; injection e with e _; rw [← e]; simp [nodes]
  | hbranch cs s ih =>
    intro m x e
    cases cs with
    | nil => simp [popFront] at e
    | cons c cs =>
      simp only [popFront] at e
      split at e
      · cases e
      · rename_i c' y e'
        have := ih c (by simp) _ _ e'
        split at e
        · split at e
          · injection e with e; injection e with e _; rw [← e]; simp [nodes]
          · injection e with e; injection e with e _; rw [← e]; simp only [nodes, nodesL]; omega
        · injection e with e; injection e with e _; rw [← e]; simp only [nodes, nodesL]; omega

theorem nodes_elevate (k : Nat) : ∀ n : Node α, (Tree.elevateRoot k n).nodes = n.nodes + k := by
  induction k with
  | zero => intro n; rfl
  | succ k ih => intro n; simp only [Tree.elevateRoot, ih, nodes, nodesL]; omega

theorem nodesL_dropLast_le (cs : List (Node α)) : nodesL cs.dropLast ≤ nodesL cs := by
  conv_rhs => rw [← List.take_append_drop (cs.length - 1) cs]
  rw [nodesL_append, List.dropLast_eq_take]; omega

theorem concatLast_nodes (cs : List (Node α)) (r : Node α)
    (h : ∀ c ∈ cs, (Tree.concatNodes c r).nodes ≤ c.nodes + r.nodes + 1) :
    nodesL cs.dropLast + nodesL (Tree.concatLast cs r).toList ≤ nodesL cs + r.nodes + 1 := by
  induction cs with
  | nil => simp [Tree.concatLast, nodesL]
  | cons c cs ih =>
    cases cs with
    | nil =>
      have := h c (by simp)
      simp only [Tree.concatLast, List.dropLast_singleton, Option.toList_some, nodesL]; omega
    | cons c' cs =>
      have := ih fun a ha => h a (by simp [ha])
      simp only [Tree.concatLast, List.dropLast_cons_cons, nodesL] at this ⊢
      omega

theorem concatNodes_nodes (l : Node α) : ∀ r, (Tree.concatNodes l r).nodes ≤ l.nodes + r.nodes + 1 := by
  induction l using Node.induct with
  | hleaf es =>
    intro r
    cases r with
    | leaf fs =>
      simp only [Tree.concatNodes]
      split <;> simp only [nodes, nodesL, makeRelaxed] <;> omega
    | branch ds u => simp only [Tree.concatNodes, nodes, nodesL, makeRelaxed]; omega
  | hbranch cs s ih =>
    intro r
    cases r with
    | leaf fs => simp only [Tree.concatNodes, nodes, nodesL, makeRelaxed, nodesL_append]; omega
    | branch ds u =>
      cases ds with
      | nil =>
        have := nodesL_dropLast_le cs
        simp only [Tree.concatNodes, nodes, makeRelaxed, List.append_nil, List.drop_nil]; omega
      | cons d ds =>
        have := concatLast_nodes cs d fun c hc => ih c hc d
        simp only [Tree.concatNodes, nodes, makeRelaxed, nodesL_append, List.drop_succ_cons, List.drop_zero, nodesL]
        omega

theorem nodesL_take_drop (cs : List (Node α)) (i : Nat) (c : Node α) (h : cs[i]? = some c) :
    nodesL (cs.take i) + c.nodes + nodesL (cs.drop (i + 1)) = nodesL cs := by
  induction cs generalizing i with
  | nil => simp at h
  | cons a cs ih =>
    cases i with
    | zero =>
      simp only [List.getElem?_cons_zero, Option.some.injEq] at h
      simp [nodesL, h]
    | succ i =>
      have := ih i (by simpa using h)
      simp only [List.take_succ_cons, nodesL, List.drop_succ_cons]; omega

theorem splitChild_nodes (cs : List (Node α))
    (h : ∀ c ∈ cs, ∀ path j ht, (Tree.splitAlongPath c path j ht).1.nodes ≤ c.nodes ∧
      (Tree.splitAlongPath c path j ht).2.nodes ≤ c.nodes) :
    ∀ i path j ht l r, Tree.splitChild cs i path j ht = some (l, r) →
      ∃ c, cs[i]? = some c ∧ l.nodes ≤ c.nodes ∧ r.nodes ≤ c.nodes := by
  induction cs with
  | nil => intro i path j ht l r e; simp [Tree.splitChild] at e
  | cons c cs ih =>
    intro i path j ht l r e
    cases i with
    | zero =>
      simp only [Tree.splitChild, Option.some.injEq] at e
      have := h c (by simp) path j ht
      rw [e] at this
      exact ⟨c, rfl, this⟩
    | succ i => exact ih (fun a ha => h a (by simp [ha])) i path j ht l r e

theorem createBranch_nodes (cs : List (Node α)) (i : Nat) (m : Node α) :
    (Tree.createLeftBranch cs i m).nodes ≤ nodesL (cs.take i) + m.nodes + 1 ∧
    (Tree.createRightBranch cs i m).nodes ≤ m.nodes + nodesL (cs.drop (i + 1)) + 1 := by
  have key : ∀ L : List (Node α), (if L.isEmpty then .leaf [] else makeRelaxed L : Node α).nodes ≤ nodesL L + 1 := by
    intro L
    split
    · simp [nodes]
    · exact Nat.le_refl _
  have hif : nodesL (if m.calculateSize > 0 then [m] else []) ≤ m.nodes := by
    split <;> simp only [nodesL] <;> omega
  constructor
  · refine (key _).trans ?_
    rw [nodesL_append]; omega
  · refine (key _).trans ?_
    rw [nodesL_append]; omega

/-- Neither part of a cut tree has more nodes than the tree. -/
theorem split_nodes (n : Node α) : ∀ path j ht, (Tree.splitAlongPath n path j ht).1.nodes ≤ n.nodes ∧
    (Tree.splitAlongPath n path j ht).2.nodes ≤ n.nodes := by
  induction n using Node.induct with
  | hleaf es => intro path j ht; simp [Tree.splitAlongPath, nodes]
  | hbranch cs s ih =>
    intro path j ht
    have key := splitChild_nodes cs ih
    cases path with
    | nil =>
      simp only [Tree.splitAlongPath]
      cases e : Tree.splitChild cs 0 [] j (ht - 1) with
      | none => simp [nodes]
      | some p =>
        obtain ⟨c, hc, h1, h2⟩ := key _ _ _ _ _ _ e
        have := nodesL_take_drop cs 0 c hc
        simp only [Option.getD, nodes]; omega
    | cons i path =>
      simp only [Tree.splitAlongPath]
      cases e : Tree.splitChild cs i path (Tree.calculateAdjustedIndex j i s (ht - 1)) (ht - 1) with
      | none => simp [nodes]
      | some p =>
        obtain ⟨c, hc, h1, h2⟩ := key _ _ _ _ _ _ e
        have h3 := nodesL_take_drop cs i c hc
        simp only
        have h4 := createBranch_nodes cs i p.1
        have h5 := createBranch_nodes cs i p.2
        rw [show (branch cs s).nodes = nodesL cs + 1 from rfl]
        omega

theorem nodesL_makeRelaxed (cs : List (List (Node α))) :
    nodesL (cs.map makeRelaxed) = nodesL cs.flatten + cs.length := by
  induction cs with
  | nil => simp [nodesL]
  | cons c cs ih => simp only [List.map_cons, nodesL, ih, List.flatten_cons, nodesL_append, makeRelaxed, nodes,
      List.length_cons]; omega

/-- Putting `l` trees under one root adds fewer than `l` nodes. -/
theorem build_nodes : ∀ (fuel : Nat) (ns : List (Node α)), ns ≠ [] → ns.length ≤ fuel →
    (Tree.buildTreeRecursive fuel ns).1.nodes + 1 ≤ nodesL ns + ns.length := by
  intro fuel
  induction fuel with
  | zero => intro ns hne hlen; exact absurd (List.length_eq_zero_iff.1 (by omega)) hne
  | succ fuel ih =>
    intro ns hne hlen
    match ns, hne, hlen with
    | [n], _, _ => simp [Tree.buildTreeRecursive, nodesL]
    | n :: m :: rest, _, hlen =>
      have hcl := chunks_length (n := BRANCHING_FACTOR) (by decide) (n :: m :: rest)
      have hfl := chunks_flatten (n := BRANCHING_FACTOR) (by decide) (n :: m :: rest)
      simp only [Tree.buildTreeRecursive]
      generalize chunks BRANCHING_FACTOR (n :: m :: rest) = cs at hcl hfl ⊢
      simp only [BRANCHING_FACTOR, List.length_cons] at hcl hlen
      have hne' : cs.map makeRelaxed ≠ [] := by
        intro h
        have : cs = [] := by simpa using h
        subst this; simp at hcl; omega
      have := ih (cs.map makeRelaxed) hne' (by simp only [List.length_map]; omega)
      rw [nodesL_makeRelaxed, hfl, List.length_map] at this
      simp only [List.length_cons]
      omega

theorem nodesL_leaves (cs : List (List α)) : nodesL (cs.map Node.leaf) = cs.length := by
  induction cs with
  | nil => rfl
  | cons c cs ih => simp only [List.map_cons, nodesL, nodes, ih, List.length_cons]; omega

end Node

namespace Tree

theorem pushTail_nodes (t : Tree α) : t.pushTailToTree.root.nodes ≤ t.root.nodes + 2 := by
  simp only [pushTailToTree]
  split
  · omega
  · have := Node.nodes_pushLeaf t.root (.leaf t.tail)
    simp only [Node.nodes] at this ⊢; omega

theorem pushHead_nodes (t : Tree α) : t.pushHeadToTree.root.nodes ≤ t.root.nodes + 2 := by
  simp only [pushHeadToTree]
  split
  · omega
  · have := Node.nodes_pushFrontLeaf t.root (.leaf t.head)
    simp only [Node.nodes] at this ⊢; omega

theorem push_nodes (t : Tree α) (x : α) :
    (t.pushBack x).root.nodes ≤ t.root.nodes + 2 ∧ (t.pushFront x).root.nodes ≤ t.root.nodes + 2 := by
  have h1 := pushTail_nodes t
  have h2 := pushHead_nodes t
  constructor
  · simp only [pushBack]; split
    · simp only; omega
    · exact h1
  · simp only [pushFront]; split
    · simp only; omega
    · exact h2

theorem update_nodes (t : Tree α) (i : Nat) (x : α) : (t.update i x).root.nodes = t.root.nodes := by
  simp only [update]
  split
  · rfl
  · split
    · rfl
    · split
      · simp only [Node.nodes_update]
      · rfl

theorem popBack_nodes (t : Tree α) (u : Tree α) (y : α) (h : t.popBack = some (u, y)) :
    u.root.nodes ≤ t.root.nodes := by
  have hp := Node.nodes_pos t.root
  simp only [popBack] at h
  split at h
  · cases h
  · split at h
    · injection h with h; injection h with h _; rw [← h]
    · simp only [popFromTree] at h
      split at h
      · cases h
      · split at h
        · cases h
        · split at h
          · cases h
          · injection h with h; injection h with h _; rw [← h]
            simp only
            split
            · simpa [Node.nodes] using hp
            · split
              · rename_i e; exact Node.popBack_nodes _ _ _ e
              · exact Nat.le_refl _

theorem popFront_nodes (t : Tree α) (u : Tree α) (y : α) (h : t.popFront = some (u, y)) :
    u.root.nodes ≤ t.root.nodes := by
  have hp := Node.nodes_pos t.root
  have htail : ∀ u y, t.popFrontFromTail = some (u, y) → u.root.nodes ≤ t.root.nodes := by
    intro u y h
    simp only [popFrontFromTail] at h
    split at h
    · injection h with h; injection h with h _; rw [← h]; simpa [Node.nodes] using hp
    · cases h
  simp only [popFront] at h
  split at h
  · cases h
  · split at h
    · injection h with h; injection h with h _; rw [← h]
    · simp only [popFrontFromTree] at h
      split at h
      · split at h
        · rename_i e
          injection h with h; injection h with h _; rw [← h]
          exact Node.popFront_nodes _ _ _ e
        · exact htail _ _ h
      · exact htail _ _ h

theorem splitAt_nodes (t : Tree α) (i : Nat) :
    (t.splitAt i).1.root.nodes ≤ t.root.nodes ∧ (t.splitAt i).2.root.nodes ≤ t.root.nodes := by
  have hp := Node.nodes_pos t.root
  have hs := Node.split_nodes t.root (findPath t.root t.height (i - t.head.length)) (i - t.head.length) t.height
  simp only [splitAt]
  split
  · simpa [empty, Node.nodes] using hp
  · split
    · simpa [empty, Node.nodes] using hp
    · split
      · simpa [fromHead, fromHeadAndTreeAndTail, Node.nodes] using hp
      · split
        · simpa [fromTail, fromHeadAndTreeAndTail, Node.nodes] using hp
        · exact hs

theorem concatSame_nodes (t u : Tree α) : (t.concatSameHeight u).root.nodes ≤ t.root.nodes + u.root.nodes + 5 := by
  have h1 : ∀ b : Bool, (if b then t.pushTailToTree else t).root.nodes ≤ t.root.nodes + 2 := by
    intro b; cases b
    · simp
    · exact pushTail_nodes t
  have h2 : ∀ b : Bool, (if b then u.pushHeadToTree else u).root.nodes ≤ u.root.nodes + 2 := by
    intro b; cases b
    · simp
    · exact pushHead_nodes u
  simp only [concatSameHeight]
  refine (Node.concatNodes_nodes _ _).trans ?_
  have h1 := h1 (!t.tail.isEmpty)
  have h2 := h2 (!u.head.isEmpty)
  omega

theorem concat_nodes (t u : Tree α) : (t.concat u).root.nodes ≤
    t.root.nodes + u.root.nodes + 5 + (t.height - u.height) + (u.height - t.height) := by
  simp only [concat]
  split
  · omega
  · split
    · omega
    · split
      · have := concatSame_nodes t u; omega
      · split
        · have := concatSame_nodes (u.elevateTree t.height) t
          simp only [concatDifferentHeight, Bool.false_eq_true, if_false]
          simp only [elevateTree, Node.nodes_elevate] at this ⊢
          omega
        · have := concatSame_nodes t (u.elevateTree t.height)
          simp only [concatDifferentHeight, if_true]
          simp only [elevateTree, Node.nodes_elevate] at this ⊢
          omega

theorem fromElements_small (es : List α) (h : es.length ≤ 64) :
    (fromElements es).root.nodes = 1 ∧ (fromElements es).height = 0 := by
  simp only [fromElements, LEAF_CAPACITY, h, if_true, Node.nodes, and_self]

end Tree

namespace PV

/-- Vectors that only ever grew: made without `concat` and without a call that takes elements away. -/
inductive Grown : PV α → Prop where
  | new : Grown PV.new
  | unit (x : α) : Grown (PV.unit x)
  | fromIter (xs : List α) : Grown (PV.fromIter xs)
  | pushBack {v : PV α} (x : α) : Grown v → Grown (v.pushBack x)
  | pushFront {v : PV α} (x : α) : Grown v → Grown (v.pushFront x)
  | extend {v : PV α} (xs : List α) : Grown v → Grown (v.extend xs)
  | update {v : PV α} (i : Nat) (x : α) : Grown v → Grown (v.update i x)

/-- Two nodes, but for one, for every 64 elements of the tree. -/
def Dense (v : PV α) : Prop :=
  match v.inner with
  | .inline es => es.length = v.len ∧ es.length ≤ 64
  | .tree t => ∃ m, t.root.nodes + 1 ≤ 2 * m ∧ 64 * m + t.head.length + t.tail.length ≤ v.len

theorem dense_tree {t : Tree α} {n g m : Nat} (h1 : t.root.nodes + 1 ≤ 2 * m)
    (h2 : 64 * m + t.head.length + t.tail.length ≤ n) : Dense ⟨.tree t, n, g⟩ := ⟨m, h1, h2⟩

theorem Dense.treePushBack {t : Tree α} {n g : Nat} (h : Dense ⟨.tree t, n, g⟩) (x : α) (g' : Nat) :
    Dense ⟨.tree (t.pushBack x), n + 1, g'⟩ := by
  obtain ⟨m, h1, h2⟩ := h
  simp only at h2
  simp only [Tree.pushBack, LEAF_CAPACITY]
  split
  · exact ⟨m, h1, by simp; omega⟩
  · rename_i hlt
    have hne : t.tail.isEmpty = false := by
      rw [List.isEmpty_eq_false_iff]; intro h0; rw [h0] at hlt; simp at hlt
    simp only [Tree.pushTailToTree, hne, Bool.false_eq_true, if_false, List.nil_append]
    have := Node.nodes_pushLeaf t.root (.leaf t.tail)
    simp only [Node.nodes] at this
    exact ⟨m + 1, by simp only; omega, by simp; omega⟩

theorem Dense.treePushFront {t : Tree α} {n g : Nat} (h : Dense ⟨.tree t, n, g⟩) (x : α) (g' : Nat) :
    Dense ⟨.tree (t.pushFront x), n + 1, g'⟩ := by
  obtain ⟨m, h1, h2⟩ := h
  simp only at h2
  simp only [Tree.pushFront, LEAF_CAPACITY]
  split
  · exact ⟨m, h1, by simp; omega⟩
  · rename_i hlt
    have hne : t.head.isEmpty = false := by
      rw [List.isEmpty_eq_false_iff]; intro h0; rw [h0] at hlt; simp at hlt
    simp only [Tree.pushHeadToTree, hne, Bool.false_eq_true, if_false]
    have := Node.nodes_pushFrontLeaf t.root (.leaf t.head)
    simp only [Node.nodes] at this
    exact ⟨m + 1, by simp only; omega, by simp; omega⟩

theorem dense_one {es : List α} {n g : Nat} (h : es.length = n) (h64 : es.length ≤ 64) (h64' : ¬ es.length < 64) :
    Dense ⟨.tree (Tree.fromElements es), n, g⟩ := by
  simp only [Tree.fromElements, LEAF_CAPACITY, h64, if_true]
  exact ⟨1, by simp [Node.nodes], by simp; omega⟩

theorem Dense.push {v : PV α} (h : Dense v) (x : α) : Dense (v.pushBack x) ∧ Dense (v.pushFront x) := by
  obtain ⟨inner, len, g⟩ := v
  cases inner with
  | inline es =>
    obtain ⟨h1, h2⟩ := h
    simp only at h1
    simp only [PV.pushBack, PV.pushFront, ADAPTIVE_INLINE_SIZE]
    by_cases hlt : es.length < 64
    · rw [if_pos hlt, if_pos hlt]
      exact ⟨⟨by simp; omega, by simp; omega⟩, ⟨by simp; omega, by simp; omega⟩⟩
    · rw [if_neg hlt, if_neg hlt]
      exact ⟨(dense_one h1 h2 hlt (g := g + 1)).treePushBack x _, (dense_one h1 h2 hlt (g := g + 1)).treePushFront x _⟩
  | tree t => exact ⟨h.treePushBack x _, h.treePushFront x _⟩

theorem Dense.extend (xs : List α) : ∀ {v : PV α}, Dense v → Dense (v.extend xs) := by
  induction xs with
  | nil => intro v h; exact h
  | cons x xs ih => intro v h; exact ih (h.push x).1

theorem dense_fromIter (xs : List α) : Dense (fromIter xs) := by
  simp only [PV.fromIter, ADAPTIVE_INLINE_SIZE]
  split
  · exact ⟨rfl, by assumption⟩
  · rename_i h
    simp only [Tree.fromElements, LEAF_CAPACITY, if_neg h, Tree.buildTreeWithTail]
    have hne : (xs.take (xs.length / 64 * 64)).isEmpty = false := by
      rw [List.isEmpty_eq_false_iff]; intro h0
      have := congrArg List.length h0
      simp at this
      rcases this with h | h
      · omega
      · subst h; simp at h
    simp only [hne, Bool.false_eq_true, if_false]
    have hl : (chunks 64 (xs.take (xs.length / 64 * 64))).length = xs.length / 64 := by
      rw [chunks_length (by decide)]; simp; omega
    have hb := Node.build_nodes ((chunks 64 (xs.take (xs.length / 64 * 64))).map Node.leaf).length
      ((chunks 64 (xs.take (xs.length / 64 * 64))).map Node.leaf) (by
        intro h0
        have := congrArg List.length h0
        simp [hl] at this; omega) (Nat.le_refl _)
    rw [Node.nodesL_leaves, List.length_map, hl] at hb
    refine ⟨xs.length / 64, ?_, ?_⟩
    · simp only [List.length_map, hl]; omega
    · simp; omega

theorem Grown.dense {v : PV α} (h : Grown v) : Dense v := by
  induction h with
  | new => exact ⟨rfl, by simp⟩
  | unit x => exact ⟨rfl, by simp⟩
  | fromIter xs => exact dense_fromIter xs
  | pushBack x _ ih => exact (ih.push x).1
  | pushFront x _ ih => exact (ih.push x).2
  | extend xs _ ih => exact ih.extend xs
  | @update v i x _ ih =>
    obtain ⟨inner, len, g⟩ := v
    simp only [PV.update]
    split
    · exact ih
    · cases inner with
      | inline es => exact ⟨by simpa using ih.1, by simpa using ih.2⟩
      | tree t =>
        obtain ⟨m, h1, h2⟩ := ih
        simp only at h2
        refine ⟨m, ?_, ?_⟩ <;> simp only [Tree.update]
        · split
          · exact h1
          · split
            · exact h1
            · split
              · simpa only [Node.nodes_update] using h1
              · exact h1
        · split
          · exact h2
          · split
            · simpa using h2
            · split
              · exact h2
              · simp only; split
                · simpa using h2
                · exact h2

/-- C100, what holds: a vector made by `new`, `unit`, `from_iter`, `push_back`, `push_front`, `extend` and `update` holds at
most one node for every 32 elements.  Missing from C100: the calls that take elements away, for which no bound holds
(`c100_no_bound`), and `concat`, for which see `c100_joined_partial`. -/
theorem c100_grown_partial {v : PV α} (h : Grown v) : v.nodes ≤ v.len / 32 := by
  have := h.dense
  obtain ⟨inner, len, g⟩ := v
  cases inner with
  | inline es => exact Nat.zero_le _
  | tree t =>
    obtain ⟨m, h1, h2⟩ := this
    simp only at h2
    simp only [nodes]; omega

/-- A vector that grew at both ends. -/
example : Grown (((fromIter (List.range 200)).pushFront 7).pushBack 8 : PV Nat) :=
  .pushBack 8 (.pushFront 7 (.fromIter _))

/-- The bound is reached: 128 collected elements hold two leaves and a root, and 129 pushed ones as well. -/
example : (fromIter (List.range 128) : PV Nat).nodes = 3 ∧ (new.extend (List.range 129) : PV Nat).nodes = 3 := by
  decide +kernel

/-- C100, call by call, for any vectors: writing an element keeps the number of nodes, no call that takes elements away
adds a node, pushing adds at most two, and joining at most six and one for every level by which the recorded heights
differ. -/
theorem c100_calls_partial {v w : PV α} (hv : Reach v) (hw : Reach w) (i : Nat) (x : α) :
    (v.update i x).nodes = v.nodes ∧ (v.pushBack x).nodes ≤ v.nodes + 2 ∧ (v.pushFront x).nodes ≤ v.nodes + 2 ∧
    (∀ u y, v.popBack = some (u, y) → u.nodes ≤ v.nodes) ∧ (∀ u y, v.popFront = some (u, y) → u.nodes ≤ v.nodes) ∧
    (v.splitAt i).1.nodes ≤ v.nodes ∧ (v.splitAt i).2.nodes ≤ v.nodes ∧
    (v.take i).nodes ≤ v.nodes ∧ (v.skip i).nodes ≤ v.nodes ∧
    (v.concat w).nodes ≤ v.nodes + w.nodes + 6 + (Heap.rootHeight v - Heap.rootHeight w) +
      (Heap.rootHeight w - Heap.rootHeight v) := by
  have hx := hv.lax
  have hy := hw.lax
  obtain ⟨inner, len, g⟩ := v
  obtain ⟨inner', len', g'⟩ := w
  have hsplit : (splitAt ⟨inner, len, g⟩ i).1.nodes ≤ nodes ⟨inner, len, g⟩ ∧
      (splitAt ⟨inner, len, g⟩ i).2.nodes ≤ nodes ⟨inner, len, g⟩ := by
    simp only [splitAt]
    split
    · exact ⟨Nat.le_refl _, Nat.zero_le _⟩
    · split
      · exact ⟨Nat.zero_le _, Nat.le_refl _⟩
      · cases inner with
        | inline es => exact ⟨Nat.le_refl _, Nat.le_refl _⟩
        | tree t => exact Tree.splitAt_nodes t i
  have hpush : ∀ es : List α, es.length ≤ 64 → ((Tree.fromElements es).pushBack x).root.nodes ≤ 0 + 2 ∧
      ((Tree.fromElements es).pushFront x).root.nodes ≤ 0 + 2 := by
    intro es h
    simp [Tree.fromElements, LEAF_CAPACITY, h, Tree.pushBack, Tree.pushFront, Node.nodes]
  refine ⟨?_, ?_, ?_, ?_, ?_, hsplit.1, hsplit.2, ?_, ?_, ?_⟩
  · simp only [update]
    split
    · rfl
    · cases inner with
      | inline es => rfl
      | tree t => exact Tree.update_nodes t i x
  · cases inner with
    | inline es =>
      simp only [pushBack]
      split
      · exact Nat.zero_le _
      · simp only [transitionToTree, treePushBack, nodes]
        exact (hpush es hx.2).1
    | tree t => exact (Tree.push_nodes t x).1
  · cases inner with
    | inline es =>
      simp only [pushFront]
      split
      · exact Nat.zero_le _
      · simp only [transitionToTree, treePushFront, nodes]
        exact (hpush es hx.2).2
    | tree t => exact (Tree.push_nodes t x).2
  · intro u y h
    simp only [popBack] at h
    split at h
    · cases h
    · cases inner with
      | inline es =>
        simp only at h
        split at h
        · injection h with h; injection h with h _; rw [← h]; exact Nat.le_refl _
        · cases h
      | tree t =>
        simp only at h
        cases e : t.popBack with
        | none => rw [e] at h; cases h
        | some p =>
          rw [e] at h
          injection h with h; injection h with h _; rw [← h]
          exact Tree.popBack_nodes t p.1 p.2 e
  · intro u y h
    simp only [popFront] at h
    split at h
    · cases h
    · cases inner with
      | inline es =>
        simp only at h
        split at h
        · injection h with h; injection h with h _; rw [← h]; exact Nat.le_refl _
        · cases h
      | tree t =>
        simp only at h
        cases e : t.popFront with
        | none => rw [e] at h; cases h
        | some p =>
          rw [e] at h
          injection h with h; injection h with h _; rw [← h]
          exact Tree.popFront_nodes t p.1 p.2 e
  · simp only [take]
    split
    · exact Nat.le_refl _
    · exact hsplit.1
  · simp only [skip]
    split
    · exact Nat.zero_le _
    · exact hsplit.2
  · cases inner with
    | inline es =>
      have h1 := Tree.fromElements_small es hx.2
      cases inner' with
      | inline fs =>
        have h2 := c100_grown_partial (Grown.fromIter (es ++ fs))
        have h3 : (fromIter (es ++ fs)).len = es.length + fs.length := by
          simp only [fromIter]; split <;> simp
        have h4 : es.length ≤ 64 := hx.2
        have h5 : fs.length ≤ 64 := hy.2
        have h6 : (fromIter (es ++ fs)).nodes ≤ 6 := by omega
        simp only [concat]
        omega
      | tree u =>
        have := Tree.concat_nodes (Tree.fromElements es) u
        rw [h1.1, h1.2] at this
        simp only [concat, nodes, Heap.rootHeight]; omega
    | tree t =>
      cases inner' with
      | inline fs =>
        have h2 := Tree.fromElements_small fs hy.2
        have := Tree.concat_nodes t (Tree.fromElements fs)
        rw [h2.1, h2.2] at this
        simp only [concat, nodes, Heap.rootHeight]; omega
      | tree u =>
        have := Tree.concat_nodes t u
        simp only [concat, nodes, Heap.rootHeight]; omega

/-- The hypotheses are met by a vector and one of its parts. -/
example : Reach (fromIter (List.range 200)) ∧ Reach ((fromIter (List.range 200)).take 150) :=
  ⟨.fromIter _, .take _ (.fromIter _)⟩

end PV

namespace Heap

/-- C89, what fails, in the strongest form: for no length is there a bound on the nodes that an `update` takes. -/
theorem c89_no_bound (k b : Nat) : ∃ (prog : List (Instr Unit)) (j : Nat), (Instr.ver (PVec.run [] prog) j).len = k + 1 ∧
    (run [] [] prog).1.length + b < (step (run [] [] prog).1 (run [] [] prog).2 (.update j 0 ())).1.length := by
  obtain ⟨h1, h2⟩ := PV.deep_spec k b
  have ver2 : ∀ xs ys : List Unit, Instr.ver (PVec.run [] [.extend 0 xs, .take 0 1, .extend 1 ys]) 2 =
      ((PV.new.extend xs).take 1).extend ys := fun _ _ => rfl
  obtain ⟨prog, e⟩ : ∃ prog, Instr.ver (PVec.run [] prog) 2 = PV.deep k b := ⟨_, ver2 _ _⟩
  refine ⟨prog, 2, by rw [e, h1], ?_⟩
  rw [c89_update_cells prog 2 0 () (by rw [e, h1]; omega), e]
  have := h2.visits
  omega

end Heap
end Rustica.PVec
