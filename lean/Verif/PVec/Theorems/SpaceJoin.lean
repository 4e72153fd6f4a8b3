import Verif.PVec.Theorems.Space
import Verif.PVec.Theorems.Levels
import Mathlib.Tactic.Ring

/-!
# How many nodes a vector holds that was made by pushing and joining (C100)

No call takes an element away here.  Joining a vector with one element lifts that element to the recorded height of the
tree (tree.rs:334-354), by one branch for every level, and these branches stay when the last path of the tree is shorter
than its first.  So the nodes are not in proportion to the length: they grow with its square, and no faster.
-/

namespace Rustica.PVec

variable {α : Type}

namespace PV

/-- Vectors that only ever grew, by `concat` as well: made without a call that takes elements away. -/
inductive Joined : PV α → Prop where
  | new : Joined PV.new
  | unit (x : α) : Joined (PV.unit x)
  | fromIter (xs : List α) : Joined (PV.fromIter xs)
  | pushBack {v : PV α} (x : α) : Joined v → Joined (v.pushBack x)
  | pushFront {v : PV α} (x : α) : Joined v → Joined (v.pushFront x)
  | extend {v : PV α} (xs : List α) : Joined v → Joined (v.extend xs)
  | update {v : PV α} (i : Nat) (x : α) : Joined v → Joined (v.update i x)
  | concat {v w : PV α} : Joined v → Joined w → Joined (v.concat w)

theorem Joined.reach {v : PV α} (h : Joined v) : Reach v := by
  induction h with
  | new => exact .new
  | unit x => exact .unit x
  | fromIter xs => exact .fromIter xs
  | pushBack x _ ih => exact .pushBack x ih
  | pushFront x _ ih => exact .pushFront x ih
  | extend xs _ ih => exact .extend xs ih
  | update i x _ ih => exact .update i x ih
  | concat _ _ ih1 ih2 => exact .concat ih1 ih2

/-- A vector that was joined and pushed to. -/
example : Reach (((fromIter (List.range 200)).concat (unit 7)).pushBack 8 : PV Nat) :=
  (Joined.pushBack 8 (.concat (.fromIter _) (.unit _))).reach

/-- A tree of recorded height `H` without head and tail buffers. -/
def Bare (H n l : Nat) (v : PV α) : Prop :=
  ∃ t, v.inner = .tree t ∧ t.head = [] ∧ t.tail = [] ∧ t.height = H ∧ t.len = l ∧ v.len = l ∧ n ≤ t.root.nodes

theorem elevateRoot_one (k : Nat) : ∀ n : Node α, ∃ c s, Tree.elevateRoot (k + 1) n = .branch [c] s ∧
    c = Tree.elevateRoot k n := by
  induction k with
  | zero => intro n; exact ⟨_, _, rfl, rfl⟩
  | succ k ih =>
    intro n
    obtain ⟨c, s, h1, h2⟩ := ih (.branch [n] (some [n.calculateSize]))
    exact ⟨c, s, h1, h2⟩

/-- Appending a leaf puts it last. -/
theorem pushLeaf_last (n : Node α) (es : List α) : ∃ cs s, n.pushLeaf (.leaf es) = .branch (cs ++ [.leaf es]) s ∧
    n.nodes ≤ Node.nodesL cs + 1 := by
  cases n with
  | leaf fs => exact ⟨[.leaf fs], _, rfl, by simp [Node.nodes, Node.nodesL]⟩
  | branch cs s =>
    simp only [Node.pushLeaf]
    split
    · exact ⟨cs, _, rfl, by simp [Node.nodes]⟩
    · exact ⟨[.branch cs s], _, rfl, by simp [Node.nodes, Node.nodesL]⟩

theorem concatLast_last (cs : List (Node α)) (l r : Node α) :
    Tree.concatLast (cs ++ [l]) r = some (Tree.concatNodes l r) := by
  induction cs with
  | nil => rfl
  | cons c cs ih =>
    cases cs with
    | nil => rfl
    | cons c' cs => exact ih

/-- Pushing an element and joining with another one adds a node for every level. -/
theorem Bare.step {H n l : Nat} {v : PV α} (h : Bare (H + 2) n l v) (h0 : 0 < l) (x y : α) :
    Bare (H + 2) (n + (H + 3)) (l + 2) ((v.pushBack x).concat (unit y)) := by
  obtain ⟨t, hv, hh, ht, hH, hl, hvl, hn⟩ := h
  have e : v.pushBack x =
      { inner := .tree (t.pushBack x), len := v.len + 1, generation := v.generation + 1 } := by
    simp only [PV.pushBack, hv, treePushBack]
  rw [e]
  have e2 : t.pushBack x = { t with tail := [x], len := t.len + 1 } := by
    simp [Tree.pushBack, ht, LEAF_CAPACITY]
  have e3 : Tree.fromElements [y] = ⟨.leaf [y], [], [], 0, 1⟩ := by simp [Tree.fromElements, LEAF_CAPACITY]
  obtain ⟨c, s, h1, h2⟩ := elevateRoot_one (H + 1) (Node.leaf [y])
  obtain ⟨c', s', h3, h4⟩ := elevateRoot_one H (Node.leaf [y])
  obtain ⟨cs, u, h5, h6⟩ := pushLeaf_last t.root [x]
  simp only [PV.concat, unit, e2, e3]
  refine ⟨_, rfl, ?_⟩
  simp only [Tree.concat, hH, hl]
  rw [if_neg (by omega), if_neg (by omega), if_neg (by omega), if_neg (by omega)]
  simp only [Tree.concatDifferentHeight, if_true, Tree.concatSameHeight, Tree.elevateTree, Tree.pushTailToTree, hh,
    List.isEmpty_cons, List.isEmpty_nil, Bool.not_false, Bool.not_true, if_true, Bool.false_eq_true, if_false]
  refine ⟨trivial, trivial, by omega, trivial, by omega, ?_⟩
  rw [show H + 2 - 0 = H + 1 + 1 from rfl, h1, h5, h2, h3, h4]
  have h7 := Node.nodes_elevate H (Node.leaf [y])
  simp only [Tree.concatNodes, concatLast_last, Node.makeRelaxed, Node.nodes, Node.nodesL, Node.nodesL_append,
    List.dropLast_concat, Option.toList_some, List.drop_succ_cons, List.drop_nil] at h7 ⊢
  omega

/-- Joining with one element leaves no tail. -/
theorem bare_start (xs : List α) (h : 64 < xs.length) (hd : 2 ≤ ((xs.length - 1) / 64 + 29) / 31) (y : α) :
    Bare (((xs.length - 1) / 64 + 29) / 31) 0 (xs.length + 1) ((new.extend xs).concat (unit y)) := by
  have hh := heightOk_extend xs (new : PV α) (by simp [HeightOk, new])
  obtain ⟨t, hv, ht, hl, hvl, hn, htl, hr⟩ := spined_new xs h
  simp only [HeightOk, hv] at hh
  have hH : t.height = ((xs.length - 1) / 64 + 29) / 31 := by
    rcases hr with ⟨hL, es, he, hes⟩ | ⟨d, k, hs, hL⟩
    · omega
    · have hp := hs.pos
      rw [hh, hs.height]
      omega
  have e3 : Tree.fromElements [y] = ⟨.leaf [y], [], [], 0, 1⟩ := by simp [Tree.fromElements, LEAF_CAPACITY]
  simp only [PV.concat, unit, hv, e3]
  refine ⟨_, rfl, ?_⟩
  simp only [Tree.concat, hH, hl]
  rw [if_neg (by omega), if_neg (by omega), if_neg (by omega), if_neg (by omega)]
  simp only [Tree.concatDifferentHeight, if_true, Tree.concatSameHeight, Tree.elevateTree, Tree.pushTailToTree,
    List.isEmpty_nil, Bool.not_true, Bool.false_eq_true, if_false]
  refine ⟨?_, trivial, by omega, by omega, by omega, Nat.zero_le _⟩
  split
  · split <;> exact ht
  · exact ht

/-- Push `xs`, join with one element, and then `k` times push an element and join with one. -/
def joining (d : Nat) : Nat → PV Unit
  | 0 => (new.extend (List.replicate (1984 * (d + 2)) ())).concat (unit ())
  | k + 1 => ((joining d k).pushBack ()).concat (unit ())

theorem joined_joining (d k : Nat) : Joined (joining d k) := by
  induction k with
  | zero => exact .concat (.extend _ .new) (.unit _)
  | succ k ih => exact .concat (.pushBack _ ih) (.unit _)

theorem bare_joining (d k : Nat) : Bare (d + 2) (k * (d + 3)) (1984 * (d + 2) + 1 + 2 * k) (joining d k) := by
  induction k with
  | zero =>
    have hl : (List.replicate (1984 * (d + 2)) ()).length = 1984 * (d + 2) := by simp
    have := bare_start (List.replicate (1984 * (d + 2)) ()) (by omega) (by omega) ()
    rw [hl] at this
    rw [show ((1984 * (d + 2) - 1) / 64 + 29) / 31 = d + 2 by omega] at this
    simpa [joining] using this
  | succ k ih =>
    have := ih.step (by omega) () ()
    rw [show (k + 1) * (d + 3) = k * (d + 3) + (d + 3) from Nat.succ_mul _ _,
      show 1984 * (d + 2) + 1 + 2 * (k + 1) = 1984 * (d + 2) + 1 + 2 * k + 2 by omega]
    exact this

theorem joining_spec (d k : Nat) : (joining d k).len = 1984 * (d + 2) + 1 + 2 * k ∧
    k * (d + 3) ≤ (joining d k).nodes := by
  obtain ⟨t, hv, _, _, _, _, hl, hn⟩ := bare_joining d k
  refine ⟨hl, ?_⟩
  simp only [nodes, hv]
  exact hn

/-- C100 is false of vectors made without taking elements away, too: there are vectors, made by pushing elements and
joining with single ones, that hold more than `a` nodes for every element. -/
theorem c100_joined_no_bound (a b : Nat) : ∃ v : PV Unit, Joined v ∧ a * v.len + b < v.nodes := by
  obtain ⟨k, hk⟩ : ∃ k, k = a * (1984 * (2 * a + 2) + 1) + b + 1 := ⟨_, rfl⟩
  obtain ⟨h1, h2⟩ := joining_spec (2 * a) k
  have h3 : a * (joining (2 * a) k).len + b < k * (2 * a + 3) := by
    rw [h1, Nat.mul_add, Nat.mul_add k, show a * (2 * k) = k * (2 * a) by
      rw [← Nat.mul_assoc, Nat.mul_comm, Nat.mul_comm a 2]]
    omega
  exact ⟨_, joined_joining (2 * a) k, Nat.lt_of_lt_of_le h3 h2⟩

/-- C100, how far from true for such vectors: there are vectors of any length and more that hold one node for every
16000 pairs of elements. -/
theorem c100_joined_square (n : Nat) : ∃ v : PV Unit, Joined v ∧ n ≤ v.len ∧ v.len * v.len ≤ 16000 * v.nodes := by
  obtain ⟨k, hk⟩ : ∃ k, k = 992 * (n + 2) := ⟨_, rfl⟩
  obtain ⟨h1, h2⟩ := joining_spec n k
  have h3 : (joining n k).len = 3968 * (n + 2) + 1 := by omega
  have h4 : (3968 * (n + 2) + 1) * (3968 * (n + 2) + 1) ≤ 16000 * (k * (n + 3)) := by
    obtain ⟨m, hm⟩ : ∃ m, m = n + 2 := ⟨_, rfl⟩
    rw [hk, show n + 3 = m + 1 by omega, ← hm]
    rw [show (3968 * m + 1) * (3968 * m + 1) = 15745024 * (m * m) + 7936 * m + 1 by ring,
      show 16000 * (992 * m * (m + 1)) = 15872000 * (m * m) + 15872000 * m by ring]
    omega
  rw [← h3] at h4
  exact ⟨_, joined_joining n k, by omega, Nat.le_trans h4 (Nat.mul_le_mul_left 16000 h2)⟩

/-- Height, depth and nodes of a vector that only grew. -/
def Low (v : PV α) : Prop :=
  match v.inner with
  | .inline es => es.length = v.len ∧ es.length ≤ 64
  | .tree t => t.len = v.len ∧ t.height + 2 ≤ 2 * t.len ∧ t.root.depth + 2 ≤ 2 * t.len ∧
      t.root.nodes ≤ 3 * (t.len * t.len)

/-- The part of `Low` about trees. -/
def LowTree (t : Tree α) : Prop :=
  t.height + 2 ≤ 2 * t.len ∧ t.root.depth + 2 ≤ 2 * t.len ∧ t.root.nodes ≤ 3 * (t.len * t.len)

theorem square_succ (l : Nat) : (l + 1) * (l + 1) = l * l + 2 * l + 1 := by
  rw [Nat.add_mul, Nat.mul_add]; omega

theorem LowTree.pushBack {t : Tree α} (h : LowTree t) (x : α) : LowTree (t.pushBack x) ∧
    (t.pushBack x).len = t.len + 1 := by
  obtain ⟨h1, h2, h3⟩ := h
  have hn := (Tree.push_nodes t x).1
  have hd := (Tree.pushTail_depth t).1
  have hc := Tree.calculateHeight_le t.pushTailToTree.root
  have hs := square_succ t.len
  revert hn
  simp only [Tree.pushBack]
  split
  · intro hn
    refine ⟨⟨?_, ?_, ?_⟩, rfl⟩ <;> simp only at hn ⊢ <;> omega
  · intro hn
    have e : t.pushTailToTree.len = t.len ∧ (t.pushTailToTree.height = t.height ∨
        t.pushTailToTree.height = Tree.calculateHeight t.pushTailToTree.root) := by
      simp only [Tree.pushTailToTree]; split
      · exact ⟨rfl, .inl rfl⟩
      · exact ⟨rfl, .inr rfl⟩
    obtain ⟨e1, e2⟩ := e
    simp only [LowTree, e1]
    simp only at hn
    refine ⟨⟨?_, ?_, ?_⟩, trivial⟩ <;> omega

theorem LowTree.pushFront {t : Tree α} (h : LowTree t) (x : α) : LowTree (t.pushFront x) ∧
    (t.pushFront x).len = t.len + 1 := by
  obtain ⟨h1, h2, h3⟩ := h
  have hn := (Tree.push_nodes t x).2
  have hd := (Tree.pushHead_depth t).1
  have hc := Tree.calculateHeight_le t.pushHeadToTree.root
  have hs := square_succ t.len
  revert hn
  simp only [Tree.pushFront]
  split
  · intro hn
    refine ⟨⟨?_, ?_, ?_⟩, rfl⟩ <;> simp only at hn ⊢ <;> omega
  · intro hn
    have e : t.pushHeadToTree.len = t.len ∧ (t.pushHeadToTree.height = t.height ∨
        t.pushHeadToTree.height = Tree.calculateHeight t.pushHeadToTree.root) := by
      simp only [Tree.pushHeadToTree]; split
      · exact ⟨rfl, .inl rfl⟩
      · exact ⟨rfl, .inr rfl⟩
    obtain ⟨e1, e2⟩ := e
    simp only [LowTree, e1]
    simp only at hn
    refine ⟨⟨?_, ?_, ?_⟩, trivial⟩ <;> omega

theorem square_add (a b : Nat) (ha : 0 < a) (hb : 0 < b) :
    a * a + b * b + 2 * a ≤ (a + b) * (a + b) ∧ a * a + b * b + 2 * b ≤ (a + b) * (a + b) := by
  rw [Nat.add_mul, Nat.mul_add, Nat.mul_add, Nat.mul_comm b a]
  have h1 : a ≤ a * b := Nat.le_mul_of_pos_right a hb
  have h2 : b ≤ a * b := Nat.le_mul_of_pos_left b ha
  omega

theorem LowTree.concat {a b : Tree α} (ha : LowTree a ∨ a.len = 0) (hb : LowTree b ∨ b.len = 0)
    (h : 0 < a.len + b.len) : LowTree (a.concat b) ∧ (a.concat b).len = a.len + b.len := by
  have hn := Tree.concat_nodes a b
  revert hn
  simp only [Tree.concat]
  split
  · rename_i h0
    intro _
    rcases hb with hb | hb
    · exact ⟨hb, by omega⟩
    · omega
  · rename_i h0
    split
    · rename_i h1
      intro _
      rcases ha with ha | ha
      · exact ⟨ha, by omega⟩
      · omega
    · rename_i h1
      have ha := ha.resolve_right h0
      have hb := hb.resolve_right h1
      obtain ⟨a1, a2, a3⟩ := ha
      obtain ⟨b1, b2, b3⟩ := hb
      have hsq := square_add a.len b.len (by omega) (by omega)
      split
      · intro hn
        obtain ⟨c1, c2, _, _⟩ := Tree.concatSame_depth a b
        refine ⟨⟨?_, ?_, ?_⟩, rfl⟩
        · rw [c2]; simp only [Tree.concatSameHeight]; omega
        · refine Nat.le_trans (Nat.add_le_add_right c1 2) ?_
          simp only [Tree.concatSameHeight]; omega
        · refine Nat.le_trans hn ?_
          simp only [Tree.concatSameHeight]; omega
      · split
        · simp only [Tree.concatDifferentHeight, Bool.false_eq_true, if_false]
          intro hn
          obtain ⟨c1, c2, _, _⟩ := Tree.concatSame_depth (b.elevateTree a.height) a
          have el : ((b.elevateTree a.height).concatSameHeight a).len = a.len + b.len := by
            simp only [Tree.concatSameHeight, Tree.elevateTree]; omega
          simp only [LowTree, el]
          simp only [Tree.elevateTree, Tree.elevateRoot_depth] at c1 c2
          simp only [Tree.elevateTree] at hn ⊢
          refine ⟨⟨?_, ?_, ?_⟩, trivial⟩
          · rw [c2]; omega
          · omega
          · omega
        · simp only [Tree.concatDifferentHeight, if_true]
          intro hn
          obtain ⟨c1, c2, _, _⟩ := Tree.concatSame_depth a (b.elevateTree a.height)
          have el : (a.concatSameHeight (b.elevateTree a.height)).len = a.len + b.len := by
            simp only [Tree.concatSameHeight, Tree.elevateTree]
          simp only [LowTree, el]
          simp only [Tree.elevateTree, Tree.elevateRoot_depth] at c1 c2
          simp only [Tree.elevateTree] at hn ⊢
          refine ⟨⟨?_, ?_, ?_⟩, trivial⟩
          · rw [c2]; omega
          · omega
          · omega

/-- Two trees that meet the hypotheses. -/
example : LowTree (Tree.fromElements [1, 2, 3]) ∧ 0 < (Tree.fromElements [1, 2, 3]).len + (Tree.fromElements [4]).len := by
  simp [LowTree, Tree.fromElements, LEAF_CAPACITY, Node.nodes]

theorem lowTree_small (es : List α) (h : es.length ≤ 64) :
    (LowTree (Tree.fromElements es) ∨ (Tree.fromElements es).len = 0) ∧ (Tree.fromElements es).len = es.length := by
  simp only [Tree.fromElements, LEAF_CAPACITY, h, if_true]
  refine ⟨?_, trivial⟩
  cases es with
  | nil => exact .inr rfl
  | cons e es =>
    refine .inl ⟨?_, ?_, ?_⟩ <;> simp only [List.length_cons]
    · omega
    · simp
    · have := square_succ es.length
      simp only [Node.nodes]; omega

/-- Three elements meet the hypothesis. -/
example : [1, 2, 3].length ≤ 64 := by decide

theorem low_fromIter (xs : List α) : Low (fromIter xs) := by
  have hn := c100_grown_partial (Grown.fromIter xs)
  simp only [fromIter, ADAPTIVE_INLINE_SIZE] at hn ⊢
  by_cases h : xs.length ≤ 64
  · rw [if_pos h]; exact ⟨rfl, h⟩
  · rw [if_neg h] at hn ⊢
    have hp : ∀ n : Nat, n ≤ 64 * 32 ^ n := by
      intro n
      have := Nat.lt_pow_self (n := n) (a := 32) (by decide)
      omega
    obtain ⟨h1, h2⟩ := Tree.fromElements_levels xs xs.length (hp _)
    have hl : (Tree.fromElements xs).len = xs.length := by
      simp only [Tree.fromElements, Tree.buildTreeWithTail]
      split
      · rfl
      · split <;> rfl
    simp only [nodes] at hn
    have : xs.length ≤ xs.length * xs.length := Nat.le_mul_self _
    refine ⟨hl, ?_, ?_, ?_⟩ <;> rw [hl] <;> omega

theorem Low.push {v : PV α} (h : Low v) (x : α) : Low (v.pushBack x) ∧ Low (v.pushFront x) := by
  obtain ⟨inner, len, g⟩ := v
  cases inner with
  | inline es =>
    obtain ⟨h1, h2⟩ := h
    simp only at h1
    simp only [PV.pushBack, PV.pushFront, ADAPTIVE_INLINE_SIZE]
    by_cases hlt : es.length < 64
    · rw [if_pos hlt, if_pos hlt]
      exact ⟨⟨by simp; omega, by simp; omega⟩, ⟨by simp; omega, by simp; omega⟩⟩
    · rw [if_neg hlt, if_neg hlt]
      obtain ⟨h3, h4⟩ := lowTree_small es h2
      have h3 := h3.resolve_right (by omega)
      simp only [transitionToTree, treePushBack, treePushFront, Low]
      exact ⟨⟨by rw [(h3.pushBack x).2]; omega, (h3.pushBack x).1⟩,
        ⟨by rw [(h3.pushFront x).2]; omega, (h3.pushFront x).1⟩⟩
  | tree t =>
    obtain ⟨h1, h2⟩ := h
    have h2 : LowTree t := h2
    simp only [PV.pushBack, PV.pushFront, treePushBack, treePushFront, Low]
    exact ⟨⟨by rw [(h2.pushBack x).2, h1], (h2.pushBack x).1⟩, ⟨by rw [(h2.pushFront x).2, h1], (h2.pushFront x).1⟩⟩

theorem Low.extend (xs : List α) : ∀ {v : PV α}, Low v → Low (v.extend xs) := by
  induction xs with
  | nil => intro v h; exact h
  | cons x xs ih => intro v h; exact ih (h.push x).1

theorem Low.update {v : PV α} (h : Low v) (i : Nat) (x : α) : Low (v.update i x) := by
  obtain ⟨inner, len, g⟩ := v
  simp only [PV.update]
  split
  · exact h
  · cases inner with
    | inline es => exact ⟨by simpa using h.1, by simpa using h.2⟩
    | tree t =>
      obtain ⟨h1, h2, h3, h4⟩ := h
      have e : (t.update i x).len = t.len ∧ (t.update i x).height = t.height ∧
          (t.update i x).root.depth = t.root.depth := by
        simp only [Tree.update]
        split
        · exact ⟨rfl, rfl, rfl⟩
        · split
          · exact ⟨rfl, rfl, rfl⟩
          · split
            · exact ⟨rfl, rfl, update_depth _ _ _⟩
            · exact ⟨rfl, rfl, rfl⟩
      have e4 := Tree.update_nodes t i x
      simp only [Low, e.1, e.2.1, e.2.2, e4]
      exact ⟨h1, h2, h3, h4⟩

theorem Low.concat {v w : PV α} (hv : Low v) (hw : Low w) : Low (v.concat w) := by
  obtain ⟨inner, len, g⟩ := v
  obtain ⟨inner', len', g'⟩ := w
  cases inner with
  | inline es =>
    obtain ⟨a1, a2⟩ := hv
    simp only at a1
    cases inner' with
    | inline fs => exact low_fromIter _
    | tree u =>
      obtain ⟨b1, b2⟩ := hw
      have b2 : LowTree u := b2
      obtain ⟨c1, c2⟩ := lowTree_small es a2
      obtain ⟨h1, h2⟩ := LowTree.concat c1 (.inl b2) (by have := b2.1; omega)
      simp only at b1
      exact ⟨by rw [h2]; simp only [PV.concat]; omega, h1⟩
  | tree t =>
    obtain ⟨a1, a2⟩ := hv
    have a2 : LowTree t := a2
    simp only at a1
    cases inner' with
    | inline fs =>
      obtain ⟨b1, b2⟩ := hw
      simp only at b1
      obtain ⟨c1, c2⟩ := lowTree_small fs b2
      obtain ⟨h1, h2⟩ := LowTree.concat (.inl a2) c1 (by have := a2.1; omega)
      exact ⟨by rw [h2]; simp only [PV.concat]; omega, h1⟩
    | tree u =>
      obtain ⟨b1, b2⟩ := hw
      have b2 : LowTree u := b2
      simp only at b1
      obtain ⟨h1, h2⟩ := LowTree.concat (.inl a2) (.inl b2) (by have := a2.1; omega)
      exact ⟨by rw [h2]; simp only [PV.concat]; omega, h1⟩

theorem Joined.low {v : PV α} (h : Joined v) : Low v := by
  induction h with
  | new => exact ⟨rfl, by simp⟩
  | unit x => exact ⟨rfl, by simp⟩
  | fromIter xs => exact low_fromIter xs
  | pushBack x _ ih => exact (ih.push x).1
  | pushFront x _ ih => exact (ih.push x).2
  | extend xs _ ih => exact ih.extend xs
  | update i x _ ih => exact ih.update i x
  | concat _ _ ih1 ih2 => exact ih1.concat ih2

/-- C100, what holds of vectors made without taking elements away, `concat` included: the nodes are at most three times
the square of the length.  Missing from C100: a bound in proportion to the length, which is false
(`c100_joined_no_bound`); the square is needed (`c100_joined_square`). -/
theorem c100_joined_partial {v : PV α} (h : Joined v) : v.nodes ≤ 3 * (v.len * v.len) := by
  have := h.low
  obtain ⟨inner, len, g⟩ := v
  cases inner with
  | inline es => exact Nat.zero_le _
  | tree t =>
    obtain ⟨h1, h2, h3, h4⟩ := this
    simp only at h1
    rw [h1] at h4
    exact h4

/-- A vector that was joined and pushed to. -/
example : Joined (((fromIter (List.range 200)).concat (unit 7)).pushBack 8 : PV Nat) :=
  .pushBack 8 (.concat (.fromIter _) (.unit _))

/-- C59 for vectors made without taking elements away: a lookup reads fewer than `2 * len` nodes, where without this
condition no bound by the length holds (`c59_no_bound`).  Missing from C59: a logarithmic bound, false already of pushes
alone (`c59_log_false`). -/
theorem c59_joined_partial {v : PV α} (h : Joined v) (i : Nat) : v.visits i ≤ 2 * v.len - 1 := by
  have := h.low
  unfold visits
  cases e : v.inner with
  | inline es => simp
  | tree t =>
    simp only [Low, e] at this
    have h3 := Node.visits_le t.root (i - t.head.length) t.height
    simp only
    split <;> omega

/-- Meets the hypothesis. -/
example : Joined (((fromIter (List.range 200)).concat (unit 7)).pushBack 8 : PV Nat) :=
  .pushBack 8 (.concat (.fromIter _) (.unit _))

/-- C96 for vectors made without taking elements away: dropping nests fewer than `2 * len` calls, where without this
condition no bound by the length holds (`c96_no_bound`).  Missing from C96: a logarithmic bound (`c96_log_false`). -/
theorem c96_joined_partial {v : PV α} (h : Joined v) : (Frames.drop v).depth ≤ 2 * v.len - 1 := by
  have := h.low
  obtain ⟨inner, len, g⟩ := v
  cases inner with
  | inline es => simp [Frames.drop]
  | tree t =>
    have h1 := Frames.nodeDrop_depth_le t.root
    simp only [Low] at this
    simp only [Frames.drop]; omega

/-- Meets the hypothesis. -/
example : Joined (((fromIter (List.range 200)).pushFront 7).concat (fromIter (List.range 300)) : PV Nat) :=
  .concat (.pushFront 7 (.fromIter _)) (.fromIter _)

/-- C98 for vectors made without taking elements away: going through one reads at most `2 * len²` nodes, where without
this condition no bound by the length holds (`c98_no_bound`); the square is needed (`c98_push_back_quadratic`). -/
theorem c98_joined_partial {v : PV α} (h : Joined v) : v.readVisits ≤ 2 * (v.len * v.len) := by
  refine (readVisits_le fun i => c59_joined_partial h i).trans ?_
  refine (Nat.mul_le_mul_left v.len (Nat.sub_le (2 * v.len) 1)).trans (Nat.le_of_eq ?_)
  ring

/-- Meets the hypothesis. -/
example : Joined (((fromIter (List.range 200)).concat (unit 7)).extend (List.range 90) : PV Nat) :=
  .extend _ (.concat (.fromIter _) (.unit _))

end PV
end Rustica.PVec
