import Verif.PVec.Theorems.Levels
import Mathlib.Tactic.Linarith

/-!
# How many nodes it takes to read a whole vector (C98)

Every method that goes through the elements (`to_vec`, `map`, `filter`, folds, `==`, hashing, sorting, serialising…)
uses the iterator of iter.rs, which calls `get` once per position and so starts at the root each time.  The nodes read
are counted here by an instrumented copy of the loop.
-/

namespace Rustica.PVec

variable {α : Type}

namespace PV

/-- Nodes read by one call of `next` (iter.rs:29-37 / 50-58): those of its call of `get`. -/
def Iter.nextVisits (it : Iter α) : Nat :=
  if it.position < it.vector.len then it.vector.visits it.position else 0

/-- Nodes read by running an iterator until it returns `None` (`Iter.collect`, which bounds the calls by `fuel`). -/
def Iter.collectVisits : Nat → Iter α → Nat
  | 0, _ => 0
  | fuel + 1, it =>
    match it.next with
    | (some _, it') => it.nextVisits + Iter.collectVisits fuel it'
    | (none, _) => it.nextVisits

/-- Nodes read by going through the whole vector once (`items`). -/
def readVisits (v : PV α) : Nat := Iter.collectVisits (v.len + 1) v.iter

/-- Nodes read by looking up every position once. -/
def eachVisits (v : PV α) : Nat := ((List.range v.len).map v.visits).sum

theorem collectVisits_le (v : PV α) : ∀ fuel p, p ≤ v.len →
    Iter.collectVisits fuel ⟨v, p⟩ ≤ ((List.range' p (v.len - p)).map v.visits).sum := by
  intro fuel
  induction fuel with
  | zero => intro p _; simp [Iter.collectVisits]
  | succ fuel ih =>
    intro p hp
    simp only [Iter.collectVisits, Iter.next, Iter.nextVisits]
    by_cases h : p < v.len
    · rw [show v.len - p = (v.len - (p + 1)) + 1 by omega, List.range'_succ]
      simp only [h, if_true, List.map_cons, List.sum_cons]
      have := ih (p + 1) (by omega)
      cases v.get p <;> simp only <;> omega
    · simp [h]

theorem collectVisits_eq (v : PV α) (h : ∀ i, i < v.len → v.get i ≠ none) : ∀ fuel p, p ≤ v.len → v.len < p + fuel →
    Iter.collectVisits fuel ⟨v, p⟩ = ((List.range' p (v.len - p)).map v.visits).sum := by
  intro fuel
  induction fuel with
  | zero => intro p h1 h2; omega
  | succ fuel ih =>
    intro p hp hf
    simp only [Iter.collectVisits, Iter.next, Iter.nextVisits]
    by_cases hlt : p < v.len
    · rw [show v.len - p = (v.len - (p + 1)) + 1 by omega, List.range'_succ]
      simp only [hlt, if_true, List.map_cons, List.sum_cons]
      rw [← ih (p + 1) (by omega) (by omega)]
      obtain ⟨x, hx⟩ := Option.ne_none_iff_exists'.1 (h p hlt)
      simp [hx]
    · simp [hlt, show v.len - p = 0 by omega]

/-- C98, the iterator keeps nothing between two items: going through an intact vector reads as many nodes as looking
up each position by itself. -/
theorem c98_each {v : PV α} (h : Intact v) : v.readVisits = v.eachVisits := by
  unfold readVisits eachVisits iter
  rw [collectVisits_eq v _ (v.len + 1) 0 (by omega) (by omega), List.range_eq_range']
  · rfl
  · intro i hi
    rw [get_eq h.wf, List.getElem?_eq_getElem (by rw [h.wf.length]; exact hi)]
    simp

/-- The hypothesis is met by a collected vector of 200 elements with one pushed at each end. -/
example : Intact (((fromIter (List.range 200)).pushBack 7).pushFront 8) := by
  have := fromIter_spec (List.range 200)
  generalize fromIter (List.range 200) = v at this
  exact .pushFront _ (.pushBack _ (.mk this.1))

/-- On any vector it is at most that (a damaged one stops early). -/
theorem c98_each_le (v : PV α) : v.readVisits ≤ v.eachVisits := by
  have := collectVisits_le v (v.len + 1) 0 (by omega)
  rw [Nat.sub_zero, ← List.range_eq_range'] at this
  exact this

theorem sum_map_le (f : Nat → Nat) (b : Nat) (xs : List Nat) (h : ∀ x ∈ xs, f x ≤ b) :
    (xs.map f).sum ≤ xs.length * b := by
  induction xs with
  | nil => simp
  | cons x xs ih =>
    have h1 := h x (by simp)
    have h2 := ih fun y hy => h y (by simp [hy])
    simp only [List.map_cons, List.sum_cons, List.length_cons, Nat.succ_mul]
    omega

theorem readVisits_le {v : PV α} {b : Nat} (h : ∀ i, v.visits i ≤ b) : v.readVisits ≤ v.len * b := by
  refine (c98_each_le v).trans ?_
  have := sum_map_le v.visits b (List.range v.len) fun i _ => h i
  simpa [eachVisits] using this

/-- C98 by the calls that made the vector (see `Costs`): reading all of it takes at most `len * (1 + p / 1984)` nodes.
Missing from C98: `p` grows with every push, not with the logarithm of the length (see `c98_nlogn_false`). -/
theorem c98_calls_partial {p : Nat} {v : PV α} (h : Costs p v) : v.readVisits ≤ v.len * (1 + p / 1984) :=
  readVisits_le fun i => c59_calls_partial h i

/-- The hypothesis is met by 2000 collected elements with one pushed at each end. -/
example : Costs (1984 * 2 + 64 + 1 + 1) (((fromIter (List.range 2000)).pushFront 7).pushBack 8) :=
  .pushBack 8 (.pushFront 7 (.fromIter (List.range 2000) 1 (by simp)))

/-- C98 for vectors made in one go: `k + 1` nodes for each of at most `64 * 32^k` elements.  Missing from C98: pushes
and `concat` afterwards. -/
theorem c98_from_iter_partial (xs : List α) (k : Nat) (h : xs.length ≤ 64 * 32 ^ k) :
    (fromIter xs).readVisits ≤ xs.length * (k + 1) := by
  have hlen : (fromIter xs).len = xs.length := by
    have := (fromIter_spec xs)
    rw [← (this.1).length, this.2.1]
  rw [← hlen]
  refine readVisits_le fun i => ?_
  by_contra hc
  have := c59_from_iter_partial xs i k (by omega)
  omega

/-- The hypothesis is met with `k = 1` by 2000 elements. -/
example : (List.range 2000).length ≤ 64 * 32 ^ 1 := by simp

end PV

/-! ### What `push_back` builds -/

namespace Node

/-- Leaves of 64 elements. -/
def Full (ls : List (Node α)) : Prop := ∀ l ∈ ls, ∃ es, l = .leaf es ∧ es.length = 64

/-- The tree that pushed leaves build: `d` nested branches; the innermost holds full leaves only, each other one the
next branch, which has 32 children, and then full leaves; the outermost has `k` children. -/
inductive Spine : Nat → Nat → Node α → Prop where
  | base (ls : List (Node α)) : Full ls → 2 ≤ ls.length → ls.length ≤ 32 →
      Spine 1 ls.length (.branch ls (some (List.replicate ls.length 64)))
  | step (d : Nat) (c : Node α) (ls : List (Node α)) : Spine d 32 c → 1 ≤ d → Full ls → 1 ≤ ls.length → ls.length ≤ 31 →
      Spine (d + 1) (ls.length + 1)
        (.branch (c :: ls) (some (64 * (31 * (d - 1) + 32) :: List.replicate ls.length 64)))

theorem Spine.pos {d k : Nat} {n : Node α} (h : Spine d k n) : 1 ≤ d ∧ 2 ≤ k ∧ k ≤ 32 := by
  cases h with
  | base ls h1 h2 h3 => exact ⟨Nat.le_refl _, h2, h3⟩
  | step d c ls h1 h2 h3 h4 h5 => omega

theorem Spine.size {d k : Nat} {n : Node α} (h : Spine d k n) : n.calculateSize = 64 * (31 * (d - 1) + k) := by
  cases h with
  | base ls h1 h2 h3 => simp [calculateSize]; omega
  | step d c ls h1 h2 h3 h4 h5 => simp [calculateSize]; omega

theorem full_append {ls : List (Node α)} (h : Full ls) (es : List α) (he : es.length = 64) :
    Full (ls ++ [.leaf es]) := by
  intro l hl
  rcases List.mem_append.1 hl with hl | hl
  · exact h l hl
  · exact ⟨es, by simpa using hl, he⟩

theorem Spine.pushLeaf {d k : Nat} {n : Node α} (h : Spine d k n) (es : List α) (he : es.length = 64) :
    (k < 32 → Spine d (k + 1) (n.pushLeaf (.leaf es))) ∧ (¬ k < 32 → Spine (d + 1) 2 (n.pushLeaf (.leaf es))) := by
  have hp := h.pos
  have hs := h.size
  constructor
  · intro hk
    cases h with
    | base ls h1 h2 h3 =>
      simp only [Node.pushLeaf, BRANCHING_FACTOR, calculateSize, he]
      rw [if_pos hk, ← List.replicate_succ']
      have := Spine.base (ls ++ [.leaf es]) (full_append h1 es he) (by simp; omega) (by simp; omega)
      simpa using this
    | step d c ls h1 h2 h3 h4 h5 =>
      simp only [Node.pushLeaf, BRANCHING_FACTOR, List.length_cons, calculateSize, he]
      rw [if_pos hk, List.cons_append, List.cons_append, ← List.replicate_succ']
      have := Spine.step d c (ls ++ [.leaf es]) h1 h2 (full_append h3 es he) (by simp) (by simp; omega)
      simpa using this
  · intro hk
    have e : n.pushLeaf (.leaf es) = .branch [n, .leaf es] (some [64 * (31 * (d - 1) + 32), 64]) := by
      have h32 : k = 32 := by omega
      rw [h32] at hs
      rw [← hs]
      cases h with
      | base ls h1 h2 h3 =>
        simp only [Node.pushLeaf, BRANCHING_FACTOR]
        rw [if_neg hk]; simp only [calculateSize, he]
      | step d c ls h1 h2 h3 h4 h5 =>
        simp only [Node.pushLeaf, BRANCHING_FACTOR, List.length_cons]
        rw [if_neg hk]; simp only [calculateSize, he]
    rw [e]
    have h32 : k = 32 := by omega
    subst h32
    exact Spine.step d n [.leaf es] h hp.1 (by intro l hl; exact ⟨es, by simpa using hl, he⟩) (by simp) (by simp)

theorem scan_replicate (k : Nat) : ∀ i cum idx, cum ≤ idx → idx < cum + 64 * k →
    scanSizes (List.replicate k 64) i cum idx = some (i + (idx - cum) / 64, (idx - cum) % 64) := by
  induction k with
  | zero => intro i cum idx h1 h2; omega
  | succ k ih =>
    intro i cum idx h1 h2
    simp only [List.replicate_succ, scanSizes]
    by_cases h : idx < cum + 64
    · rw [if_pos h]; simp; omega
    · rw [if_neg h, ih _ _ _ (by omega) (by omega)]; simp; omega

theorem visitsL_full {ls : List (Node α)} (h : Full ls) : ∀ k i ht, k < ls.length → visitsL ls k i ht = 1 := by
  induction ls with
  | nil => intro k i ht hk; simp at hk
  | cons l ls ih =>
    intro k i ht hk
    cases k with
    | zero =>
      obtain ⟨es, he, _⟩ := h l (by simp)
      rw [visitsL, he, visits]
    | succ k =>
      rw [visitsL]
      exact ih (fun l hl => h l (by simp [hl])) k i ht (by simpa using hk)

theorem Spine.visits {d k : Nat} {n : Node α} (h : Spine d k n) : ∀ (i ht : Nat), i < 64 * (31 * (d - 1) + k) →
    visits n i ht = 1 + d - (i / 64 - 1) / 31 := by
  induction h with
  | base ls h1 h2 h3 =>
    intro i ht hi
    simp only [Node.visits]
    rw [scan_replicate _ _ _ _ (by omega) (by omega)]
    simp only
    rw [visitsL_full h1 _ _ _ (by omega)]
    omega
  | step d c ls h1 h2 h3 h4 h5 ih =>
    intro i ht hi
    simp only [Node.visits, scanSizes]
    by_cases hc : i < 0 + 64 * (31 * (d - 1) + 32)
    · rw [if_pos hc]
      simp only [visitsL, Nat.sub_zero]
      rw [Nat.zero_add] at hc
      rw [ih i (ht - 1) hc]
      omega
    · rw [if_neg hc, scan_replicate _ _ _ _ (by omega) (by omega)]
      simp only [Nat.zero_add, Nat.add_comm 1 _, visitsL]
      rw [visitsL_full h3 _ _ _ (by omega)]
      omega

end Node

namespace PV

/-- The tree of `l` pushed leaves. -/
def SpineRoot (l : Nat) (root : Node α) : Prop :=
  (l = 1 ∧ ∃ es, root = .leaf es ∧ es.length = 64) ∨ ∃ d k, Node.Spine d k root ∧ l = 31 * (d - 1) + k

/-- The shape of a vector built by `n > 64` calls of `push_back`, in full. -/
def Spined (n : Nat) (v : PV α) : Prop :=
  ∃ t, v.inner = .tree t ∧ t.head = [] ∧ t.len = n ∧ v.len = n ∧ 64 < n ∧ t.tail.length = (n - 1) % 64 + 1 ∧
    SpineRoot ((n - 1) / 64) t.root

theorem Spined.push {n : Nat} {v : PV α} (h : Spined n v) (x : α) : Spined (n + 1) (v.pushBack x) := by
  obtain ⟨t, hv, hh, hl, hvl, hn, ht, hr⟩ := h
  have e : v.pushBack x =
      { inner := .tree (t.pushBack x), len := v.len + 1, generation := v.generation + 1 } := by
    simp only [PV.pushBack, hv, treePushBack]
  rw [e]
  refine ⟨t.pushBack x, rfl, ?_⟩
  simp only [Tree.pushBack, LEAF_CAPACITY]
  by_cases hlt : t.tail.length < 64
  · rw [if_pos hlt]
    have hd : (n + 1 - 1) / 64 = (n - 1) / 64 := by omega
    refine ⟨hh, by simp [hl], by simp [hvl], by omega, by simp; omega, ?_⟩
    rw [hd]; exact hr
  · rw [if_neg hlt]
    have hd : (n + 1 - 1) / 64 = (n - 1) / 64 + 1 := by omega
    have hne : t.tail.isEmpty = false := by
      rw [List.isEmpty_eq_false_iff]; intro h0; rw [h0] at hlt; simp at hlt
    have h64 : t.tail.length = 64 := by omega
    simp only [Tree.pushTailToTree, hne, Bool.false_eq_true, if_false, List.nil_append]
    refine ⟨hh, by simp [hl], by simp [hvl], by omega, by simp; omega, Or.inr ?_⟩
    rw [hd]
    rcases hr with ⟨h1, es, he, hes⟩ | ⟨d, k, hc, hL⟩
    · refine ⟨1, 2, ?_, by omega⟩
      rw [he]
      simp only [Node.pushLeaf, Node.calculateSize, hes, h64]
      exact Node.Spine.base [.leaf es, .leaf t.tail] (by
        intro l hl
        simp only [List.mem_cons, List.not_mem_nil, or_false] at hl
        rcases hl with rfl | rfl
        · exact ⟨_, rfl, hes⟩
        · exact ⟨_, rfl, h64⟩) (by simp) (by simp)
    · have hp := hc.pos
      by_cases hk32 : k < 32
      · exact ⟨d, k + 1, (hc.pushLeaf _ h64).1 hk32, by omega⟩
      · exact ⟨d + 1, 2, (hc.pushLeaf _ h64).2 hk32, by omega⟩

theorem spined_extend (v : PV α) (n : Nat) (h : Spined n v) (xs : List α) :
    Spined (n + xs.length) (v.extend xs) := by
  induction xs generalizing v n with
  | nil => exact h
  | cons x xs ih =>
    have := ih _ _ (h.push x)
    simp only [PV.extend, List.foldl_cons, List.length_cons] at this ⊢
    rwa [show n + 1 + xs.length = n + (xs.length + 1) by omega] at this

theorem spined_new (xs : List α) (h : 64 < xs.length) : Spined xs.length (new.extend xs) := by
  have hsplit : xs = xs.take 64 ++ ([xs[64]] ++ xs.drop 65) := by
    conv_lhs => rw [← List.take_append_drop 64 xs]
    rw [List.drop_eq_getElem_cons h]; rfl
  have hlen : (xs.take 64).length = 64 := by simp; omega
  obtain ⟨g, hg⟩ := extend_small (xs.take 64) (by omega)
  have h65 : Spined 65 ((new.extend (xs.take 64)).extend [xs[64]] : PV α) := by
    rw [hg]
    simp only [PV.extend, List.foldl_cons, List.foldl_nil, PV.pushBack, ADAPTIVE_INLINE_SIZE]
    rw [if_neg (by omega)]
    simp only [transitionToTree, treePushBack, Tree.fromElements, LEAF_CAPACITY]
    rw [if_pos (by omega)]
    refine ⟨_, rfl, ?_⟩
    simp only [Tree.pushBack, LEAF_CAPACITY, List.length_nil]
    rw [if_pos (by omega)]
    exact ⟨rfl, by simp; omega, by simp; omega, by omega, by simp, Or.inl ⟨by omega, _, rfl, hlen⟩⟩
  have := spined_extend _ _ h65 (xs.drop 65)
  rw [← extend_append, ← extend_append, ← hsplit] at this
  have hd : (xs.drop 65).length = xs.length - 65 := by simp
  rw [hd, show 65 + (xs.length - 65) = xs.length by omega] at this
  exact this

/-- C59 and C98, every position of what `push_back` builds: with `l = (n - 1) / 64` leaves in the tree, the elements of
leaf `j` take `1 + (l + 29) / 31 - (j - 1) / 31` nodes (`0 - 1` being 0), those in the tail buffer none. -/
theorem c98_push_back_visits (xs : List α) (h : 64 < xs.length) (i : Nat) :
    (new.extend xs : PV α).visits i =
      if i / 64 < (xs.length - 1) / 64 then 1 + ((xs.length - 1) / 64 + 29) / 31 - (i / 64 - 1) / 31 else 0 := by
  obtain ⟨t, hv, hh, hl, hvl, hn, ht, hr⟩ := spined_new xs h
  have hts : t.treeSize = 64 * ((xs.length - 1) / 64) := by
    simp only [Tree.treeSize, hh, hl, ht, List.length_nil]; omega
  simp only [visits, hv, hh, List.length_nil, Nat.sub_zero, hl, hts]
  by_cases hi : i / 64 < (xs.length - 1) / 64
  · rw [if_pos ⟨by omega, by omega, by omega⟩, if_pos hi]
    rcases hr with ⟨h1, es, he, hes⟩ | ⟨d, k, hc, hL⟩
    · rw [he]; simp only [Node.visits]; omega
    · have hp := hc.pos
      rw [hc.visits _ _ (by omega), hL]
      omega
  · rw [if_neg (by omega), if_neg hi]

/-- The hypothesis is met by 5000 elements. -/
example : 64 < (List.range 5000).length := by simp

theorem sum_blocks (g : Nat → Nat) (l : Nat) :
    ((List.range (64 * l)).map fun i => g (i / 64)).sum = 64 * ((List.range l).map g).sum := by
  induction l with
  | zero => simp
  | succ l ih =>
    rw [Nat.mul_succ, List.range_add, List.map_append, List.sum_append, ih, List.range_succ (n := l),
      List.map_append, List.sum_append, List.map_map]
    have : ((List.range 64).map ((fun i => g (i / 64)) ∘ fun x => 64 * l + x)) = List.replicate 64 (g l) := by
      rw [List.eq_replicate_iff]
      refine ⟨by simp, fun b hb => ?_⟩
      obtain ⟨x, hx, rfl⟩ := List.mem_map.1 hb
      have : x < 64 := List.mem_range.1 hx
      simp only [Function.comp]
      congr 1
      omega
    rw [this, List.sum_replicate_nat, List.map_singleton, List.sum_singleton, Nat.mul_add]

theorem sum_zero (xs : List Nat) (h : ∀ x ∈ xs, x = 0) : xs.sum = 0 := by
  induction xs with
  | nil => rfl
  | cons x xs ih => rw [List.sum_cons, h x (by simp), ih fun y hy => h y (by simp [hy])]

/-- C98, exactly, for what `push_back` builds: `64` times the nodes above each of the `(n - 1) / 64` leaves. -/
theorem c98_push_back_exact (xs : List α) (h : 64 < xs.length) :
    (new.extend xs : PV α).readVisits = 64 * ((List.range ((xs.length - 1) / 64)).map fun j =>
      1 + ((xs.length - 1) / 64 + 29) / 31 - (j - 1) / 31).sum := by
  have hlen : (new.extend xs : PV α).len = xs.length := by
    obtain ⟨t, _, _, _, h, _⟩ := spined_new xs h
    exact h
  rw [c98_each (.extend xs (.mk wf_new)), eachVisits, hlen]
  rw [← sum_blocks]
  have hn : xs.length = 64 * ((xs.length - 1) / 64) + ((xs.length - 1) % 64 + 1) := by omega
  conv_lhs => rw [hn]
  rw [List.range_add, List.map_append, List.sum_append, List.map_map]
  have h0 : ((List.range ((xs.length - 1) % 64 + 1)).map
      ((new.extend xs : PV α).visits ∘ fun x => 64 * ((xs.length - 1) / 64) + x)).sum = 0 := by
    refine sum_zero _ fun b hb => ?_
    obtain ⟨x, _, rfl⟩ := List.mem_map.1 hb
    simp only [Function.comp]
    rw [c98_push_back_visits xs h, if_neg (by omega)]
  rw [h0, Nat.add_zero]
  congr 1
  refine List.map_congr_left fun i hi => ?_
  have := List.mem_range.1 hi
  rw [c98_push_back_visits xs h, if_pos (by omega)]

/-- The hypothesis is met by 70 elements; the 64 in the tree take one node each. -/
example : (new.extend (List.replicate 70 ()) : PV Unit).readVisits = 64 := by
  rw [c98_push_back_exact _ (by simp)]
  simp

theorem sum_down (l : Nat) : 2 * ((List.range l).map fun j => l - j).sum = l * (l + 1) := by
  induction l with
  | zero => simp
  | succ l ih =>
    rw [List.range_succ_eq_map, List.map_cons, List.sum_cons, List.map_map]
    have : (fun j => l + 1 - j) ∘ Nat.succ = fun j => l - j := by
      funext j; simp only [Function.comp]; omega
    rw [this, Nat.mul_add, ih]
    simp
    ring

theorem sum_scale (f g : Nat → Nat) (c : Nat) (xs : List Nat) (h : ∀ x ∈ xs, f x ≤ c * g x) :
    (xs.map f).sum ≤ c * (xs.map g).sum := by
  induction xs with
  | nil => simp
  | cons x xs ih =>
    have h1 := h x (by simp)
    have h2 := ih fun y hy => h y (by simp [hy])
    simp only [List.map_cons, List.sum_cons, Nat.mul_add]
    omega

/-- C98, from below: reading a vector of `n` pushed elements takes at least `(n - 64)² / 3968` nodes. -/
theorem c98_push_back_quadratic (xs : List α) (h : 64 < xs.length) :
    (xs.length - 64) * (xs.length - 64) ≤ 3968 * (new.extend xs : PV α).readVisits := by
  rw [c98_push_back_exact xs h]
  generalize hl : (xs.length - 1) / 64 = l
  have h1 := sum_scale (fun j => l - j) (fun j => 1 + (l + 29) / 31 - (j - 1) / 31) 31 (List.range l) (by
    intro j hj
    have := List.mem_range.1 hj
    omega)
  have h2 := sum_down l
  generalize ((List.range l).map fun j => l - j).sum = a at h1 h2
  generalize ((List.range l).map fun j => 1 + (l + 29) / 31 - (j - 1) / 31).sum = b at h1
  have h3 : xs.length - 64 ≤ 64 * l := by omega
  have h4 := Nat.mul_le_mul h3 h3
  refine h4.trans ?_
  nlinarith

/-- The hypothesis is met by 5000 elements. -/
example : (5000 - 64) * (5000 - 64) ≤ 3968 * (new.extend (List.range 5000) : PV Nat).readVisits := by
  have := c98_push_back_quadratic (List.range 5000) (by simp)
  simpa using this

/-- C98 is false of the code: no bound `len * (a * log2(len) + b)` holds for the nodes read by going through a
vector. -/
theorem c98_nlogn_false : ¬ ∃ a b : Nat, ∀ v : PV Unit, Reach v → v.readVisits ≤ v.len * (a * Nat.log2 v.len + b) := by
  rintro ⟨a, b, h⟩
  obtain ⟨m, hm⟩ := exp_beats (8 * a) (8 * b)
  have hb : 1 ≤ 2 ^ m := Nat.one_le_two_pow
  have hl : (List.replicate (2048 * 2 ^ m) ()).length = 2048 * 2 ^ m := by simp
  have h1 := c98_push_back_quadratic (List.replicate (2048 * 2 ^ m) ()) (by rw [hl]; omega)
  have h2 := h _ (Reach.extend (List.replicate (2048 * 2 ^ m) ()) Reach.new)
  have h3 : (new.extend (List.replicate (2048 * 2 ^ m) ()) : PV Unit).len = 2048 * 2 ^ m := by
    obtain ⟨t, _, _, _, h, _⟩ := pushed_new (List.replicate (2048 * 2 ^ m) ()) (by rw [hl]; omega)
    rw [h, hl]
  have h4 : Nat.log2 (2048 * 2 ^ m) = m + 11 := by
    rw [show 2048 * 2 ^ m = 2 ^ (m + 11) by rw [pow_add]; ring]
    exact Nat.log2_two_pow
  rw [h3, h4] at h2
  rw [hl] at h1
  generalize (new.extend (List.replicate (2048 * 2 ^ m) ()) : PV Unit).readVisits = r at h1 h2
  have h5 : 1024 * 2 ^ m ≤ 2048 * 2 ^ m - 64 := by omega
  have h6 := (Nat.mul_le_mul h5 h5).trans h1
  generalize 2 ^ m = p at *
  have hm' : 8 * (a * (m + 11) + b) < p := by
    have : 8 * a * (m + 11) + 8 * b = 8 * (a * (m + 11) + b) := by ring
    omega
  generalize a * (m + 11) + b = q at *
  have h7 : 2048 * p * q * 8 ≤ 2048 * p * p := by
    rw [Nat.mul_assoc (2048 * p)]
    exact Nat.mul_le_mul_left _ (by omega)
  nlinarith

end PV
end Rustica.PVec
