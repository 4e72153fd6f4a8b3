import Verif.PVec.Theorems.Ends
import Verif.PVec.Theorems.Cost

/-!
# Queues of more than 64 elements, exactly (C97)
-/

namespace Rustica.PVec
namespace PV

variable {α : Type}

theorem FullLeaves.pushLeaf {n : Node α} (h : FullLeaves n) {es : List α} (he : es ≠ []) : FullLeaves (n.pushLeaf (.leaf es)) := by
  have hl : FullLeaves (.leaf es) := .leaf he
  have hone : ∀ s, FullLeaves (.branch [n, .leaf es] s) := fun s =>
    .branch (by simp) (by simpa using ⟨h, hl⟩)
  cases n with
  | leaf fs => exact hone _
  | branch cs s =>
    simp only [Node.pushLeaf]
    split
    · cases h with
      | branch _ hc =>
        refine .branch (by simp) fun d hd => ?_
        rcases List.mem_append.1 hd with hd | hd
        · exact hc d hd
        · rw [List.mem_singleton.1 hd]; exact hl
    · exact hone _

/-- A vector with no element in the head and none of its leaves empty. -/
def Ready (v : PV α) : Prop :=
  v.WF ∧ ∃ t, v.inner = .tree t ∧ t.head = [] ∧ FullLeaves t.root ∧ t.tail.length ≤ 64

theorem Ready.pushBack {v : PV α} (h : Ready v) (x : α) : Ready (v.pushBack x) := by
  obtain ⟨hw, t, ht, hh, hf, hl⟩ := h
  refine ⟨(pushBack_spec hw x).1, t.pushBack x, by simp [PV.pushBack, ht, treePushBack], ?_⟩
  unfold Tree.pushBack
  split
  · rename_i h1
    simp only [LEAF_CAPACITY] at h1
    exact ⟨hh, hf, by simp; omega⟩
  · rename_i h1
    have hne : t.tail ≠ [] := by intro e; simp [e, LEAF_CAPACITY] at h1
    have he : t.tail.isEmpty = false := by simpa using hne
    simp only [Tree.pushTailToTree, he, Bool.false_eq_true, if_false]
    exact ⟨hh, hf.pushLeaf hne, by simp⟩

/-- One `pop_front` while there is an element in the tree. -/
theorem Ready.popFront {v : PV α} (h : Ready v) : ∃ w x, v.popFront = some (w, x) ∧ w.WF ∧ v.abs = x :: w.abs ∧
    ∃ t t', v.inner = .tree t ∧ w.inner = .tree t' ∧ t'.head = [] ∧ t'.tail = t.tail ∧ t.root.flat = x :: t'.root.flat ∧
      (t'.root.flat = [] ∨ Ready w) := by
  obtain ⟨hw, t, ht, hh, hf, hl⟩ := h
  unfold WF at hw
  rw [ht] at hw
  obtain ⟨hwf, hlen⟩ := hw
  have hsz := hwf.len
  rw [hh] at hsz
  simp only [List.length_nil, Nat.zero_add] at hsz
  have hpos : t.root.flat.length > 0 := List.length_pos_iff.2 hf.flat_ne
  rcases Node.popFront_spec t.root hwf.sized with ⟨_, n', x, hpn, hsn, hfn⟩ | ⟨hbad, _⟩
  · have hW : (⟨.tree { t with root := n', len := t.len - 1 }, v.len - 1, v.generation + 1⟩ : PV α).WF := by
      refine ⟨⟨hsn, ?_⟩, by simp [hlen]⟩
      simp [hh]; rw [hfn] at hsz; simp at hsz; omega
    refine ⟨⟨.tree { t with root := n', len := t.len - 1 }, v.len - 1, v.generation + 1⟩, x, ?_, hW, ?_,
      t, _, ht, rfl, hh, rfl, hfn, ?_⟩
    · simp [PV.popFront, isEmpty, hlen, show t.len ≠ 0 by omega, ht, Tree.popFront, hh, Tree.popFrontFromTree,
        hwf.treeSize, hpos, hpn]
    · simp [abs, ht, Tree.toList, hh, hfn]
    · rcases hf.popFront hwf.sized _ _ hpn with h | h
      · exact .inl h
      · exact .inr ⟨hW, _, rfl, hh, h, hl⟩
  · exact absurd hbad hf.firstLeaf_ne

/-! ## Filling a queue -/

theorem play_pushes (xs : List α) (ms : List (Move α)) : ∀ v : PV α, play (xs.map .pushBack ++ ms) v = play ms (v.extend xs) := by
  induction xs with
  | nil => intro v; rfl
  | cons x xs ih => intro v; exact ih _

theorem playList_pushes (xs : List α) (ms : List (Move α)) : ∀ l : List α,
    playList (xs.map .pushBack ++ ms) l = playList ms (l ++ xs) := by
  induction xs with
  | nil => intro l; simp
  | cons x xs ih => intro l; simp only [List.map_cons, List.cons_append, playList]; rw [ih]; simp

theorem ready_extend {v : PV α} (h : Ready v) (xs : List α) : Ready (v.extend xs) := by
  induction xs generalizing v with
  | nil => exact h
  | cons x xs ih => exact ih (h.pushBack x)

theorem ready_new (xs : List α) (h : 64 < xs.length) : Ready (new.extend xs) := by
  have hsplit : xs = xs.take 64 ++ ([xs[64]] ++ xs.drop 65) := by
    conv_lhs => rw [← List.take_append_drop 64 xs]
    rw [List.drop_eq_getElem_cons h]; rfl
  have hlen : (xs.take 64).length = 64 := by simp; omega
  obtain ⟨g, hg⟩ := extend_small (xs.take 64) (by omega)
  rw [hsplit, extend_append, extend_append]
  refine ready_extend ⟨(extend_spec (extend_spec wf_new _).1 _).1, ?_⟩ _
  rw [hg]
  simp only [PV.extend, List.foldl_cons, List.foldl_nil, PV.pushBack, ADAPTIVE_INLINE_SIZE]
  rw [if_neg (by omega)]
  simp only [transitionToTree, treePushBack, Tree.fromElements, LEAF_CAPACITY]
  rw [if_pos (by omega)]
  refine ⟨_, rfl, ?_⟩
  simp only [Tree.pushBack, LEAF_CAPACITY, List.length_nil]
  rw [if_pos (by omega)]
  refine ⟨rfl, .leaf ?_, by simp⟩
  intro h0; rw [h0] at hlen; simp at hlen

/-! ## Draining it -/

/-- The elements of the tree come out in order. -/
theorem drain_tree : ∀ (k : Nat) (v : PV α) (t : Tree α), v.inner = .tree t → Ready v → t.root.flat.length = k →
    ∃ w t', w.inner = .tree t' ∧ w.WF ∧ t'.head = [] ∧ t'.root.flat = [] ∧ t'.tail = t.tail ∧
      ∀ ms, play (List.replicate k .popFront ++ ms) v = (t.root.flat.map some ++ (play ms w).1, (play ms w).2) := by
  intro k
  induction k with
  | zero =>
    intro v t ht h hk
    obtain ⟨_, t0, ht0, _, hf, _⟩ := h
    rw [ht] at ht0; cases ht0
    exact absurd (List.length_eq_zero_iff.1 hk) hf.flat_ne
  | succ k ih =>
    intro v t ht h hk
    obtain ⟨w, x, hp, hww, _, t0, t1, ht0, ht1, hh1, htl, hfl, hr⟩ := h.popFront
    rw [ht] at ht0; cases ht0
    have hstep : ∀ ms, play (List.replicate (k + 1) .popFront ++ ms) v =
        (some x :: (play (List.replicate k .popFront ++ ms) w).1, (play (List.replicate k .popFront ++ ms) w).2) := by
      intro ms; rw [List.replicate_succ, List.cons_append, play, hp]
    rw [hfl] at hk
    simp only [List.length_cons, Nat.add_right_cancel_iff] at hk
    rcases hr with hr | hr
    · rw [hr] at hk
      simp only [List.length_nil] at hk
      subst hk
      exact ⟨w, t1, ht1, hww, hh1, hr, htl, fun ms => by rw [hstep, hfl, hr]; rfl⟩
    · obtain ⟨u, t2, h1, h2, h3, h4, h5, h6⟩ := ih w t1 ht1 hr hk
      exact ⟨u, t2, h1, h2, h3, h4, h5.trans htl, fun ms => by rw [hstep, h6, hfl]; rfl⟩

theorem drain_front : ∀ (l : List α) (v : PV α), FrontOnly v → v.abs = l →
    (play (List.replicate l.length .popFront) v).1 = l.map some ∧
    FrontOnly (play (List.replicate l.length .popFront) v).2 ∧ (play (List.replicate l.length .popFront) v).2.abs = [] := by
  intro l
  induction l with
  | nil => intro v h e; exact ⟨rfl, h, e⟩
  | cons x l ih =>
    intro v h e
    rcases h.popFront with ⟨h1, _⟩ | ⟨w, y, h1, h2, h3⟩
    · rw [h1] at e; cases e
    · rw [h3] at e
      simp only [List.cons.injEq] at e
      obtain ⟨rfl, e⟩ := e
      obtain ⟨k1, k2, k3⟩ := ih w h2 e
      simp only [List.length_cons, List.replicate_succ, play, h1]
      exact ⟨by rw [k1]; rfl, k2, k3⟩

/-- What comes out of a vector of which no leaf is empty: the elements of the tree, the first of the tail, and the rest of the
tail backwards. -/
theorem drain_ready {v : PV α} {t : Tree α} (ht : v.inner = .tree t) (h : Ready v) :
    (play (List.replicate v.abs.length .popFront) v).1 =
      (t.root.flat ++ t.tail.take 1 ++ (t.tail.drop 1).reverse).map some ∧
    (play (List.replicate v.abs.length .popFront) v).2.Shows [] := by
  obtain ⟨w, t1, h1, h2, h3, h4, h5, h6⟩ := drain_tree _ v t ht h rfl
  have habs : v.abs = t.root.flat ++ t.tail := by
    obtain ⟨_, t0, ht0, hh, _⟩ := h
    rw [ht] at ht0; cases ht0
    simp [abs, ht, Tree.toList, hh]
  rw [habs, List.length_append, ← List.replicate_append_replicate, h6]
  have h2' := h2
  unfold WF at h2'
  rw [h1] at h2'
  obtain ⟨hwf, hlen⟩ := h2'
  have hsz := hwf.len
  simp only [h3, h4, h5, List.length_nil, Nat.zero_add] at hsz
  cases htl : t.tail with
  | nil =>
    simp only [List.length_nil, List.replicate_zero, play, List.take_nil, List.drop_nil, List.reverse_nil, List.append_nil, true_and]
    have : w.abs = [] := by simp [abs, h1, Tree.toList, h3, h4, h5, htl]
    rw [← this]; exact shows_of_wf h2
  | cons a rest =>
    rw [htl] at hsz h5
    simp only [List.length_cons] at hsz
    have hts : t1.treeSize = 0 := by rw [hwf.treeSize, h4]; rfl
    have hp : w.popFront = some (⟨.tree ⟨.leaf [], [], rest.reverse, 0, t1.len - 1⟩, w.len - 1, w.generation + 1⟩, a) := by
      simp [PV.popFront, isEmpty, hlen, show t1.len ≠ 0 by omega, h1, Tree.popFront, h3, Tree.popFrontFromTree, hts,
        Tree.popFrontFromTail, h5]
    have hfo : FrontOnly (⟨.tree ⟨.leaf [], [], rest.reverse, 0, t1.len - 1⟩, w.len - 1, w.generation + 1⟩ : PV α) := by
      refine ⟨⟨⟨by simp, by simp; omega⟩, by simp [hlen]⟩, ?_⟩
      intro u hu; simp only [VectorImpl.tree.injEq] at hu; subst hu; exact ⟨rfl, .leaf⟩
    obtain ⟨k1, k2, k3⟩ := drain_front rest.reverse _ hfo (by simp [abs, Tree.toList])
    rw [List.length_reverse] at k1 k2 k3
    simp only [List.length_cons, List.replicate_succ, play, hp]
    refine ⟨?_, ?_⟩
    · rw [k1]; simp
    · have hs := shows_of_wf k2.1
      rw [k3] at hs; exact hs

/-- C97, what a queue of more than 64 elements gives back, exactly: filled with `push_back` and drained with `pop_front`, it returns
the elements of the full leaves and one more in order, and the rest of the tail backwards. -/
theorem c97_drain_exact (xs : List α) (h : 64 < xs.length) :
    (play (xs.map .pushBack ++ List.replicate xs.length .popFront) PV.new).1 =
      (xs.take (64 * ((xs.length - 1) / 64) + 1) ++ (xs.drop (64 * ((xs.length - 1) / 64) + 1)).reverse).map some := by
  obtain ⟨t, ht, hh, hl, hvl, hn, htl, _⟩ := pushed_new xs h
  have hr := ready_new xs h
  obtain ⟨hw, habs⟩ := extend_spec (wf_new (α := α)) xs
  have habs' : (new.extend xs : PV α).abs = xs := by rw [habs]; rfl
  have hfl : t.root.flat ++ t.tail = xs := by
    rw [← habs']; simp [abs, ht, Tree.toList, hh]
  have hd := (drain_ready ht hr).1
  rw [habs'] at hd
  rw [play_pushes, hd]
  have hlen : t.root.flat.length = 64 * ((xs.length - 1) / 64) := by
    have := congrArg List.length hfl
    simp only [List.length_append] at this; omega
  congr 1
  rw [← hlen]
  conv_rhs => rw [← hfl]
  rw [List.take_append, List.drop_append]
  simp [List.take_of_length_le]

/-- Meets the hypothesis: 67 elements; the last two come out in the wrong order. -/
example : (play ((List.range 67).map .pushBack ++ List.replicate 67 .popFront) PV.new).1 =
    (List.range 65 ++ [66, 65]).map some := by
  rw [show List.replicate 67 Move.popFront = List.replicate (List.range 67).length (Move.popFront (α := Nat)) by simp,
    c97_drain_exact _ (by simp)]
  decide +kernel

theorem playList_pops : ∀ l : List α, playList (List.replicate l.length .popFront) l = (l.map some, []) := by
  intro l
  induction l with
  | nil => rfl
  | cons x l ih => simp [List.replicate_succ, playList, ih]

/-- C97, exactly which filled queues are drained in the right order: those that never left the inline array, and those whose tail
reads the same backwards behind its first element (for different elements: that has at most two, as `(n - 1) % 64 ≤ 1`). -/
theorem c97_drain_iff (xs : List α) :
    PlaysRight (xs.map .pushBack ++ List.replicate xs.length .popFront) PV.new [] ↔
      xs.length ≤ 64 ∨ (xs.drop (64 * ((xs.length - 1) / 64) + 1)).reverse = xs.drop (64 * ((xs.length - 1) / 64) + 1) := by
  by_cases h : xs.length ≤ 64
  · simp only [h, true_or, iff_true]
    refine c97_small_partial _ ?_
    have hpop : ∀ (k : Nat) (l : List α), NeverOver 64 (List.replicate k .popFront) l := by
      intro k
      induction k with
      | zero => intro l; trivial
      | succ k ih => intro l; exact ih _
    have hpush : ∀ (ys l : List α), l.length + ys.length ≤ 64 →
        NeverOver 64 (ys.map .pushBack ++ List.replicate xs.length .popFront) l := by
      intro ys
      induction ys with
      | nil => intro l _; exact hpop _ _
      | cons y ys ih =>
        intro l hl
        simp only [List.length_cons] at hl
        exact ⟨by omega, ih _ (by simp; omega)⟩
    exact hpush xs [] (by simpa using h)
  · have h' : 64 < xs.length := by omega
    have hs : (play (xs.map .pushBack ++ List.replicate xs.length .popFront) PV.new).2.Shows ([] : List α) := by
      obtain ⟨t, ht, _⟩ := pushed_new xs h'
      obtain ⟨hw, habs⟩ := extend_spec (wf_new (α := α)) xs
      have habs' : (new.extend xs : PV α).abs = xs := by rw [habs]; rfl
      have hd := (drain_ready ht (ready_new xs h')).2
      rw [habs'] at hd
      rw [play_pushes]; exact hd
    have hl : playList (xs.map .pushBack ++ List.replicate xs.length .popFront) [] = (xs.map some, []) := by
      rw [playList_pushes, List.nil_append, playList_pops]
    unfold PlaysRight
    rw [hl, c97_drain_exact xs h']
    simp only [h, false_or, hs, and_true]
    constructor
    · intro e
      have e' := (List.map_inj_right (fun _ _ h => Option.some.inj h)).1 e
      conv_rhs at e' => rw [← List.take_append_drop (64 * ((xs.length - 1) / 64) + 1) xs]
      exact List.append_cancel_left e'
    · intro e
      rw [e, List.take_append_drop]

/-! ## Queues that stay long -/

/-- The list never has fewer than `n` elements after a call. -/
def NeverUnder (n : Nat) : List (Move α) → List α → Prop
  | [], _ => True
  | .pushFront x :: ms, l => n ≤ l.length + 1 ∧ NeverUnder n ms (x :: l)
  | .pushBack x :: ms, l => n ≤ l.length + 1 ∧ NeverUnder n ms (l ++ [x])
  | .popFront :: ms, l => n ≤ l.tail.length ∧ NeverUnder n ms l.tail
  | .popBack :: ms, l => n ≤ l.dropLast.length ∧ NeverUnder n ms l.dropLast

/-- A queue of this shape does what it does on a list for as long as it has more than 64 elements. -/
theorem Ready.queue : ∀ (ms : List (Move α)) (v : PV α), (∀ m ∈ ms, m.isQueue = true) → Ready v → NeverUnder 65 ms v.abs →
    PlaysRight ms v v.abs := by
  intro ms
  induction ms with
  | nil => intro v _ hv _; exact ⟨rfl, shows_of_wf hv.1⟩
  | cons m ms ih =>
    intro v hm hv hu
    have hrest : ∀ m ∈ ms, m.isQueue = true := fun m hm' => hm m (by simp [hm'])
    cases m with
    | pushBack x =>
      have h2 := (pushBack_spec hv.1 x).2
      have := ih _ hrest (hv.pushBack x) (by rw [h2]; exact hu.2)
      rw [h2] at this
      exact this
    | popFront =>
      obtain ⟨w, x, h1, h2, h3, t, t', ht, ht', hh', htl, hfl, hr⟩ := hv.popFront
      have hu' := hu
      rw [h3] at hu'
      simp only [NeverUnder, List.tail_cons] at hu'
      have hrw : Ready w := by
        refine hr.resolve_left fun h0 => ?_
        obtain ⟨_, t0, ht0, _, _, hl⟩ := hv
        rw [ht] at ht0; cases ht0
        have : w.abs = t.tail := by simp [abs, ht', Tree.toList, hh', h0, htl]
        rw [this] at hu'; omega
      have := ih w hrest hrw hu'.2
      unfold PlaysRight at *
      rw [h3]
      simp [play, playList, h1, this]
    | pushFront x => have := hm (.pushFront x) (by simp); cases this
    | popBack => have := hm .popBack (by simp); cases this

/-- C97, long queues: filled with more than 64 elements, a queue does what it does on a list for as long as it has more than 64
elements after each call.  Missing: fewer elements, where it fails (`c97_long_queue_false`, `c97_drain_iff`). -/
theorem c97_long_queue_partial (xs : List α) (h : 64 < xs.length) (ms : List (Move α)) (hq : ∀ m ∈ ms, m.isQueue = true)
    (hu : NeverUnder 65 ms xs) : PlaysRight (xs.map .pushBack ++ ms) PV.new [] := by
  have habs : (new.extend xs : PV α).abs = xs := by rw [(extend_spec (wf_new (α := α)) xs).2]; rfl
  have := Ready.queue ms (new.extend xs) hq (ready_new xs h) (by rw [habs]; exact hu)
  unfold PlaysRight at *
  rw [play_pushes, playList_pushes, List.nil_append]
  rw [habs] at this
  exact this

/-- Meets the hypotheses: 70 elements in, five times one out and one in. -/
example : NeverUnder 65 ((List.range 5).flatMap fun i => [Move.popFront, .pushBack i]) (List.range 70) := by
  simp [NeverUnder, List.range_succ]

/-- The bound is sharp: a queue of 128 elements of which 64 are taken has 64 left, all of them in the tail; after two more
elements it returns the first of these and has lost the 64 before them. -/
theorem c97_long_queue_false : ¬ ∀ (xs : List Nat) (ms : List (Move Nat)), 64 < xs.length → (∀ m ∈ ms, m.isQueue = true) →
    NeverUnder 64 ms xs → PlaysRight (xs.map .pushBack ++ ms) PV.new [] := by
  intro h
  have hu : ∀ (k : Nat) (l : List Nat), 64 + k ≤ l.length →
      NeverUnder 64 (List.replicate k .popFront ++ [.pushBack 1, .pushBack 2, .popFront]) l := by
    intro k
    induction k with
    | zero => intro l hl; exact ⟨by omega, by simp; omega, by simp; omega, trivial⟩
    | succ k ih =>
      intro l hl
      exact ⟨by simp; omega, ih _ (by simp; omega)⟩
  have h1 := (h (List.range 128) (List.replicate 64 .popFront ++ [.pushBack 1, .pushBack 2, .popFront]) (by simp) (by
    intro m hm
    simp only [List.mem_append, List.mem_replicate, List.mem_cons, List.not_mem_nil, or_false] at hm
    rcases hm with ⟨_, rfl⟩ | rfl | rfl | rfl <;> rfl) (hu 64 _ (by simp))).1
  revert h1
  decide +kernel

/-! ## Queues that start from a collected vector -/

theorem ready_fromIter (xs : List α) (h : 64 < xs.length) : Ready (fromIter xs) ∧ ∃ t, (fromIter xs).inner = .tree t ∧
    t.tail = xs.drop (64 * (xs.length / 64)) ∧ t.root.flat = xs.take (64 * (xs.length / 64)) := by
  have hi : (fromIter xs).inner = .tree (Tree.fromElements xs) := by
    simp [fromIter, ADAPTIVE_INLINE_SIZE, show ¬ xs.length ≤ 64 by omega]
  obtain ⟨_, hl, _, hh⟩ := Tree.fromElements_spec xs
  rcases Tree.fromElements_shape xs with ⟨h1, _⟩ | ⟨_, hb, ht⟩
  · simp only [LEAF_CAPACITY] at h1; omega
  · rw [show xs.length / LEAF_CAPACITY * LEAF_CAPACITY = 64 * (xs.length / 64) from Nat.mul_comm _ _] at ht
    refine ⟨⟨(fromIter_spec xs).1, _, hi, hh, Bal.full hb, ?_⟩, _, hi, ht, ?_⟩
    · rw [ht, List.length_drop]; omega
    · simp only [Tree.toList, hh, List.nil_append, ht] at hl
      have : (Tree.fromElements xs).root.flat ++ xs.drop (64 * (xs.length / 64)) =
          xs.take (64 * (xs.length / 64)) ++ xs.drop (64 * (xs.length / 64)) := by rw [hl, List.take_append_drop]
      exact List.append_cancel_right this

/-- C97, what a collected vector gives back at the front, exactly: the elements of the full leaves and one more in order, and the
rest backwards. -/
theorem c97_collected_exact (xs : List α) (h : 64 < xs.length) :
    (play (List.replicate xs.length .popFront) (fromIter xs)).1 =
      (xs.take (64 * (xs.length / 64) + 1) ++ (xs.drop (64 * (xs.length / 64) + 1)).reverse).map some ∧
    (play (List.replicate xs.length .popFront) (fromIter xs)).2.Shows [] := by
  obtain ⟨hr, t, ht, htl, hfl⟩ := ready_fromIter xs h
  have hd := drain_ready ht hr
  rw [(fromIter_spec xs).2.1, htl, hfl] at hd
  refine ⟨?_, hd.2⟩
  rw [hd.1, List.take_add, List.drop_drop]

/-- Meets the hypothesis: 67 elements; the last two come out in the wrong order. -/
example : (play (List.replicate 67 .popFront) (fromIter (List.range 67))).1 = (List.range 65 ++ [66, 65]).map some := by
  rw [show List.replicate 67 Move.popFront = List.replicate (List.range 67).length (Move.popFront (α := Nat)) by simp,
    (c97_collected_exact _ (by simp)).1]
  decide +kernel

/-- C97, exactly which collected vectors are drained in the right order at the front: those of at most 64 elements, and those whose
tail reads the same backwards behind its first element (for different elements: `n % 64 ≤ 2`). -/
theorem c97_collected_iff (xs : List α) :
    PlaysRight (List.replicate xs.length .popFront) (fromIter xs) xs ↔
      xs.length ≤ 64 ∨ (xs.drop (64 * (xs.length / 64) + 1)).reverse = xs.drop (64 * (xs.length / 64) + 1) := by
  unfold PlaysRight
  rw [playList_pops]
  by_cases h : xs.length ≤ 64
  · simp only [h, true_or, iff_true]
    have hi : (fromIter xs).inner = .inline xs := by simp [fromIter, ADAPTIVE_INLINE_SIZE, h]
    obtain ⟨h1, h2, h3⟩ := drain_front xs (fromIter xs) ⟨(fromIter_spec xs).1, by rw [hi]; intro t ht; cases ht⟩ (fromIter_spec xs).2.1
    have := shows_of_wf h2.1
    rw [h3] at this
    exact ⟨h1, this⟩
  · obtain ⟨h1, h2⟩ := c97_collected_exact xs (by omega)
    rw [h1]
    simp only [h, false_or, h2, and_true]
    constructor
    · intro e
      have e' := (List.map_inj_right (fun _ _ h => Option.some.inj h)).1 e
      conv_rhs at e' => rw [← List.take_append_drop (64 * (xs.length / 64) + 1) xs]
      exact List.append_cancel_left e'
    · intro e
      rw [e, List.take_append_drop]

/-- C97, long queues that start from a collected vector.  Missing: fewer elements, where they fail (`c97_collected_iff`). -/
theorem c97_collected_queue_partial (xs : List α) (h : 64 < xs.length) (ms : List (Move α)) (hq : ∀ m ∈ ms, m.isQueue = true)
    (hu : NeverUnder 65 ms xs) : PlaysRight ms (fromIter xs) xs := by
  have := Ready.queue ms (fromIter xs) hq (ready_fromIter xs h).1 (by rw [(fromIter_spec xs).2.1]; exact hu)
  rwa [(fromIter_spec xs).2.1] at this

/-- Meets the hypotheses: 70 elements collected, five times one out and one in. -/
example : PlaysRight ((List.range 5).flatMap fun i => [Move.popFront, .pushBack i]) (fromIter (List.range 70)) (List.range 70) :=
  c97_collected_queue_partial _ (by simp) _ (by simp [Move.isQueue]; rintro m x _ (rfl | rfl) <;> rfl) (by simp [NeverUnder, List.range_succ])

/-! ## The other direction -/

theorem play_pushFronts (xs : List α) (ms : List (Move α)) : ∀ v : PV α,
    play (xs.map .pushFront ++ ms) v = play ms (xs.foldl PV.pushFront v) := by
  induction xs with
  | nil => intro v; rfl
  | cons x xs ih => intro v; exact ih _

/-- `pop_back` finds nothing where the tail is empty and the head is not, whatever is in the tree. -/
theorem popBack_none {v : PV α} (h : v.WF) {t : Tree α} (ht : v.inner = .tree t) (hh : t.head ≠ []) (htl : t.tail = []) :
    v.popBack = none := by
  unfold WF at h
  rw [ht] at h
  obtain ⟨hwf, hlen⟩ := h
  have hsz := hwf.len
  have hp : 0 < t.head.length := List.length_pos_iff.2 hh
  rw [htl] at hsz
  simp only [List.length_nil, Nat.add_zero] at hsz
  have hg : t.root.get (t.len - 1) = none := by
    rw [Node.get_eq _ hwf.sized, List.getElem?_eq_none]; omega
  simp [PV.popBack, isEmpty, hlen, show t.len ≠ 0 by omega, ht, Tree.popBack, htl, Tree.popFromTree, hg]

/-- A vector with elements in the head and none in the tail. -/
def HeadOnly (v : PV α) : Prop := v.WF ∧ ∃ t, v.inner = .tree t ∧ t.head ≠ [] ∧ t.tail = []

theorem HeadOnly.pushFront {v : PV α} (h : HeadOnly v) (x : α) : HeadOnly (v.pushFront x) := by
  obtain ⟨hw, t, ht, hh, htl⟩ := h
  refine ⟨(pushFront_spec hw x).1, t.pushFront x, by simp [PV.pushFront, ht, treePushFront], ?_⟩
  unfold Tree.pushFront
  split
  · exact ⟨by simp, htl⟩
  · refine ⟨by simp, ?_⟩
    unfold Tree.pushHeadToTree
    split <;> exact htl

theorem headOnly_front (xs : List α) : ∀ v : PV α, HeadOnly v → HeadOnly (xs.foldl PV.pushFront v) := by
  induction xs with
  | nil => intro v h; exact h
  | cons x xs ih => intro v h; exact ih _ (h.pushFront x)

theorem inline_front (xs : List α) : ∀ (es : List α) (g : Nat), es.length ≤ 64 → 64 < es.length + xs.length →
    HeadOnly (xs.foldl PV.pushFront ⟨.inline es, es.length, g⟩) := by
  induction xs with
  | nil => intro es g h1 h2; simp at h2; omega
  | cons x xs ih =>
    intro es g h1 h2
    simp only [List.length_cons] at h2
    by_cases h : es.length < 64
    · have e : PV.pushFront ⟨.inline es, es.length, g⟩ x = ⟨.inline (x :: es), (x :: es).length, g + 1⟩ := by
        simp [PV.pushFront, ADAPTIVE_INLINE_SIZE, h]
      rw [List.foldl_cons, e]
      exact ih _ _ (by simp; omega) (by simp; omega)
    · have hw : (⟨.inline es, es.length, g⟩ : PV α).WF := ⟨rfl, h1⟩
      refine headOnly_front xs _ ⟨(pushFront_spec hw x).1, ?_⟩
      simp only [PV.pushFront, ADAPTIVE_INLINE_SIZE, if_neg h, transitionToTree, treePushFront, Tree.fromElements, LEAF_CAPACITY,
        if_pos h1, Tree.pushFront, List.length_nil]
      exact ⟨_, rfl, by simp, by simp⟩

/-- C97, the other direction, exactly: a queue filled with more than 64 elements at the front gives nothing back at the back. -/
theorem c97_reverse_queue_exact (xs : List α) (h : 64 < xs.length) (k : Nat) :
    (play (xs.map .pushFront ++ List.replicate k .popBack) PV.new).1 = List.replicate k none := by
  obtain ⟨hw, t, ht, hh, htl⟩ : HeadOnly (xs.foldl PV.pushFront (PV.new : PV α)) := inline_front xs [] 0 (by simp) (by simpa using h)
  have hp := popBack_none hw ht hh htl
  rw [play_pushFronts]
  induction k with
  | zero => rfl
  | succ k ih => rw [List.replicate_succ, play, hp]; simp only [ih]; rfl

/-- Meets the hypothesis: 66 elements. -/
example : 64 < (List.range 66).length := by simp

end PV
end Rustica.PVec
