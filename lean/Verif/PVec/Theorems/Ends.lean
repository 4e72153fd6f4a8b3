import Verif.PVec.Theorems.Intact
import Verif.PVec.Theorems.Pop

/-!
# A vector used at its ends: stacks and queues (C97)
-/

namespace Rustica.PVec
namespace PV

variable {α : Type}

/-! ## What the front of the tree looks like when only the front has been used -/

/-- No empty leaf stands before a leaf with elements. -/
inductive Lead : Node α → Prop where
  | none {n : Node α} : n.flat = [] → Lead n
  | leaf {es : List α} : Lead (.leaf es)
  | branch {pre post : List (Node α)} {c : Node α} {s} : (∀ d ∈ pre, FullLeaves d) → Lead c → (∀ d ∈ post, d.flat = []) →
      Lead (.branch (pre ++ c :: post) s)

theorem flatL_nil {cs : List (Node α)} (h : ∀ d ∈ cs, d.flat = []) : Node.flatL cs = [] := by
  induction cs with
  | nil => rfl
  | cons c cs ih =>
    simp only [Node.flatL, h c (by simp), ih fun d hd => h d (by simp [hd]), List.append_nil]

theorem Lead.firstLeaf {n : Node α} (h : Lead n) (hf : n.flat ≠ []) : n.firstLeaf ≠ [] := by
  induction h with
  | none h => exact absurd h hf
  | leaf => simpa using hf
  | @branch pre post c s hpre _ hpost ih =>
    cases pre with
    | cons d pre => simpa using (hpre d (by simp)).firstLeaf_ne
    | nil =>
      simp only [List.nil_append, Node.flat, Node.flatL, flatL_nil hpost, List.append_nil] at hf
      simpa using ih hf

theorem firstLeaf_nil (n : Node α) : n.Sized → n.flat = [] → n.firstLeaf = [] := by
  induction n using Node.induct with
  | hleaf es => intro _ h; simpa using h
  | hbranch cs s ih =>
    intro hs h
    obtain ⟨hne, _, hc⟩ := (Node.sized_branch _ _).1 hs
    cases cs with
    | nil => exact absurd rfl hne
    | cons c cs =>
      simp only [Node.flat, Node.flatL, List.append_eq_nil_iff] at h
      simpa using ih c (by simp) (hc c (by simp)) h.1

theorem Lead.pushFrontLeaf {n : Node α} (h : Lead n) {es : List α} (he : es ≠ []) : Lead (n.pushFrontLeaf (.leaf es)) := by
  have hl : FullLeaves (.leaf es) := .leaf he
  have hone : ∀ s, Lead (.branch [.leaf es, n] s) := fun s =>
    .branch (pre := [.leaf es]) (post := []) (by simpa using hl) h (by simp)
  cases n with
  | leaf fs => exact hone _
  | branch cs s =>
    simp only [Node.pushFrontLeaf]
    split
    · cases h with
      | none hf =>
        refine .branch (pre := []) (c := .leaf es) (by simp) .leaf fun d hd => ?_
        simp only [Node.flat] at hf
        clear hone
        rename_i hlt
        clear hlt
        induction cs with
        | nil => cases hd
        | cons c cs ih =>
          simp only [Node.flatL, List.append_eq_nil_iff] at hf
          simp only [List.mem_cons] at hd
          rcases hd with rfl | hd
          · exact hf.1
          · exact ih hf.2 hd
      | @branch pre post c _ hpre hc hpost =>
        refine .branch (pre := .leaf es :: pre) (fun d hd => ?_) hc hpost
        simp only [List.mem_cons] at hd
        rcases hd with rfl | hd
        · exact hl
        · exact hpre d hd
    · exact hone _

theorem Lead.popFront {n : Node α} (h : Lead n) : n.Sized → ∀ n' x, n.popFront = some (n', x) → Lead n' := by
  induction h with
  | @none n hf =>
    intro hs n' x hp
    rcases Node.popFront_spec n hs with ⟨h1, _⟩ | ⟨_, h2⟩
    · exact absurd (firstLeaf_nil n hs hf) h1
    · rw [h2] at hp; cases hp
  | @leaf es =>
    intro _ n' x hp
    cases es with
    | nil => simp [Node.popFront] at hp
    | cons e es =>
      simp only [Node.popFront, Option.some.injEq, Prod.mk.injEq] at hp
      obtain ⟨rfl, _⟩ := hp
      exact .leaf
  | @branch pre post c s hpre hc hpost ih =>
    intro hs n' x hp
    obtain ⟨_, _, hsc⟩ := (Node.sized_branch _ _).1 hs
    have key : ∀ (d : Node α) (rest : List (Node α)), pre ++ c :: post = d :: rest → d.Sized →
        (rest ≠ [] → ∀ s, Lead (.branch rest s)) →
        (∀ d' y, d.popFront = some (d', y) → d'.flat ≠ [] → ∀ s, Lead (.branch (d' :: rest) s)) → Lead n' := by
      intro d rest e hd h1 h2
      rw [e, Node.popFront] at hp
      cases hpc : d.popFront with
      | none => simp [hpc] at hp
      | some p =>
        obtain ⟨d', y⟩ := p
        have hs' : d'.Sized := by
          rcases Node.popFront_spec d hd with ⟨_, n', x', hp', hs', _⟩ | ⟨_, hn⟩
          · rw [hpc] at hp'; cases hp'; exact hs'
          · rw [hpc] at hn; cases hn
        simp only [hpc] at hp
        rw [Node.calculateSize_eq hs'] at hp
        by_cases h0 : d'.flat.length = 0
        · simp only [h0, if_true] at hp
          by_cases hpost : rest = []
          · simp only [hpost, List.isEmpty_nil, if_true, Option.some.injEq, Prod.mk.injEq] at hp
            obtain ⟨rfl, _⟩ := hp
            exact .leaf
          · have hpe : rest.isEmpty = false := by simpa using hpost
            simp only [hpe, Bool.false_eq_true, if_false, Option.some.injEq, Prod.mk.injEq] at hp
            obtain ⟨rfl, _⟩ := hp
            exact h1 hpost _
        · simp only [h0, if_false, Option.some.injEq, Prod.mk.injEq] at hp
          obtain ⟨rfl, _⟩ := hp
          exact h2 d' y hpc (fun hc => h0 (by simp [hc])) _
    cases pre with
    | cons d pre =>
      refine key d (pre ++ c :: post) rfl (hsc d (by simp)) (fun _ s => ?_) fun d' y hd' hne s => ?_
      · exact .branch (fun d hd => hpre d (by simp [hd])) hc hpost
      · refine .branch (pre := d' :: pre) (fun e he => ?_) hc hpost
        simp only [List.mem_cons] at he
        rcases he with rfl | he
        · rcases (hpre d (by simp)).popFront (hsc d (by simp)) _ _ hd' with h | h
          · exact absurd h hne
          · exact h
        · exact hpre e (by simp [he])
    | nil =>
      refine key c post rfl (hsc c (by simp)) (fun _ s => ?_) fun d' y hd' _ s => ?_
      · exact .none (by simpa [Node.flat] using flatL_nil hpost)
      · exact .branch (pre := []) (by simp) (ih (hsc c (by simp)) _ _ hd') hpost

/-- Only the front end of the vector has been used since it was inline. -/
def FrontOnly (v : PV α) : Prop :=
  v.WF ∧ ∀ t, v.inner = .tree t → t.tail = [] ∧ Lead t.root

theorem FrontOnly.pushFront {v : PV α} (h : FrontOnly v) (x : α) :
    FrontOnly (v.pushFront x) ∧ (v.pushFront x).abs = x :: v.abs := by
  obtain ⟨k1, k2⟩ := pushFront_spec h.1 x
  refine ⟨⟨k1, fun t ht => ?_⟩, k2⟩
  have htree : ∀ u : Tree α, u.tail = [] → Lead u.root → (u.pushFront x).tail = [] ∧ Lead (u.pushFront x).root := by
    intro u h1 h2
    unfold Tree.pushFront
    split
    · exact ⟨h1, h2⟩
    · unfold Tree.pushHeadToTree
      split
      · exact ⟨h1, h2⟩
      · rename_i hne
        exact ⟨h1, h2.pushFrontLeaf (by simpa using hne)⟩
  cases hv : v.inner with
  | tree u =>
    obtain ⟨h1, h2⟩ := h.2 u hv
    simp only [PV.pushFront, treePushFront, hv, VectorImpl.tree.injEq] at ht
    subst ht
    exact htree u h1 h2
  | inline es =>
    have hw := h.1
    unfold WF at hw
    rw [hv] at hw
    simp only [PV.pushFront, hv] at ht
    split at ht
    · cases ht
    · simp only [transitionToTree, hv, treePushFront, VectorImpl.tree.injEq] at ht
      subst ht
      rcases Tree.fromElements_shape es with ⟨_, a, b, _⟩ | ⟨a, _⟩
      · exact htree _ b (by rw [a]; exact .leaf)
      · have := hw.2; simp only [ADAPTIVE_INLINE_SIZE, LEAF_CAPACITY] at *; omega

theorem FrontOnly.popFront {v : PV α} (h : FrontOnly v) :
    v.abs = [] ∧ v.popFront = none ∨ ∃ w x, v.popFront = some (w, x) ∧ FrontOnly w ∧ v.abs = x :: w.abs := by
  have hw := h.1
  unfold WF at hw
  cases hv : v.inner with
  | inline es =>
    rw [hv] at hw
    cases es with
    | nil => left; exact ⟨by simp [abs, hv], by simp [PV.popFront, isEmpty, hw.1]⟩
    | cons x es =>
      right
      refine ⟨⟨.inline es, v.len - 1, v.generation + 1⟩, x, ?_, ⟨?_, fun t ht => (by cases ht)⟩, by simp [abs, hv]⟩
      · have : v.len ≠ 0 := by rw [hw.1]; simp
        simp [PV.popFront, isEmpty, this, hv]
      · refine ⟨by simp [hw.1], ?_⟩
        have := hw.2; simp only [List.length_cons] at this; omega
  | tree t =>
    rw [hv] at hw
    obtain ⟨hwf, hlen⟩ := hw
    obtain ⟨ht, hl⟩ := h.2 t hv
    have hsz := hwf.len
    simp only [ht, List.length_nil, Nat.add_zero] at hsz
    have habs : v.abs = t.head ++ t.root.flat := by simp [abs, hv, Tree.toList, ht]
    cases hh : t.head with
    | cons x hs =>
      right
      rw [hh] at hsz
      simp only [List.length_cons] at hsz
      refine ⟨⟨.tree { t with head := hs, len := t.len - 1 }, v.len - 1, v.generation + 1⟩, x, ?_, ⟨⟨⟨hwf.sized, ?_⟩, ?_⟩, ?_⟩, ?_⟩
      · simp [PV.popFront, isEmpty, hlen, show t.len ≠ 0 by omega, hv, Tree.popFront, hh]
      · simp [ht]; omega
      · simp [hlen]
      · intro u hu; simp only [VectorImpl.tree.injEq] at hu; subst hu; exact ⟨ht, hl⟩
      · rw [habs, hh]; simp [abs, Tree.toList, ht]
    | nil =>
      rw [hh] at hsz
      simp only [List.length_nil, Nat.zero_add] at hsz
      by_cases hf : t.root.flat = []
      · left
        refine ⟨by rw [habs, hh, hf]; rfl, ?_⟩
        have : v.len = 0 := by rw [hlen, hsz, hf]; rfl
        simp [PV.popFront, isEmpty, this]
      · right
        have hpos : t.root.flat.length > 0 := List.length_pos_iff.2 hf
        rcases Node.popFront_spec t.root hwf.sized with ⟨_, n', x, hpn, hsn, hfn⟩ | ⟨hbad, _⟩
        · refine ⟨⟨.tree { t with root := n', len := t.len - 1 }, v.len - 1, v.generation + 1⟩, x, ?_, ⟨⟨⟨hsn, ?_⟩, ?_⟩, ?_⟩, ?_⟩
          · simp [PV.popFront, isEmpty, hlen, show t.len ≠ 0 by omega, hv, Tree.popFront, hh, Tree.popFrontFromTree,
              hwf.treeSize, hpos, hpn]
          · simp [hh, ht]; rw [hfn] at hsz; simp at hsz; omega
          · simp [hlen]
          · intro u hu; simp only [VectorImpl.tree.injEq] at hu; subst hu; exact ⟨ht, hl.popFront hwf.sized _ _ hpn⟩
          · rw [habs, hh, hfn]; simp [abs, Tree.toList, ht]
        · exact absurd hbad (hl.firstLeaf hf)

/-! ## Programs -/

/-- One call at an end of a vector. -/
inductive Move (α : Type) where
  | pushFront (x : α)
  | pushBack (x : α)
  | popFront
  | popBack

/-- Makes the calls one after the other; collects what the pops return, and the vector at the end. -/
def play : List (Move α) → PV α → List (Option α) × PV α
  | [], v => ([], v)
  | .pushFront x :: ms, v => play ms (v.pushFront x)
  | .pushBack x :: ms, v => play ms (v.pushBack x)
  | .popFront :: ms, v =>
    match v.popFront with
    | some (w, x) => (some x :: (play ms w).1, (play ms w).2)
    | none => (none :: (play ms v).1, (play ms v).2)
  | .popBack :: ms, v =>
    match v.popBack with
    | some (w, x) => (some x :: (play ms w).1, (play ms w).2)
    | none => (none :: (play ms v).1, (play ms v).2)

/-- Specification: the same calls on a list. -/
def playList : List (Move α) → List α → List (Option α) × List α
  | [], l => ([], l)
  | .pushFront x :: ms, l => playList ms (x :: l)
  | .pushBack x :: ms, l => playList ms (l ++ [x])
  | .popFront :: ms, l => (l.head? :: (playList ms l.tail).1, (playList ms l.tail).2)
  | .popBack :: ms, l => (l.getLast? :: (playList ms l.dropLast).1, (playList ms l.dropLast).2)

/-- The claim of C97 for one program: the pops return what they return on a list, and what is left is what is left of the list. -/
def PlaysRight (ms : List (Move α)) (v : PV α) (l : List α) : Prop :=
  (play ms v).1 = (playList ms l).1 ∧ (play ms v).2.Shows (playList ms l).2

/-- The list never has more than `n` elements. -/
def NeverOver (n : Nat) : List (Move α) → List α → Prop
  | [], _ => True
  | .pushFront x :: ms, l => l.length + 1 ≤ n ∧ NeverOver n ms (x :: l)
  | .pushBack x :: ms, l => l.length + 1 ≤ n ∧ NeverOver n ms (l ++ [x])
  | .popFront :: ms, l => NeverOver n ms l.tail
  | .popBack :: ms, l => NeverOver n ms l.dropLast

def Move.isFront : Move α → Bool
  | .pushFront _ | .popFront => true
  | _ => false
def Move.isBack : Move α → Bool
  | .pushBack _ | .popBack => true
  | _ => false
def Move.isQueue : Move α → Bool
  | .pushBack _ | .popFront => true
  | _ => false
def Move.isReverseQueue : Move α → Bool
  | .pushFront _ | .popBack => true
  | _ => false

/-- C97, a stack at the front: `push_front` and `pop_front` on a new vector, any number of them in any order, do what they do on
a list. -/
theorem c97_front_stack (ms : List (Move α)) (h : ∀ m ∈ ms, m.isFront = true) : PlaysRight ms PV.new [] := by
  suffices hall : ∀ (ms : List (Move α)) (v : PV α), (∀ m ∈ ms, m.isFront = true) → FrontOnly v → PlaysRight ms v v.abs from
    hall ms PV.new h ⟨wf_new, fun t ht => (by cases ht)⟩
  intro ms
  induction ms with
  | nil => intro v _ hv; exact ⟨rfl, shows_of_wf hv.1⟩
  | cons m ms ih =>
    intro v hm hv
    have hrest : ∀ m ∈ ms, m.isFront = true := fun m hm' => hm m (by simp [hm'])
    cases m with
    | pushFront x =>
      obtain ⟨h1, h2⟩ := hv.pushFront x
      have := ih _ hrest h1
      rw [h2] at this
      exact this
    | popFront =>
      rcases hv.popFront with ⟨h1, h2⟩ | ⟨w, x, h1, h2, h3⟩
      · have := ih v hrest hv
        unfold PlaysRight at *
        rw [h1] at this ⊢
        simp [play, playList, h2, this]
      · have := ih w hrest h2
        unfold PlaysRight at *
        rw [h3]
        simp [play, playList, h1, this]
    | pushBack x => have := hm (.pushBack x) (by simp); cases this
    | popBack => have := hm .popBack (by simp); cases this

/-- Meets the hypothesis: 200 pushes, 150 pops, 100 pushes, 150 pops. -/
example : ∀ m ∈ (List.range 200).map Move.pushFront ++ List.replicate 150 .popFront ++ (List.range 100).map .pushFront ++
    List.replicate 150 .popFront, m.isFront = true := by
  intro m hm
  simp only [List.mem_append, List.mem_map, List.mem_replicate] at hm
  rcases hm with ((⟨_, _, rfl⟩ | ⟨_, rfl⟩) | ⟨_, _, rfl⟩) | ⟨_, rfl⟩ <;> rfl

/-- C97, a stack at the back: the same for `push_back` and `pop_back`. -/
theorem c97_back_stack (ms : List (Move α)) (h : ∀ m ∈ ms, m.isBack = true) : PlaysRight ms PV.new [] := by
  suffices hall : ∀ (ms : List (Move α)) (v : PV α), (∀ m ∈ ms, m.isBack = true) → Tame v → PlaysRight ms v v.abs from
    hall ms PV.new h .new
  intro ms
  induction ms with
  | nil => intro v _ hv; exact ⟨rfl, shows_of_wf hv.stack.wf⟩
  | cons m ms ih =>
    intro v hm hv
    have hrest : ∀ m ∈ ms, m.isBack = true := fun m hm' => hm m (by simp [hm'])
    cases m with
    | pushBack x =>
      have := ih _ hrest (.pushBack x hv)
      rw [(pushBack_spec hv.stack.wf x).2] at this
      exact this
    | popBack =>
      rcases hv.stack.popBack with ⟨h1, h2⟩ | ⟨w, x, h1, h2, h3⟩
      · have := ih v hrest hv
        unfold PlaysRight at *
        rw [h1] at this ⊢
        simp [play, playList, h2, this]
      · have := ih w hrest (.popBack hv h1)
        unfold PlaysRight at *
        rw [h3]
        simp [play, playList, h1, this]
    | pushFront x => have := hm (.pushFront x) (by simp); cases this
    | popFront => have := hm .popFront (by simp); cases this

/-- Meets the hypothesis. -/
example : ∀ m ∈ (List.range 200).map Move.pushBack ++ List.replicate 150 .popBack, m.isBack = true := by
  intro m hm
  simp only [List.mem_append, List.mem_map, List.mem_replicate] at hm
  rcases hm with ⟨_, _, rfl⟩ | ⟨_, rfl⟩ <;> rfl

/-- C97, partly: any program of calls at both ends (so also a queue, in either direction) does what it does on a list, if it never
has more than 64 elements.  Missing: more elements, where queues fail (`c97_queue_false`, `c97_reverse_queue_false`). -/
theorem c97_small_partial (ms : List (Move α)) (h : NeverOver 64 ms []) : PlaysRight ms PV.new [] := by
  suffices hall : ∀ (ms : List (Move α)) (v : PV α) (l : List α), NeverOver 64 ms l → v.inner = .inline l → v.len = l.length →
      l.length ≤ 64 → PlaysRight ms v l from hall ms PV.new [] h rfl rfl (by simp)
  intro ms
  induction ms with
  | nil =>
    intro v l _ h1 h2 h3
    have hw : v.WF := by unfold WF; rw [h1]; exact ⟨h2, h3⟩
    have := shows_of_wf hw
    exact ⟨rfl, by simpa [playList, play, abs, h1] using this⟩
  | cons m ms ih =>
    intro v l hn h1 h2 h3
    cases m with
    | pushFront x =>
      have e : v.pushFront x = ⟨.inline (x :: l), v.len + 1, v.generation + 1⟩ := by
        have : l.length < ADAPTIVE_INLINE_SIZE := hn.1
        simp [PV.pushFront, h1, this]
      have := ih (v.pushFront x) (x :: l) hn.2 (by rw [e]) (by rw [e]; simp [h2]) hn.1
      exact this
    | pushBack x =>
      have e : v.pushBack x = ⟨.inline (l ++ [x]), v.len + 1, v.generation + 1⟩ := by
        have : l.length < ADAPTIVE_INLINE_SIZE := hn.1
        simp [PV.pushBack, h1, this]
      have := ih (v.pushBack x) (l ++ [x]) hn.2 (by rw [e]) (by rw [e]; simp [h2]) (by simpa using hn.1)
      exact this
    | popFront =>
      cases l with
      | nil =>
        have := ih v [] hn h1 h2 h3
        unfold PlaysRight at *
        simp [play, playList, PV.popFront, isEmpty, h2, this]
      | cons x l =>
        have e : v.popFront = some (⟨.inline l, v.len - 1, v.generation + 1⟩, x) := by
          simp [PV.popFront, isEmpty, h2, h1]
        have := ih ⟨.inline l, v.len - 1, v.generation + 1⟩ l hn rfl (by simp [h2]) (by simp at h3; omega)
        unfold PlaysRight at *
        simp [play, playList, e, this]
    | popBack =>
      cases hl : l.getLast? with
      | none =>
        have : l = [] := by simpa using hl
        subst this
        have := ih v [] hn h1 h2 h3
        unfold PlaysRight at *
        simp [play, playList, PV.popBack, isEmpty, h2, this]
      | some x =>
        have hne : l.length ≠ 0 := by intro h0; have : l = [] := by simpa using h0
                                      subst this; cases hl
        have e : v.popBack = some (⟨.inline l.dropLast, v.len - 1, v.generation + 1⟩, x) := by
          simp [PV.popBack, isEmpty, h2, h1, hne, hl]
        have := ih ⟨.inline l.dropLast, v.len - 1, v.generation + 1⟩ l.dropLast hn rfl (by simp [h2]) (by simp; omega)
        unfold PlaysRight at *
        simp [play, playList, e, this, hl]

/-- Meets the hypothesis: a queue of three elements. -/
example : NeverOver 64 [Move.pushBack 1, .pushBack 2, .popFront, .pushBack 3, .pushFront 4, .popBack] [] := by
  simp [NeverOver]

/-- C97 fails for queues: 67 elements in at the back, 66 out at the front; the last two come out in the wrong order. -/
theorem c97_queue_false : ¬ ∀ ms : List (Move Nat), (∀ m ∈ ms, m.isQueue = true) → PlaysRight ms PV.new [] := by
  intro h
  have h1 := (h ((List.range 67).map .pushBack ++ List.replicate 66 .popFront) (by
    intro m hm
    simp only [List.mem_append, List.mem_map, List.mem_replicate] at hm
    rcases hm with ⟨_, _, rfl⟩ | ⟨_, rfl⟩ <;> rfl)).1
  revert h1
  decide +kernel

/-- C97 fails for queues in the other direction: 66 elements in at the front, and `pop_back` finds nothing, the first time and
every time (`c97_reverse_queue_exact`). -/
theorem c97_reverse_queue_false :
    ¬ ∀ ms : List (Move Nat), (∀ m ∈ ms, m.isReverseQueue = true) → PlaysRight ms PV.new [] := by
  intro h
  have h1 := (h ((List.range 66).map .pushFront ++ List.replicate 65 .popBack) (by
    intro m hm
    simp only [List.mem_append, List.mem_map, List.mem_replicate] at hm
    rcases hm with ⟨_, _, rfl⟩ | ⟨_, rfl⟩ <;> rfl)).1
  revert h1
  decide +kernel

theorem extend_fill {v : PV α} {t : Tree α} (hi : v.inner = .tree t) (ys : List α) (h : t.tail.length + ys.length ≤ LEAF_CAPACITY) :
    (v.extend ys).inner = .tree { t with tail := t.tail ++ ys, len := t.len + ys.length } := by
  induction ys generalizing v t with
  | nil => simp [extend, hi]
  | cons y ys ih =>
    simp only [List.length_cons] at h
    have e : (v.pushBack y).inner = .tree { t with tail := t.tail ++ [y], len := t.len + 1 } := by
      simp [PV.pushBack, hi, treePushBack, Tree.pushBack, show t.tail.length < LEAF_CAPACITY by omega]
    have := ih e (by simp; omega)
    simp only [extend, List.foldl_cons] at this ⊢
    rw [this]
    simp only [List.append_assoc, List.singleton_append, List.length_cons, VectorImpl.tree.injEq, Tree.mk.injEq, true_and]
    omega

theorem firstLeaf_pushLeaf (n l : Node α) (hs : n.Sized) : (n.pushLeaf l).firstLeaf = n.firstLeaf := by
  cases n with
  | leaf es => simp [Node.pushLeaf]
  | branch cs s =>
    obtain ⟨hne, _, _⟩ := (Node.sized_branch _ _).1 hs
    cases cs with
    | nil => exact absurd rfl hne
    | cons c cs =>
      simp only [Node.pushLeaf]
      split <;> simp

/-- How queues lose elements: every intact vector that is empty but no longer inline (a queue that once had more than 64
elements and has been emptied), given 65 elements with `push_back`, returns the last of them from `pop_front`; the other 64 are
lost, though `len` goes on counting them. -/
theorem c97_emptied_queue_loses {v : PV α} (h : Intact v) (hi : v.isTree = true) (he : v.toVec = []) (ys : List α) (y : α)
    (hy : ys.length = 64) :
    ∃ w, (v.extend (ys ++ [y])).popFront = some (w, y) ∧ w.toVec = [] ∧ w.len = 64 ∧ w.popFront = none := by
  obtain ⟨t, ht⟩ : ∃ t, v.inner = .tree t := by
    cases hv : v.inner with
    | inline es => simp [isTree, hv] at hi
    | tree t => exact ⟨t, rfl⟩
  obtain ⟨hwf, hlen, hvec⟩ := Intact.tree h ht
  rw [he] at hvec
  have hnil := hvec.symm
  simp only [Tree.toList, List.append_eq_nil_iff] at hnil
  obtain ⟨⟨hh, hr⟩, htl⟩ := hnil
  have h0 : t.len = 0 := by have := hwf.len; simpa [hh, hr, htl] using this
  have hfill := extend_fill ht ys (by simp [htl, hy, LEAF_CAPACITY])
  have hne : ys ≠ [] := by intro h; simp [h] at hy
  have hI : Intact (v.extend (ys ++ [y])) := Intact.extend _ h
  have hstep : (v.extend (ys ++ [y])).inner = .tree
      ⟨t.root.pushLeaf (.leaf ys), [y], [], Tree.calculateHeight (t.root.pushLeaf (.leaf ys)), 65⟩ := by
    have : v.extend (ys ++ [y]) = (v.extend ys).pushBack y := by simp [extend]
    rw [this]
    simp [PV.pushBack, hfill, treePushBack, Tree.pushBack, Tree.pushTailToTree, htl, hy, LEAF_CAPACITY, hne, hh, h0]
  obtain ⟨hwf', hlen', hvec'⟩ := Intact.tree hI hstep
  have hfl : (t.root.pushLeaf (.leaf ys)).firstLeaf = [] := by
    rw [firstLeaf_pushLeaf _ _ hwf.sized]; exact firstLeaf_nil _ hwf.sized hr
  have hn : (t.root.pushLeaf (.leaf ys)).flat ≠ [] := by
    intro h0
    have := hwf'.len
    simp [h0] at this
  have hp := Tree.popFront_emptyLeaf hwf' rfl hn hfl
  simp only at hlen' hp
  refine ⟨⟨.tree ⟨.leaf [], [], [], 0, 64⟩, 64, (v.extend (ys ++ [y])).generation + 1⟩, ?_, ?_, rfl, ?_⟩
  · simp [PV.popFront, isEmpty, hlen', hstep, hp]
  · rfl
  · rfl

/-- Meets the hypotheses: a queue that had 65 elements and has been emptied. -/
example : ∃ v : PV Nat, Intact v ∧ v.isTree = true ∧ v.toVec = [] := by
  refine ⟨⟨.tree ⟨.leaf [], [], [], 0, 0⟩, 0, 130⟩, ⟨⟨⟨?_, rfl⟩, rfl⟩⟩, rfl, rfl⟩
  simp

/-- …and it is a vector that `play` reaches. -/
example : (play ((List.range 65).map Move.pushBack ++ List.replicate 65 .popFront) (PV.new : PV Nat)).2.isTree = true ∧
    (play ((List.range 65).map Move.pushBack ++ List.replicate 65 .popFront) (PV.new : PV Nat)).2.toVec = [] := by
  decide +kernel

end PV
end Rustica.PVec
