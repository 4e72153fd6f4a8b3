import Verif.PVec.Exact
import Verif.PVec.Theorems.Damaged

/-!
# C06–C09 on every intact vector: when each operation is right, and when it does damage

`Intact v` says that all recorded lengths in `v` are accurate.  Constructors, rebuilding
operations, `push_back`, `push_front`, `extend`, `update` and `concat` always return intact
vectors (`Intact.pushBack` and so on).  For the operations that take a vector apart the theorems
below give the exact condition under which the result is right, and under which it is intact.
-/

namespace Rustica.PVec
namespace PV

variable {α : Type}

/-! ## Lemmas -/

theorem intact_new : Intact (PV.new : PV α) := ⟨wf_new⟩
theorem intact_fromIter (xs : List α) : Intact (PV.fromIter xs) := ⟨(fromIter_spec xs).1⟩

theorem Intact.tree {v : PV α} (h : Intact v) {t : Tree α} (ht : v.inner = .tree t) :
    t.WF ∧ v.len = t.len ∧ v.toVec = t.toList := by
  have hw := h.wf
  refine ⟨?_, ?_, ?_⟩
  · unfold WF at hw; rw [ht] at hw; exact hw.1
  · unfold WF at hw; rw [ht] at hw; exact hw.2
  · rw [toVec_eq h.wf]; simp [abs, ht]

theorem intact_tree {v : PV α} {t : Tree α} (ht : v.inner = .tree t) :
    Intact v ↔ t.WF ∧ v.len = t.len := by
  constructor
  · intro h; exact ⟨(Intact.tree h ht).1, (Intact.tree h ht).2.1⟩
  · intro h; constructor; unfold WF; rw [ht]; exact h

/-- A vector whose tree is shorter than its recorded length does not show any sequence. -/
theorem not_shows_of_short {v : PV α} {t : Tree α} (ht : v.inner = .tree t) (hl : t.len < v.len)
    (xs : List α) : ¬ v.Shows xs := by
  intro hs
  have h1 := hs.get (v.len - 1)
  have h2 := hs.len
  rw [List.getElem?_eq_getElem (by omega)] at h1
  simp only [PV.get, ht, Tree.get] at h1
  rw [if_neg (by omega), if_pos (by omega)] at h1
  cases h1

/-! ## C06: `pop_back` -/

/-- Both buffers are empty, and so is the rightmost leaf of the tree (possible after `pop_front`
or `push_front` on a split-off part). -/
def StaleEnd (v : PV α) : Prop :=
  ∃ t, v.inner = .tree t ∧ t.tail = [] ∧ t.head = [] ∧ t.root.lastLeaf = [] ∧ 2 ≤ t.len

/-- C06: exactly when `pop_back` leaves an intact vector. -/
theorem c06_pop_back_intact {v w : PV α} {x : α} (h : Intact v) (hp : v.popBack = some (w, x)) :
    Intact w ↔ ¬ StaleEnd v := by
  unfold popBack isEmpty at hp
  by_cases h0 : v.len = 0
  · simp [h0] at hp
  simp only [beq_iff_eq, h0, if_false] at hp
  cases hin : v.inner with
  | inline es =>
    have hw := h.wf
    unfold WF at hw; rw [hin] at hw hp
    simp only at hp
    split at hp
    · simp only [Option.some.injEq, Prod.mk.injEq] at hp
      obtain ⟨rfl, _⟩ := hp
      refine ⟨fun _ => ?_, fun _ => ⟨⟨by simp [hw.1], by simp; omega⟩⟩⟩
      rintro ⟨t, ht, _⟩
      rw [hin] at ht; cases ht
    · cases hp
  | tree t =>
    obtain ⟨hwf, hlen, _⟩ := Intact.tree h hin
    rw [hin] at hp
    simp only [Option.map_eq_some_iff, Prod.mk.injEq] at hp
    obtain ⟨⟨t', y⟩, e, rfl, rfl⟩ := hp
    by_cases hs : StaleEnd v
    · have hs' := hs
      obtain ⟨t2, ht2, h1, h2, h3, h4⟩ := hs'
      rw [hin] at ht2; cases ht2
      rw [Tree.popBack_stale hwf h4 h1 h2 h3] at e
      refine ⟨fun hi => ?_, fun hn => absurd hs hn⟩
      simp only [Option.map_eq_some_iff, Prod.mk.injEq] at e
      obtain ⟨z, _, rfl, _⟩ := e
      have := ((intact_tree (v := ⟨.tree { t with len := t.len - 1 }, v.len - 1,
        v.generation + 1⟩) rfl).1 hi).1.len
      have hl := hwf.len
      simp only at this
      omega
    · refine ⟨fun _ => hs, fun _ => ?_⟩
      by_cases ht : t.tail = []
      · by_cases hh : t.head = []
        · obtain ⟨t2, x2, e2, w2, _, l2⟩ := Tree.popBack_ok hwf (by omega) (.inr ⟨hh, by
            by_cases hl : t.root.lastLeaf = []
            · right
              have : ¬ 2 ≤ t.len := fun h2 => hs ⟨t, hin, ht, hh, hl, h2⟩
              omega
            · exact .inl hl⟩)
          rw [e] at e2; cases e2
          exact (intact_tree rfl).2 ⟨w2, by simp [l2, hlen]⟩
        · rw [Tree.popBack_none hwf ht hh] at e; cases e
      · obtain ⟨t2, x2, e2, w2, _, l2⟩ := Tree.popBack_ok hwf (by omega) (.inl ht)
        rw [e] at e2; cases e2
        exact (intact_tree rfl).2 ⟨w2, by simp [l2, hlen]⟩

/-! ## C07: `pop_front` -/

/-- The prefix buffer and the leftmost leaf of the tree are empty, but the tree is not (possible
after `push_back` on a split-off part). -/
def StaleFront (v : PV α) : Prop :=
  ∃ t, v.inner = .tree t ∧ t.head = [] ∧ t.root.flat ≠ [] ∧ t.root.firstLeaf = []

/-- Only the suffix buffer is left. -/
def TailOnly (v : PV α) : Prop :=
  ∃ t, v.inner = .tree t ∧ t.head = [] ∧ t.root.flat = []

/-- C07, what `pop_front` does to every intact vector that is not empty:
* normally it is right;
* when only the suffix buffer is left it returns the right element and reverses the others;
* when the leftmost leaf is empty it fails or loses the tree part, and the result is damaged. -/
theorem c07_pop_front_exact {v : PV α} (h : Intact v) (hne : v.toVec ≠ []) :
    (¬ StaleFront v ∧ ¬ TailOnly v ∧ ∃ w x ys, v.popFront = some (w, x) ∧ v.toVec = x :: ys ∧
      w.Shows ys ∧ Intact w) ∨
    (TailOnly v ∧ ∃ w x ys, v.popFront = some (w, x) ∧ v.toVec = x :: ys ∧ w.Shows ys.reverse ∧
      Intact w) ∨
    (StaleFront v ∧ (v.popFront = none ∨
      ∃ w x, v.popFront = some (w, x) ∧ ¬ Intact w ∧ ∀ xs, ¬ w.Shows xs)) := by
  have hlen := h.shows.len
  have h0 : v.len ≠ 0 := by
    intro e; rw [e] at hlen; exact hne (List.length_eq_zero_iff.1 hlen.symm)
  cases hin : v.inner with
  | inline es =>
    left
    have hw := h.wf
    unfold WF at hw; rw [hin] at hw
    have hv : v.toVec = es := by rw [toVec_eq h.wf]; simp [abs, hin]
    cases es with
    | nil => exact absurd hv hne
    | cons e es =>
      refine ⟨?_, ?_, ⟨.inline es, v.len - 1, v.generation + 1⟩, e, es, ?_, hv, ?_⟩
      · rintro ⟨t, ht, _⟩; rw [hin] at ht; cases ht
      · rintro ⟨t, ht, _⟩; rw [hin] at ht; cases ht
      · simp [popFront, isEmpty, h0, hin]
      · have : (⟨.inline es, v.len - 1, v.generation + 1⟩ : PV α).WF :=
          ⟨by simp [hw.1], by have := hw.2; simp at this; omega⟩
        exact ⟨shows_of_wf this, ⟨this⟩⟩
  | tree t =>
    obtain ⟨hwf, hl, hv⟩ := Intact.tree h hin
    have ht0 : t.len ≠ 0 := by omega
    have pf : ∀ t' x, t.popFront = some (t', x) →
        v.popFront = some (⟨.tree t', v.len - 1, v.generation + 1⟩, x) := by
      intro t' x e; simp [popFront, isEmpty, h0, hin, e]
    by_cases hs : t.head = [] ∧ t.root.flat ≠ [] ∧ t.root.firstLeaf = []
    · right; right
      refine ⟨⟨t, hin, hs⟩, ?_⟩
      have e := Tree.popFront_emptyLeaf hwf hs.1 hs.2.1 hs.2.2
      cases htl : t.tail with
      | nil =>
        left
        rw [htl] at e
        simp [popFront, isEmpty, h0, hin, e]
      | cons y ys =>
        right
        rw [htl] at e
        refine ⟨_, y, pf _ _ e, ?_, ?_⟩
        · intro hi
          have := ((intact_tree rfl).1 hi).1.len
          have hl' := hwf.len
          have := List.length_pos_iff.2 hs.2.1
          simp only [List.length_reverse, Node.flat_leaf, List.length_nil, htl,
            List.length_cons] at *
          omega
        · intro xs hsx
          have hl' := hwf.len
          have hp := List.length_pos_iff.2 hs.2.1
          have h1 := hsx.len
          have h2 := hsx.get ys.length
          simp only [htl, List.length_cons] at h1 hl'
          rw [List.getElem?_eq_getElem (by omega)] at h2
          simp only [PV.get, Tree.get, Tree.treeSize, List.length_reverse, List.length_nil,
            Nat.sub_zero, Nat.sub_self, Tree.getFromTree, Tree.getFromNode] at h2
          rw [if_neg (by omega), if_neg (by omega), if_neg (by omega), if_pos (by omega)] at h2
          simp at h2
    · by_cases hto : t.head = [] ∧ t.root.flat = []
      · right; left
        refine ⟨⟨t, hin, hto⟩, ?_⟩
        cases htl : t.tail with
        | nil =>
          have := hwf.len
          simp [hto.1, hto.2, htl] at this
          exact absurd this ht0
        | cons y ys =>
          obtain ⟨t', e, w', l', n'⟩ := Tree.popFront_tail hwf hto.1 hto.2 y ys htl
          refine ⟨_, y, ys, pf _ _ e, ?_, ?_, (intact_tree rfl).2 ⟨w', by simp [n', hl]⟩⟩
          · rw [hv]; simp [Tree.toList, hto.1, hto.2, htl]
          · have hw : (⟨.tree t', v.len - 1, v.generation + 1⟩ : PV α).WF :=
              ⟨w', by simp [n', hl]⟩
            have := shows_of_wf hw
            simp only [abs, l'] at this
            exact this
      · left
        obtain ⟨t', x, e, w', l', n'⟩ := Tree.popFront_ok hwf ht0 (by
          by_cases hh : t.head = []
          · right; left
            have h1 : t.root.flat ≠ [] := fun he => hto ⟨hh, he⟩
            exact ⟨h1, fun he => hs ⟨hh, h1, he⟩⟩
          · exact .inl hh)
        have hw : (⟨.tree t', v.len - 1, v.generation + 1⟩ : PV α).WF :=
          ⟨w', by simp [n', hl]⟩
        refine ⟨?_, ?_, _, x, t'.toList, pf _ _ e, by rw [hv, l'], ?_, ⟨hw⟩⟩
        · rintro ⟨t2, ht2, h2⟩; rw [hin] at ht2; cases ht2; exact hs h2
        · rintro ⟨t2, ht2, h2⟩; rw [hin] at ht2; cases ht2; exact hto h2
        · exact shows_of_wf hw

/-- C07, exactly when it holds, for every intact vector: the leftmost leaf must not be empty, and
when only the suffix buffer is left, what remains must read the same backwards. -/
theorem c07_pop_front_iff {v : PV α} (h : Intact v) :
    PopFrontCorrect v ↔
      ¬ StaleFront v ∧ (TailOnly v → v.toVec.tail.reverse = v.toVec.tail) := by
  by_cases hne : v.toVec = []
  · have h0 : v.len = 0 := by have := h.shows.len; rw [hne] at this; simpa using this
    have hp : v.popFront = none := by simp [popFront, isEmpty, h0]
    unfold PopFrontCorrect
    rw [hp]
    refine ⟨fun _ => ⟨?_, fun _ => by simp [hne]⟩, fun _ => hne⟩
    rintro ⟨t, hin, hh, hf, _⟩
    obtain ⟨hwf, hl, hv⟩ := Intact.tree h hin
    rw [hv] at hne
    simp [Tree.toList, hf] at hne
  · have disj : StaleFront v → ¬ TailOnly v := by
      rintro ⟨t, hin, _, hf, _⟩ ⟨t2, hin2, _, hf2⟩
      rw [hin] at hin2; cases hin2; exact hf hf2
    unfold PopFrontCorrect
    rcases c07_pop_front_exact h hne with ⟨a, b, w, x, ys, hp, he, hs, _⟩ |
      ⟨a, w, x, ys, hp, he, hs, _⟩ | ⟨a, hp | ⟨w, x, hp, _, hs⟩⟩
    · rw [hp]
      exact ⟨fun _ => ⟨a, fun hb => absurd hb b⟩, fun _ => ⟨ys, he, hs⟩⟩
    · rw [hp]
      constructor
      · rintro ⟨zs, h1, h2⟩
        rw [he] at h1
        obtain ⟨_, rfl⟩ := List.cons.inj h1
        refine ⟨fun hsf => disj hsf a, fun _ => ?_⟩
        rw [he]
        exact hs.unique h2
      · rintro ⟨_, h2⟩
        have := h2 a
        rw [he] at this
        simp only [List.tail_cons] at this
        rw [this] at hs
        exact ⟨ys, he, hs⟩
    · rw [hp]
      exact ⟨fun hc => absurd hc hne, fun hc => absurd a hc.1⟩
    · rw [hp]
      exact ⟨fun ⟨zs, _, h2⟩ => absurd h2 (hs zs), fun hc => absurd a hc.1⟩

/-- C07: exactly when `pop_front` leaves an intact vector. -/
theorem c07_pop_front_intact {v w : PV α} {x : α} (h : Intact v) (hp : v.popFront = some (w, x)) :
    Intact w ↔ ¬ StaleFront v := by
  have hne : v.toVec ≠ [] := by
    intro he
    have h0 : v.len = 0 := by have := h.shows.len; rw [he] at this; simpa using this
    simp [popFront, isEmpty, h0] at hp
  have disj : TailOnly v → ¬ StaleFront v := by
    rintro ⟨t2, hin2, _, hf2⟩ ⟨t, hin, _, hf, _⟩
    rw [hin] at hin2; cases hin2; exact hf hf2
  rcases c07_pop_front_exact h hne with ⟨a, b, w', x', ys, hp', _, _, hi⟩ |
    ⟨a, w', x', ys, hp', _, _, hi⟩ | ⟨a, hp' | ⟨w', x', hp', hn, _⟩⟩
  · rw [hp] at hp'; cases hp'; exact ⟨fun _ => a, fun _ => hi⟩
  · rw [hp] at hp'; cases hp'; exact ⟨fun _ => disj a, fun _ => hi⟩
  · rw [hp] at hp'; cases hp'
  · rw [hp] at hp'; cases hp'; exact ⟨fun hi => absurd hi hn, fun hc => absurd a hc⟩

/-! ## C08: `split_at`, `take`, `skip` -/

/-- The node at which the search for cut position `n` gives up, and the position of the cut inside
that node. -/
def cutAt (t : Tree α) (n : Nat) : Node α × Nat := t.root.stop t.height (n - t.head.length)

/-- The left part of a cut at `n` is complete: the cut is outside the tree part, or it does not lie
beyond the leftmost leaf of the node where the search gives up. -/
def LeftOk (v : PV α) (n : Nat) : Prop :=
  ∀ t, v.inner = .tree t → t.Inside n → (cutAt t n).2 ≤ (cutAt t n).1.firstLeaf.length

/-- The right part of a cut at `n` is complete: the cut is outside the tree part, or the node where
the search gives up has nothing beyond its leftmost leaf. -/
def RightOk (v : PV α) (n : Nat) : Prop :=
  ∀ t, v.inner = .tree t → t.Inside n → (cutAt t n).1.flat = (cutAt t n).1.firstLeaf

theorem split_cases {v : PV α} (h : Intact v) (n : Nat) :
    ((v.splitAt n).1.Shows (v.toVec.take n) ∧ Intact (v.splitAt n).1 ∧ LeftOk v n ∨
      (∀ xs, ¬ (v.splitAt n).1.Shows xs) ∧ ¬ Intact (v.splitAt n).1 ∧ ¬ LeftOk v n) ∧
    ((v.splitAt n).2.Shows (v.toVec.drop n) ∧ Intact (v.splitAt n).2 ∧ RightOk v n ∨
      (∀ xs, ¬ (v.splitAt n).2.Shows xs) ∧ ¬ Intact (v.splitAt n).2 ∧ ¬ RightOk v n) := by
  by_cases hin : ∃ t, v.inner = .tree t ∧ t.Inside n
  · obtain ⟨t, ht, hi⟩ := hin
    obtain ⟨hwf, hl, hv⟩ := Intact.tree h ht
    obtain ⟨w1, w2, before, after, e1, e2, e3, e4⟩ := Tree.splitAt_exact hwf hi
    obtain ⟨hst, hlt, _⟩ := Tree.split_exact t.root hwf.sized t.height (n - t.head.length)
      (by have := hi.1; have := hi.2; omega)
    have hpos : ¬ n ≥ v.len ∧ n ≠ 0 := by
      have := hi.1; have := hi.2; have := hwf.len; omega
    have hsp : v.splitAt n = (⟨.tree (t.splitAt n).1, n, v.generation + 1⟩,
        ⟨.tree (t.splitAt n).2, v.len - n, v.generation + 1⟩) := by
      simp [PV.splitAt, hpos.1, hpos.2, ht]
    have hnv : n < v.len := by omega
    obtain ⟨rest, hrest⟩ := Node.flat_firstLeaf _ hst
    have hL : LeftOk v n ↔ (cutAt t n).2 ≤ (cutAt t n).1.firstLeaf.length :=
      ⟨fun hh => hh t ht hi, fun hh t2 ht2 _ => by rw [ht] at ht2; cases ht2; exact hh⟩
    have hR : RightOk v n ↔ (cutAt t n).1.flat = (cutAt t n).1.firstLeaf :=
      ⟨fun hh => hh t ht hi, fun hh t2 ht2 _ => by rw [ht] at ht2; cases ht2; exact hh⟩
    rw [hL, hR]
    unfold cutAt
    rw [Node.flat_eq_firstLeaf_iff hst]
    generalize (t.root.stop t.height (n - t.head.length)).1 = m at *
    generalize (t.root.stop t.height (n - t.head.length)).2 = r at *
    have n1 := congrArg List.length e3
    have n2 := congrArg List.length e4
    have n3 := congrArg List.length e1
    have n4 := congrArg List.length hrest
    rw [hwf.length] at n3
    rw [w1.length] at n1
    rw [w2.length] at n2
    simp only [List.length_append, List.length_take, List.length_drop] at n1 n2 n3 n4
    rw [hsp, hv]
    constructor
    · by_cases hc : r ≤ m.firstLeaf.length
      · left
        have hw : (⟨.tree (t.splitAt n).1, n, v.generation + 1⟩ : PV α).WF :=
          ⟨w1, by simp only [n1]; omega⟩
        refine ⟨?_, ⟨hw⟩, hc⟩
        have hs := shows_of_wf hw
        simp only [abs, e3] at hs
        have : t.toList.take n = before ++ m.firstLeaf.take r := by
          rw [e1, hrest, e2, List.append_assoc, List.take_length_add_append,
            List.append_assoc, List.take_append_of_le_length hc]
        rw [this]; exact hs
      · right
        have hsh : (t.splitAt n).1.len < n := by omega
        refine ⟨not_shows_of_short rfl hsh, ?_, hc⟩
        intro hi'
        have := ((intact_tree rfl).1 hi').2
        simp only at this; omega
    · by_cases hc : m.flat.length ≤ m.firstLeaf.length
      · left
        have hw : (⟨.tree (t.splitAt n).2, v.len - n, v.generation + 1⟩ : PV α).WF :=
          ⟨w2, by simp only [n2]; omega⟩
        refine ⟨?_, ⟨hw⟩, hc⟩
        have hs := shows_of_wf hw
        simp only [abs, e4] at hs
        have hre : rest = [] := List.length_eq_zero_iff.1 (by omega)
        have : t.toList.drop n = m.firstLeaf.drop r ++ after := by
          rw [e1, hrest, hre, e2, List.append_assoc, List.drop_length_add_append,
            List.append_nil, List.drop_append_of_le_length (by omega)]
        rw [this]; exact hs
      · right
        have hsh : (t.splitAt n).2.len < v.len - n := by omega
        refine ⟨not_shows_of_short rfl hsh, ?_, hc⟩
        intro hi'
        have := ((intact_tree rfl).1 hi').2
        simp only at this; omega
  · have hout : ∀ t, v.inner = .tree t → t.root.depth ≤ t.height ∨ n ≤ t.head.length ∨
        t.head.length + t.root.flat.length ≤ n := by
      intro t ht
      right
      by_cases h1 : n ≤ t.head.length
      · exact .inl h1
      · right
        by_cases h2 : t.head.length + t.root.flat.length ≤ n
        · exact h2
        · exact absurd ⟨t, ht, by omega, by omega⟩ hin
    have hL : LeftOk v n := fun t ht hi => absurd ⟨t, ht, hi⟩ hin
    have hR : RightOk v n := fun t ht hi => absurd ⟨t, ht, hi⟩ hin
    have hs := c08_split_sound_partial h n hout
    have hint : Intact (v.splitAt n).1 ∧ Intact (v.splitAt n).2 := by
      unfold splitAt
      split
      · exact ⟨h, intact_new⟩
      · split
        · exact ⟨intact_new, h⟩
        · rename_i hge h0
          cases hinn : v.inner with
          | inline es =>
            have hw := h.wf
            unfold WF at hw; rw [hinn] at hw
            exact ⟨⟨⟨by simp only [List.length_take]; omega, by simp only [List.length_take]; omega⟩⟩,
              ⟨⟨by simp only [List.length_drop]; omega, by simp only [List.length_drop]; omega⟩⟩⟩
          | tree t =>
            obtain ⟨hwf, hl, hv⟩ := Intact.tree h hinn
            obtain ⟨s1, s2, l1, l2⟩ := Tree.splitAt_ok hwf n (hout t hinn)
            have e1 := congrArg List.length l1
            have e2 := congrArg List.length l2
            rw [s1.length, List.length_take, hwf.length] at e1
            rw [s2.length, List.length_drop, hwf.length] at e2
            exact ⟨(intact_tree rfl).2 ⟨s1, by simp only [e1]; omega⟩,
              (intact_tree rfl).2 ⟨s2, by simp only [e2]; omega⟩⟩
    exact ⟨.inl ⟨hs.1, hint.1, hL⟩, .inl ⟨hs.2, hint.2, hR⟩⟩

/-- C08, exactly when each part of a cut is right, for every intact vector. -/
theorem c08_split_iff {v : PV α} (h : Intact v) (n : Nat) :
    ((v.splitAt n).1.Shows (v.toVec.take n) ↔ LeftOk v n) ∧
    ((v.splitAt n).2.Shows (v.toVec.drop n) ↔ RightOk v n) := by
  obtain ⟨h1, h2⟩ := split_cases h n
  constructor
  · rcases h1 with ⟨a, _, c⟩ | ⟨a, _, c⟩
    · exact ⟨fun _ => c, fun _ => a⟩
    · exact ⟨fun hs => absurd hs (a _), fun hc => absurd hc c⟩
  · rcases h2 with ⟨a, _, c⟩ | ⟨a, _, c⟩
    · exact ⟨fun _ => c, fun _ => a⟩
    · exact ⟨fun hs => absurd hs (a _), fun hc => absurd hc c⟩

theorem RightOk.left {v : PV α} (h : Intact v) {n : Nat} (hr : RightOk v n) : LeftOk v n := by
  intro t ht hi
  obtain ⟨hwf, _, _⟩ := Intact.tree h ht
  obtain ⟨_, hlt, _⟩ := Tree.split_exact t.root hwf.sized t.height (n - t.head.length)
    (by have := hi.1; have := hi.2; omega)
  have := hr t ht hi
  rw [← this]
  exact Nat.le_of_lt hlt

/-- C08 as a whole (both parts, `take` and `skip`), exactly when it holds. -/
theorem c08_split_correct_iff {v : PV α} (h : Intact v) (n : Nat) :
    SplitCorrect v n ↔ RightOk v n := by
  obtain ⟨h1, h2⟩ := c08_split_iff h n
  constructor
  · intro hc; exact h2.1 hc.2.1
  · intro hr
    have a := h1.2 (hr.left h)
    have b := h2.2 hr
    refine ⟨a, b, ?_, ?_⟩
    · unfold take
      split
      · rename_i hge
        rw [List.take_of_length_le (by rw [← h.shows.len]; exact hge)]; exact h.shows
      · exact a
    · unfold skip
      split
      · rename_i hge
        rw [List.drop_of_length_le (by rw [← h.shows.len]; exact hge)]
        have := shows_of_wf (wf_new (α := α)); rwa [abs_new] at this
      · exact b

/-- C08: exactly when the parts of a cut are intact. -/
theorem c08_split_intact {v : PV α} (h : Intact v) (n : Nat) :
    (Intact (v.splitAt n).1 ↔ LeftOk v n) ∧ (Intact (v.splitAt n).2 ↔ RightOk v n) := by
  obtain ⟨h1, h2⟩ := split_cases h n
  constructor
  · rcases h1 with ⟨_, b, c⟩ | ⟨_, b, c⟩
    · exact ⟨fun _ => c, fun _ => b⟩
    · exact ⟨fun hs => absurd hs b, fun hc => absurd hc c⟩
  · rcases h2 with ⟨_, b, c⟩ | ⟨_, b, c⟩
    · exact ⟨fun _ => c, fun _ => b⟩
    · exact ⟨fun hs => absurd hs b, fun hc => absurd hc c⟩

/-- C08: a wrong part is never a shorter but consistent vector: it is damaged, i.e. its length is
not the number of its elements. -/
theorem c08_split_damage {v : PV α} (h : Intact v) (n : Nat) :
    (¬ LeftOk v n → (v.splitAt n).1.len = n ∧ ∀ xs, ¬ (v.splitAt n).1.Shows xs) ∧
    (¬ RightOk v n → (v.splitAt n).2.len = v.len - n ∧ ∀ xs, ¬ (v.splitAt n).2.Shows xs) := by
  obtain ⟨h1, h2⟩ := split_cases h n
  have hpos : ∀ {t : Tree α}, v.inner = .tree t → t.Inside n → ¬ n ≥ v.len ∧ n ≠ 0 := by
    intro t ht hi
    obtain ⟨hwf, hl, hv⟩ := Intact.tree h ht
    have := hi.1; have := hi.2; have := hwf.len; omega
  have hlen : (∃ t, v.inner = .tree t ∧ t.Inside n) →
      (v.splitAt n).1.len = n ∧ (v.splitAt n).2.len = v.len - n := by
    rintro ⟨t, ht, hi⟩
    have := hpos ht hi
    simp [PV.splitAt, this.1, this.2, ht]
  constructor
  · intro hn
    have hex : ∃ t, v.inner = .tree t ∧ t.Inside n := by
      apply Classical.byContradiction
      intro hne
      exact hn fun t ht hi => absurd ⟨t, ht, hi⟩ hne
    refine ⟨(hlen hex).1, ?_⟩
    rcases h1 with ⟨_, _, c⟩ | ⟨a, _, _⟩
    · exact absurd c hn
    · exact a
  · intro hn
    have hex : ∃ t, v.inner = .tree t ∧ t.Inside n := by
      apply Classical.byContradiction
      intro hne
      exact hn fun t ht hi => absurd ⟨t, ht, hi⟩ hne
    refine ⟨(hlen hex).2, ?_⟩
    rcases h2 with ⟨_, _, c⟩ | ⟨a, _, _⟩
    · exact absurd c hn
    · exact a

/-! ## C09: `insert`, `remove` -/

/-- C09: for a cut that is right, `insert` is right exactly when the concatenation it ends with is,
and the result is intact. -/
theorem c09_insert_iff {v : PV α} (h : Intact v) (i : Nat) (x : α) (hi : 0 < i)
    (hl : i < v.toVec.length) (hr : RightOk v i) :
    Intact (v.insert i x) ∧
    (InsertCorrect v i x ↔ ConcatCorrect ((v.splitAt i).1.pushBack x) (v.splitAt i).2) := by
  obtain ⟨h1, h2⟩ := c08_split_iff h i
  obtain ⟨j1, j2⟩ := c08_split_intact h i
  have a := h1.2 (hr.left h)
  have b := h2.2 hr
  have ia := j1.2 (hr.left h)
  have ib := j2.2 hr
  have hlen := h.shows.len
  have e : v.insert i x = ((v.splitAt i).1.pushBack x).concat (v.splitAt i).2 := by
    unfold PV.insert
    rw [if_neg (by omega), if_neg (by omega)]
  rw [e]
  refine ⟨(ia.pushBack x).concat ib, ?_⟩
  unfold InsertCorrect ConcatCorrect
  rw [e, (c03_push_back_partial ia x).toVec, a.toVec, b.toVec, List.append_assoc]
  rfl

/-- C09: the same for `remove`. -/
theorem c09_remove_iff {v : PV α} (h : Intact v) (i : Nat) (hl : i < v.toVec.length)
    (h1 : v.toVec.length ≠ 1) (hr : RightOk v i) (hr1 : RightOk (v.splitAt i).2 1) :
    ∃ w, v.remove i = some w ∧ Intact w ∧
      (w.Shows (v.toVec.eraseIdx i) ↔ ConcatCorrect (v.splitAt i).1 ((v.splitAt i).2.skip 1)) := by
  obtain ⟨s1, s2⟩ := c08_split_iff h i
  obtain ⟨j1, j2⟩ := c08_split_intact h i
  have a := s1.2 (hr.left h)
  have b := s2.2 hr
  have ia := j1.2 (hr.left h)
  have ib := j2.2 hr
  have c := ((c08_split_correct_iff ib 1).2 hr1).2.2.2
  have ic : Intact ((v.splitAt i).2.skip 1) := by
    unfold skip
    split
    · exact intact_new
    · exact (c08_split_intact ib 1).2.2 hr1
  have hlen := h.shows.len
  refine ⟨(v.splitAt i).1.concat ((v.splitAt i).2.skip 1), ?_, ia.concat ic, ?_⟩
  · unfold PV.remove
    rw [if_neg (by omega), if_neg (by omega)]
  · unfold ConcatCorrect
    rw [c.toVec, b.toVec, a.toVec, List.drop_drop, List.eraseIdx_eq_take_drop_succ]

end PV

/-! ## All histories without a damaging call -/

/-- All histories of API calls in which no call meets one of the three damaging situations. -/
inductive Guarded {α : Type} : PV α → Prop where
  | new : Guarded PV.new
  | unit (x : α) : Guarded (PV.unit x)
  | fromIter (xs : List α) : Guarded (PV.fromIter xs)
  | pushBack {v : PV α} (x : α) : Guarded v → Guarded (v.pushBack x)
  | pushFront {v : PV α} (x : α) : Guarded v → Guarded (v.pushFront x)
  | extend {v : PV α} (xs : List α) : Guarded v → Guarded (v.extend xs)
  | update {v : PV α} (i : Nat) (x : α) : Guarded v → Guarded (v.update i x)
  | concat {v w : PV α} : Guarded v → Guarded w → Guarded (v.concat w)
  | popBack {v w : PV α} {x : α} : Guarded v → ¬ v.StaleEnd → v.popBack = some (w, x) → Guarded w
  | popFront {v w : PV α} {x : α} : Guarded v → ¬ v.StaleFront → v.popFront = some (w, x) → Guarded w
  | splitLeft {v : PV α} (i : Nat) : Guarded v → v.LeftOk i → Guarded (v.splitAt i).1
  | splitRight {v : PV α} (i : Nat) : Guarded v → v.RightOk i → Guarded (v.splitAt i).2
  | take {v : PV α} (n : Nat) : Guarded v → v.LeftOk n → Guarded (v.take n)
  | skip {v : PV α} (n : Nat) : Guarded v → v.RightOk n → Guarded (v.skip n)
  | insert {v : PV α} (i : Nat) (x : α) : Guarded v → v.RightOk i → Guarded (v.insert i x)
  | remove {v w : PV α} (i : Nat) : Guarded v → v.RightOk i → (v.splitAt i).2.RightOk 1 →
      v.remove i = some w → Guarded w

variable {α : Type}

/-- C04: after any history without a damaging call the vector is intact, so that all theorems about
intact vectors apply to it. -/
theorem Guarded.c04_guarded_intact {v : PV α} (h : Guarded v) : Intact v := by
  induction h with
  | new => exact PV.intact_new
  | unit x => exact ⟨PV.wf_unit x⟩
  | fromIter xs => exact PV.intact_fromIter xs
  | pushBack x _ ih => exact ih.pushBack x
  | pushFront x _ ih => exact ih.pushFront x
  | extend xs _ ih => exact ih.extend xs
  | update i x _ ih => exact ih.update i x
  | concat _ _ ih1 ih2 => exact ih1.concat ih2
  | popBack _ hg hp ih => exact (PV.c06_pop_back_intact ih hp).2 hg
  | popFront _ hg hp ih => exact (PV.c07_pop_front_intact ih hp).2 hg
  | splitLeft i _ hg ih => exact (PV.c08_split_intact ih i).1.2 hg
  | splitRight i _ hg ih => exact (PV.c08_split_intact ih i).2.2 hg
  | take n _ hg ih =>
    unfold PV.take
    split
    · exact ih
    · exact (PV.c08_split_intact ih n).1.2 hg
  | skip n _ hg ih =>
    unfold PV.skip
    split
    · exact PV.intact_new
    · exact (PV.c08_split_intact ih n).2.2 hg
  | insert i x _ hg ih =>
    unfold PV.insert
    split
    · exact ih.pushBack x
    · split
      · exact ih.pushFront x
      · exact (((PV.c08_split_intact ih i).1.2 (hg.left ih)).pushBack x).concat
          ((PV.c08_split_intact ih i).2.2 hg)
  | remove i _ hg hg1 hp ih =>
    have ib := (PV.c08_split_intact ih i).2.2 hg
    unfold PV.remove at hp
    split at hp
    · cases hp
    · split at hp
      · cases hp; exact PV.intact_new
      · simp only [Option.some.injEq] at hp
        subst hp
        refine ((PV.c08_split_intact ih i).1.2 (hg.left ih)).concat ?_
        unfold PV.skip
        split
        · exact PV.intact_new
        · exact (PV.c08_split_intact ib 1).2.2 hg1

/-- The guarded histories are histories. -/
theorem Guarded.reach {v : PV α} (h : Guarded v) : Reach v := by
  induction h with
  | new => exact .new
  | unit x => exact .unit x
  | fromIter xs => exact .fromIter xs
  | pushBack x _ ih => exact .pushBack x ih
  | pushFront x _ ih => exact .pushFront x ih
  | extend xs _ ih => exact .extend xs ih
  | update i x _ ih => exact .update i x ih
  | concat _ _ ih1 ih2 => exact .concat ih1 ih2
  | popBack _ _ hp ih => exact .popBack ih hp
  | popFront _ _ hp ih => exact .popFront ih hp
  | splitLeft i _ _ ih => exact .splitLeft i ih
  | splitRight i _ _ ih => exact .splitRight i ih
  | take n _ _ ih => exact .take n ih
  | skip n _ _ ih => exact .skip n ih
  | insert i x _ _ ih => exact .insert i x ih
  | remove i _ _ _ hp ih => exact .remove i ih hp

/-! ## Executable versions of the conditions, for the sample cases -/

namespace PV

mutual
/-- `Node.Sized` as a test. -/
def sizedB : Node α → Bool
  | .leaf _ => true
  | .branch cs s => !cs.isEmpty && s == some (cs.map fun c => c.flat.length) && sizedBL cs
/-- `Node.SizedL` as a test. -/
def sizedBL : List (Node α) → Bool
  | [] => true
  | c :: cs => sizedB c && sizedBL cs
end

theorem sizedB_iff (n : Node α) : sizedB n = true → n.Sized := by
  induction n using Node.induct with
  | hleaf es => intro _; simp
  | hbranch cs s ih =>
    intro h
    simp only [sizedB, Bool.and_eq_true, beq_iff_eq] at h
    refine (Node.sized_branch _ _).2 ⟨?_, h.1.2, ?_⟩
    · intro e; simp [e] at h
    · have hL : ∀ ds : List (Node α), sizedBL ds = true → ∀ d ∈ ds, sizedB d = true := by
        intro ds
        induction ds with
        | nil => intro _ d hd; cases hd
        | cons a as iha =>
          intro h d hd
          simp only [sizedBL, Bool.and_eq_true] at h
          simp only [List.mem_cons] at hd
          rcases hd with rfl | hd
          · exact h.1
          · exact iha h.2 d hd
      intro c hc
      exact ih c hc (hL cs h.2 c hc)

/-- `Intact` as a test. -/
def intactB (v : PV α) : Bool :=
  match v.inner with
  | .inline es => v.len == es.length && decide (es.length ≤ ADAPTIVE_INLINE_SIZE)
  | .tree t => sizedB t.root && t.len == t.head.length + t.root.flat.length + t.tail.length &&
      v.len == t.len

theorem intact_of_test {v : PV α} (h : intactB v = true) : Intact v := by
  constructor
  unfold intactB at h
  unfold WF
  cases hin : v.inner with
  | inline es => rw [hin] at h; simpa using h
  | tree t =>
    rw [hin] at h
    simp only [Bool.and_eq_true, beq_iff_eq] at h
    exact ⟨⟨sizedB_iff _ h.1.1, h.1.2⟩, h.2⟩

/-- `StaleEnd` as a test. -/
def staleEndB (v : PV α) : Bool :=
  match v.inner with
  | .inline _ => false
  | .tree t => t.tail.isEmpty && t.head.isEmpty && t.root.lastLeaf.isEmpty && decide (2 ≤ t.len)

theorem staleEnd_iff (v : PV α) : v.StaleEnd ↔ staleEndB v = true := by
  unfold StaleEnd staleEndB
  cases h : v.inner with
  | inline es => simp
  | tree t => simp [and_assoc]

/-- `StaleFront` as a test. -/
def staleFrontB (v : PV α) : Bool :=
  match v.inner with
  | .inline _ => false
  | .tree t => t.head.isEmpty && !t.root.flat.isEmpty && t.root.firstLeaf.isEmpty

theorem staleFront_iff (v : PV α) : v.StaleFront ↔ staleFrontB v = true := by
  unfold StaleFront staleFrontB
  cases h : v.inner with
  | inline es => simp
  | tree t => simp [and_assoc]

/-- `TailOnly` as a test. -/
def tailOnlyB (v : PV α) : Bool :=
  match v.inner with
  | .inline _ => false
  | .tree t => t.head.isEmpty && t.root.flat.isEmpty

theorem tailOnly_iff (v : PV α) : v.TailOnly ↔ tailOnlyB v = true := by
  unfold TailOnly tailOnlyB
  cases h : v.inner with
  | inline es => simp
  | tree t => simp

/-- `LeftOk` as a test. -/
def leftOkB (v : PV α) (n : Nat) : Bool :=
  match v.inner with
  | .inline _ => true
  | .tree t => decide (t.head.length < n ∧ n < t.head.length + t.root.flat.length →
      (cutAt t n).2 ≤ (cutAt t n).1.firstLeaf.length)

theorem leftOk_iff (v : PV α) (n : Nat) : v.LeftOk n ↔ leftOkB v n = true := by
  unfold LeftOk leftOkB Tree.Inside
  cases h : v.inner with
  | inline es => simp
  | tree t => simp only [decide_eq_true_eq]; exact ⟨fun h hh => h t rfl hh, fun h t' e hh => by cases e; exact h hh⟩

end PV

/-- A split-off suffix of 20 elements, 65 pushed at its front, one popped there and 20 popped at the
back: an intact vector whose next `pop_back` does damage. -/
def nearlyStale : PV Nat :=
  PV.times 20 PV.dropBack
    (PV.dropFront (PV.times 65 (·.pushFront 7) ((PV.fromIter (List.range 100)).splitAt 80).2))

example : PV.intactB nearlyStale = true ∧ PV.staleEndB nearlyStale = true ∧
    nearlyStale.popBack.isSome = true ∧
    nearlyStale.popBack.map (fun p => PV.intactB p.1) = some false := by decide +kernel

/-- A split-off suffix grown at the back past the buffer size: its `pop_front` loses 64 elements. -/
def staleFrontSample : PV Nat :=
  PV.times 65 (·.pushBack 3) ((PV.fromIter (List.range 100)).splitAt 80).2

example : PV.intactB staleFrontSample = true ∧ PV.staleFrontB staleFrontSample = true ∧
    staleFrontSample.popFront.map (fun p => (p.1.toVec.length, p.1.len)) = some (20, 84) := by
  decide +kernel

/-- A collected vector whose tree part has been drained from the front. -/
def tailOnlySample : PV Nat := PV.times 64 PV.dropFront (PV.fromIter (List.range 67))

example : PV.intactB tailOnlySample = true ∧ PV.tailOnlyB tailOnlySample = true ∧
    tailOnlySample.toVec = [64, 65, 66] ∧
    tailOnlySample.popFront.map (fun p => p.1.toVec) = some [66, 65] := by decide +kernel

/-- Two collected vectors concatenated: the recorded height is too small for the depth. -/
def shallow : PV Nat := (PV.fromIter (List.range 65)).concat (PV.fromIter (List.range 65))

example : PV.intactB shallow = true ∧ PV.leftOkB shallow 70 = false ∧ PV.leftOkB shallow 64 = true ∧
    (shallow.splitAt 64).1.toVec = shallow.toVec.take 64 ∧
    (shallow.splitAt 64).2.toVec ≠ shallow.toVec.drop 64 := by decide +kernel

/-- Two collected vectors concatenated, pushed, and popped at the front: a history to which the
theorem applies. -/
example : ∃ w, (shallow.pushBack 1).popFront.map Prod.fst = some w ∧ Guarded w ∧
    w.toVec.length = 130 := by
  have hg : Guarded (shallow.pushBack 1) := .pushBack 1 (.concat (.fromIter _) (.fromIter _))
  have hs : ¬ (shallow.pushBack 1).StaleFront := by rw [PV.staleFront_iff]; decide +kernel
  have hl : (shallow.pushBack 1).popFront.map (fun p => p.1.toVec.length) = some 130 := by
    decide +kernel
  cases hp : (shallow.pushBack 1).popFront with
  | none => rw [hp] at hl; cases hl
  | some p =>
    rw [hp] at hl
    exact ⟨p.1, rfl, .popFront hg hs (x := p.2) hp, Option.some.inj hl⟩

theorem nearlyStale_intact : Intact nearlyStale := PV.intact_of_test (by decide +kernel)
theorem staleFrontSample_intact : Intact staleFrontSample := PV.intact_of_test (by decide +kernel)
theorem tailOnlySample_intact : Intact tailOnlySample := PV.intact_of_test (by decide +kernel)
theorem shallow_intact : Intact shallow := PV.intact_of_test (by decide +kernel)

/-- `c06_pop_back_intact`: an intact vector whose next `pop_back` does damage. -/
example (w : PV Nat) (x : Nat) (h : nearlyStale.popBack = some (w, x)) : ¬ Intact w := by
  rw [PV.c06_pop_back_intact nearlyStale_intact h, PV.staleEnd_iff]
  decide +kernel

/-- `c07_pop_front_exact`, `c07_pop_front_iff`: the second case, the elements left over are reversed. -/
example : ∃ w x ys, tailOnlySample.popFront = some (w, x) ∧ tailOnlySample.toVec = x :: ys ∧ w.Shows ys.reverse := by
  have ht : tailOnlySample.TailOnly := by rw [PV.tailOnly_iff]; decide +kernel
  have hs : ¬ tailOnlySample.StaleFront := by rw [PV.staleFront_iff]; decide +kernel
  rcases PV.c07_pop_front_exact tailOnlySample_intact (by decide +kernel) with h | h | h
  · exact absurd ht h.2.1
  · obtain ⟨_, w, x, ys, h1, h2, h3, _⟩ := h; exact ⟨w, x, ys, h1, h2, h3⟩
  · exact absurd h.1 hs

example : ¬ PV.PopFrontCorrect tailOnlySample ∧ ¬ PV.PopFrontCorrect staleFrontSample := by
  rw [PV.c07_pop_front_iff tailOnlySample_intact, PV.c07_pop_front_iff staleFrontSample_intact, PV.tailOnly_iff,
    PV.tailOnly_iff, PV.staleFront_iff, PV.staleFront_iff]
  decide +kernel

example (w : PV Nat) (x : Nat) (h : staleFrontSample.popFront = some (w, x)) : ¬ Intact w := by
  rw [PV.c07_pop_front_intact staleFrontSample_intact h, PV.staleFront_iff]
  decide +kernel

/-- `c08_split_iff`, `c08_split_intact`, `c08_split_damage`: cut at 70, the left part is damaged; at 64 it is not. -/
example : ¬ (shallow.splitAt 70).1.Shows (shallow.toVec.take 70) ∧ (shallow.splitAt 64).1.Shows (shallow.toVec.take 64) ∧
    ¬ Intact (shallow.splitAt 70).1 ∧ (shallow.splitAt 70).1.len = 70 := by
  have h70 : ¬ shallow.LeftOk 70 := by rw [PV.leftOk_iff]; decide +kernel
  have h64 : shallow.LeftOk 64 := by rw [PV.leftOk_iff]; decide +kernel
  exact ⟨fun h => h70 ((PV.c08_split_iff shallow_intact 70).1.1 h), (PV.c08_split_iff shallow_intact 64).1.2 h64,
    fun h => h70 ((PV.c08_split_intact shallow_intact 70).1.1 h), ((PV.c08_split_damage shallow_intact 70).1 h70).1⟩

/-- `c08_split_correct_iff`, in both directions. -/
theorem rightOk_range (n m : Nat) : PV.RightOk (PV.fromIter (List.range n)) m :=
  (PV.c08_split_correct_iff (PV.intact_fromIter _) m).1 (PV.c08_split_partial (.fromIter _) m).1

example : ¬ shallow.RightOk 64 := fun h =>
  absurd ((PV.c08_split_correct_iff shallow_intact 64).2 h).2.1.toVec (by decide +kernel)

/-- `c09_insert_iff` and `c09_remove_iff` on a vector of two levels. -/
example : Intact ((PV.fromIter (List.range 200)).insert 70 1000) :=
  (PV.c09_insert_iff (PV.intact_fromIter _) 70 1000 (by decide) (by decide +kernel) (rightOk_range 200 70)).1

example : ∃ w, (PV.fromIter (List.range 200)).remove 70 = some w ∧ Intact w :=
  have ⟨w, h1, h2, _⟩ := PV.c09_remove_iff (PV.intact_fromIter _) 70 (by decide +kernel) (by decide +kernel)
    (rightOk_range 200 70) ((PV.c08_split_correct_iff (.tame (.splitRight _ (.fromIter _))) 1).1
      (PV.c08_split_partial (.splitRight _ (.fromIter _)) 1).1)
  ⟨w, h1, h2⟩

end Rustica.PVec
