import Verif.PVec.Theorems.Concat

/-!
# C06, C07: `pop_back` and `pop_front`
-/

namespace Rustica.PVec
namespace PV

variable {α : Type}

/-- The full claim of C06 for one vector: `None` exactly when empty, otherwise the last element
and the rest. -/
def PopBackCorrect (v : PV α) : Prop :=
  match v.popBack with
  | none => v.toVec = []
  | some (w, x) => ∃ ys, v.toVec = ys ++ [x] ∧ w.Shows ys

/-- The full claim of C07 for one vector. -/
def PopFrontCorrect (v : PV α) : Prop :=
  match v.popFront with
  | none => v.toVec = []
  | some (w, x) => ∃ ys, v.toVec = x :: ys ∧ w.Shows ys

/-! ## C06 -/

/-- The full claim of C06 fails: 128 collected elements and one pushed at the front give a
non-empty vector whose `pop_back` is `None`. -/
theorem c06_pop_back_false : ¬ ∀ v : PV Nat, Reach v → PopBackCorrect v := by
  obtain ⟨v, hr, e, l⟩ : ∃ v : PV Nat, Reach v ∧ v.popBack.isNone = true ∧ v.toVec.length = 129 :=
    ⟨_, .pushFront 1000 (.fromIter (List.range 128)), by decide +kernel, by decide +kernel⟩
  intro h
  have hc := h v hr
  unfold PopBackCorrect at hc
  cases hp : v.popBack with
  | none => rw [hp] at hc; simp only at hc; rw [hc] at l; simp at l
  | some p => rw [hp] at e; simp at e

/-- C06 for every vector that has not been through `push_front`, `concat` or `pop_front`
(or was rebuilt since): `pop_back` is exact and the result is again such a vector. -/
theorem c06_pop_back_partial {v : PV α} (h : Tame v) :
    PopBackCorrect v ∧ ∀ w x, v.popBack = some (w, x) → Tame w := by
  refine ⟨?_, fun w x hp => .popBack h hp⟩
  unfold PopBackCorrect
  rcases h.stack.popBack with ⟨he, hn⟩ | ⟨w, x, hp, hs, hl⟩
  · rw [hn]; simpa [toVec_eq h.stack.wf] using he
  · rw [hp]
    exact ⟨w.abs, by rw [toVec_eq h.stack.wf, hl], shows_of_wf hs.wf⟩

example : ∀ v : PV Nat, v = ((PV.fromIter (List.range 200)).splitAt 130).1.pushBack 7 → PopBackCorrect v :=
  fun _ e => (c06_pop_back_partial (e ▸ .pushBack _ (.splitLeft _ (.fromIter _)))).1

/-- Popping `k` elements off the end. -/
def popBackN : Nat → PV α → Option (PV α × List α)
  | 0, v => some (v, [])
  | k + 1, v =>
    match popBackN k v with
    | none => none
    | some (w, ys) =>
      match w.popBack with
      | none => none
      | some (w', x) => some (w', x :: ys)

/-- C06, repeated: draining `k ≤ len` elements from the end of such a vector yields its last `k`
elements and leaves the rest. -/
theorem c06_drain_partial {v : PV α} (h : Tame v) (k : Nat) (hk : k ≤ v.toVec.length) :
    ∃ w, popBackN k v = some (w, v.toVec.drop (v.toVec.length - k)) ∧ Tame w ∧
      w.Shows (v.toVec.take (v.toVec.length - k)) := by
  induction k with
  | zero => exact ⟨v, by simp [popBackN], h, by simpa using (Sound.tame h).shows⟩
  | succ k ih =>
    obtain ⟨w, hw, ht, hs⟩ := ih (by omega)
    obtain ⟨hc, hclose⟩ := c06_pop_back_partial ht
    unfold PopBackCorrect at hc
    have hwlen : w.toVec.length = v.toVec.length - k := by
      rw [hs.toVec, List.length_take]; omega
    cases hp : w.popBack with
    | none => rw [hp] at hc; simp only at hc; rw [hc] at hwlen; simp at hwlen; omega
    | some p =>
      obtain ⟨w', x⟩ := p
      rw [hp] at hc
      obtain ⟨ys, hy, hsy⟩ := hc
      refine ⟨w', ?_, hclose w' x hp, ?_⟩
      · simp only [popBackN, hw, hp, Option.some.injEq, Prod.mk.injEq, true_and]
        have e := hs.toVec
        rw [hy] at e
        have hlt : v.toVec.length - (k + 1) < v.toVec.length := by omega
        rw [List.drop_eq_getElem_cons hlt]
        have e1 : v.toVec.length - (k + 1) + 1 = v.toVec.length - k := by omega
        rw [e1]
        congr 1
        have : (ys ++ [x]).getLast? = (v.toVec.take (v.toVec.length - k)).getLast? := by rw [e]
        rw [List.getLast?_concat, List.getLast?_eq_getElem?, List.length_take,
          List.getElem?_take] at this
        have e2 : min (v.toVec.length - k) v.toVec.length - 1 = v.toVec.length - (k + 1) := by omega
        rw [e2, if_pos (by omega), List.getElem?_eq_getElem hlt] at this
        exact Option.some.inj this
      · have e := hs.toVec
        rw [hy] at e
        have : ys = v.toVec.take (v.toVec.length - (k + 1)) := by
          have h1 := congrArg List.dropLast e
          rw [List.dropLast_concat, List.dropLast_eq_take, List.take_take, List.length_take] at h1
          rw [h1]; congr 1; omega
        rwa [← this]

example : ∃ w, popBackN 150 (PV.fromIter (List.range 200)) = some (w, (List.range 200).drop 50) ∧
    w.Shows ((List.range 200).take 50) := by
  obtain ⟨w, h1, _, h2⟩ := c06_drain_partial (.fromIter (List.range 200)) 150 (by decide +kernel)
  have e : (PV.fromIter (List.range 200)).toVec = List.range 200 := c01_round_trip _
  rw [e, List.length_range] at h1 h2
  exact ⟨w, h1, h2⟩

theorem shows_of_get {v : PV α} {xs : List α} (hl : v.len = xs.length) (hg : ∀ i, v.get i = xs[i]?) :
    v.Shows xs :=
  { len := hl
    isEmpty := by unfold PV.isEmpty; rw [hl]; cases xs <;> simp
    get := hg
    toVec := by
      unfold toVec items iter
      rw [collect_eq v xs hl.symm hg (v.len + 1) 0 (by omega) (by omega)]
      simp }

theorem pop_back_cases {v : PV α} (h : Intact v) :
    PopBackCorrect v ∨
    (∃ t, v.inner = .tree t ∧ t.tail = [] ∧ t.head ≠ [] ∧ v.popBack = none ∧ v.toVec ≠ []) := by
  have hwf := h.wf
  have hs := h.shows
  have hlen := hwf.length
  rw [← toVec_eq hwf] at hlen
  by_cases h0 : v.len = 0
  · left
    unfold PopBackCorrect
    have : v.popBack = none := by simp [popBack, isEmpty, h0]
    rw [this]
    exact List.length_eq_zero_iff.1 (by omega)
  · cases hin : v.inner with
    | inline es =>
      left
      have hw := hwf
      unfold WF at hw; rw [hin] at hw
      have hne : es ≠ [] := by intro he; simp [he] at hw; omega
      unfold PopBackCorrect
      have hp : v.popBack = some (⟨.inline es.dropLast, v.len - 1, v.generation + 1⟩, es.getLast hne) := by
        simp [popBack, isEmpty, h0, hin, List.getLast?_eq_some_getLast hne]
      rw [hp]
      refine ⟨es.dropLast, ?_, ?_⟩
      · rw [toVec_eq hwf]; simp only [abs, hin]; exact (List.dropLast_concat_getLast hne).symm
      · have : (⟨.inline es.dropLast, v.len - 1, v.generation + 1⟩ : PV α).WF :=
          ⟨by simp [hw.1], by simp; omega⟩
        exact shows_of_wf this
    | tree t =>
      have hw := hwf
      unfold WF at hw; rw [hin] at hw
      by_cases ht : t.tail = []
      · by_cases hh : t.head = []
        · by_cases hl : t.root.lastLeaf = [] ∧ 2 ≤ t.len
          · left
            have hst := Tree.popBack_stale hw.1 hl.2 ht hh hl.1
            have hfl : t.toList = t.root.flat := by simp [Tree.toList, ht, hh]
            have htl := hw.1.len
            simp only [ht, hh, List.length_nil] at htl
            have hne : t.root.flat ≠ [] := by intro he; simp [he] at htl; omega
            rw [hfl, List.getLast?_eq_some_getLast hne, Option.map_some] at hst
            unfold PopBackCorrect
            have hpb : v.popBack = some (⟨.tree { t with len := t.len - 1 }, v.len - 1,
                v.generation + 1⟩, t.root.flat.getLast hne) := by
              simp [popBack, isEmpty, h0, hin, hst]
            rw [hpb]
            refine ⟨t.root.flat.dropLast, ?_, shows_of_get ?_ ?_⟩
            · rw [toVec_eq hwf]; simp only [abs, hin, hfl]
              exact (List.dropLast_concat_getLast hne).symm
            · simp only [List.length_dropLast, hw.2]; omega
            · intro i
              simp only [get, Tree.get, hw.2, Tree.treeSize, ht, hh, List.length_nil, Nat.sub_zero,
                Tree.getFromTree, Nat.not_lt_zero, if_false]
              by_cases hi : i < t.len - 1
              · rw [if_neg (by omega), if_neg (by omega), if_pos hi,
                  Tree.getFromNode_eq _ hw.1.sized, List.getElem?_dropLast]
                rw [if_pos (by omega)]
              · rw [if_pos (by omega), List.getElem?_eq_none (by simp; omega)]
          · left
            obtain ⟨t', x, hp, hw', hl', hn⟩ := Tree.popBack_ok hw.1 (by rw [← hw.2]; exact h0)
              (.inr ⟨hh, by
                by_cases h1 : t.root.lastLeaf = []
                · right
                  have h2 : ¬ 2 ≤ t.len := fun h2 => hl ⟨h1, h2⟩
                  have h3 := hw.2
                  omega
                · exact .inl h1⟩)
            unfold PopBackCorrect
            have : v.popBack = some (⟨.tree t', v.len - 1, v.generation + 1⟩, x) := by simp [popBack, isEmpty, h0, hin, hp]
            rw [this]
            refine ⟨t'.toList, by rw [toVec_eq hwf]; simp [abs, hin, hl'], ?_⟩
            have : (⟨.tree t', v.len - 1, v.generation + 1⟩ : PV α).WF :=
              ⟨hw', by simp [hn, hw.2]⟩
            exact shows_of_wf this
        · right
          refine ⟨t, rfl, ht, hh, ?_, ?_⟩
          · simp [popBack, isEmpty, h0, hin, Tree.popBack_none hw.1 ht hh]
          · intro he; rw [he] at hlen; simp at hlen; omega
      · left
        obtain ⟨t', x, hp, hw', hl', hn⟩ := Tree.popBack_ok hw.1 (by rw [← hw.2]; exact h0) (.inl ht)
        unfold PopBackCorrect
        have : v.popBack = some (⟨.tree t', v.len - 1, v.generation + 1⟩, x) := by simp [popBack, isEmpty, h0, hin, hp]
        rw [this]
        refine ⟨t'.toList, by rw [toVec_eq hwf]; simp [abs, hin, hl'], ?_⟩
        have : (⟨.tree t', v.len - 1, v.generation + 1⟩ : PV α).WF :=
          ⟨hw', by simp [hn, hw.2]⟩
        exact shows_of_wf this

/-- C06, exactly when it holds, for every vector that has not been through `pop_front`:
`pop_back` fails precisely when the suffix buffer is empty and the prefix buffer is not (it is
then `None` although the vector is not empty). -/
theorem c06_pop_back_iff {v : PV α} (h : Intact v) :
    PopBackCorrect v ↔ ¬ ∃ t, v.inner = .tree t ∧ t.tail = [] ∧ t.head ≠ [] := by
  constructor
  · rintro hc ⟨t, hin, ht, hh⟩
    have hw := h.wf
    unfold WF at hw; rw [hin] at hw
    have hlen := h.shows.len
    have hpos : 0 < t.head.length := List.length_pos_iff.2 hh
    have h0 : v.len ≠ 0 := by rw [hw.2, hw.1.len]; omega
    have hp : v.popBack = none := by
      simp [popBack, isEmpty, h0, hin, Tree.popBack_none hw.1 ht hh]
    unfold PopBackCorrect at hc
    rw [hp] at hc
    simp only at hc
    rw [hc] at hlen; simp at hlen; omega
  · intro hn
    rcases pop_back_cases h with hc | ⟨t, h1, h2, h3, _⟩
    · exact hc
    · exact absurd ⟨t, h1, h2, h3⟩ hn

example : Tame (((PV.fromIter (List.range 200)).splitAt 130).1.pushBack 7) :=
  .pushBack _ (.splitLeft _ (.fromIter _))

example : ((((PV.fromIter (List.range 200)).splitAt 130).1.pushBack 7).popBack.map
    fun p => (p.1.len, p.2)) = some (130, 7) := by decide +kernel

/-! ## C07 -/

/-- The full claim of C07 fails: after draining the 64-element tree part of a 67-element
vector, the remaining elements come out in the wrong order. -/
theorem c07_pop_front_false : ¬ ∀ v : PV Nat, Reach v → PopFrontCorrect v := by
  have step : ∀ v : PV Nat, (∀ v : PV Nat, Reach v → PopFrontCorrect v) → Reach v →
      ∀ w x, v.popFront = some (w, x) → Reach w ∧ v.toVec = x :: w.toVec := by
    intro v h hr w x hp
    refine ⟨.popFront hr hp, ?_⟩
    have := h v hr
    unfold PopFrontCorrect at this
    rw [hp] at this
    obtain ⟨ys, h1, h2⟩ := this
    rw [h1, h2.toVec]
  intro h
  -- iterate `pop_front` 65 times
  have iter : ∀ k, ∀ v : PV Nat, Reach v → ∀ w, Nat.repeat (fun o : Option (PV Nat) =>
      o.bind fun v => v.popFront.map (·.1)) k (some v) = some w →
      Reach w ∧ w.toVec = v.toVec.drop k := by
    intro k
    induction k with
    | zero => intro v hr w hw; simp [Nat.repeat] at hw; subst hw; exact ⟨hr, by simp⟩
    | succ k ih =>
      intro v hr w hw
      simp only [Nat.repeat] at hw
      cases hq : Nat.repeat (fun o : Option (PV Nat) =>
          o.bind fun v => v.popFront.map (·.1)) k (some v) with
      | none => rw [hq] at hw; simp at hw
      | some u =>
        obtain ⟨hru, hu⟩ := ih v hr u hq
        rw [hq] at hw
        simp only [Option.bind_some, Option.map_eq_some_iff] at hw
        obtain ⟨⟨w', x⟩, hp, rfl⟩ := hw
        obtain ⟨h1, h2⟩ := step u h hru _ x hp
        refine ⟨h1, ?_⟩
        have := congrArg List.tail h2
        rw [hu, List.tail_drop] at this
        simpa using this.symm
  cases hq : Nat.repeat (fun o : Option (PV Nat) =>
          o.bind fun v => v.popFront.map (·.1)) 65 (some (PV.fromIter (List.range 67))) with
  | none =>
    have : (Nat.repeat (fun o : Option (PV Nat) =>
          o.bind fun v => v.popFront.map (·.1)) 65 (some (PV.fromIter (List.range 67)))).isSome = true := by
      decide +kernel
    rw [hq] at this; simp at this
  | some w =>
    have h1 := (iter 65 _ (.fromIter _) w hq).2
    have h2 : (Nat.repeat (fun o : Option (PV Nat) =>
          o.bind fun v => v.popFront.map (·.1)) 65 (some (PV.fromIter (List.range 67)))).map PV.toVec
          = some [66, 65] := by decide +kernel
    rw [hq] at h2
    simp only [Option.map_some, Option.some.injEq] at h2
    rw [h2, c01_round_trip] at h1
    revert h1; decide +kernel

/-- C07 for vectors that still are in the inline representation (never more than 64
elements): `pop_front` is exact, and the result is again inline. -/
theorem c07_pop_front_small_partial {v : PV α} (h : Intact v) (hsmall : v.isTree = false) :
    PopFrontCorrect v ∧ ∀ w x, v.popFront = some (w, x) → w.isTree = false := by
  have hwf := h.wf
  unfold isTree at hsmall
  cases hin : v.inner with
  | tree t => rw [hin] at hsmall; simp at hsmall
  | inline es =>
    have hw := hwf
    unfold WF at hw; rw [hin] at hw
    unfold PopFrontCorrect
    cases es with
    | nil =>
      have : v.popFront = none := by simp [popFront, isEmpty, hw.1]
      rw [this]
      exact ⟨by rw [toVec_eq hwf]; simp [abs, hin], by intro w x h; cases h⟩
    | cons e es =>
      have hp : v.popFront = some (⟨.inline es, v.len - 1, v.generation + 1⟩, e) := by simp [popFront, isEmpty, hw.1, hin]
      rw [hp]
      refine ⟨⟨es, by rw [toVec_eq hwf]; simp [abs, hin], ?_⟩, ?_⟩
      · have : (⟨.inline es, v.len - 1, v.generation + 1⟩ : PV α).WF :=
          ⟨by simp [hw.1], by have := hw.2; simp at this; omega⟩
        exact shows_of_wf this
      · intro w x h
        simp only [Option.some.injEq, Prod.mk.injEq] at h
        obtain ⟨rfl, _⟩ := h
        rfl

example : PopFrontCorrect (PV.fromIter [3, 1, 2]) := (c07_pop_front_small_partial (.tame (.fromIter _)) rfl).1

/-- All leaves below a node hold at least one element. -/
inductive FullLeaves : Node α → Prop where
  | leaf {es : List α} : es ≠ [] → FullLeaves (.leaf es)
  | branch {cs : List (Node α)} {s} : cs ≠ [] → (∀ c ∈ cs, FullLeaves c) → FullLeaves (.branch cs s)

theorem Bal.full {d : Nat} {n : Node α} (h : Bal d n) : FullLeaves n := by
  induction h with
  | leaf h => exact .leaf h
  | branch h _ ih => exact .branch h ih

theorem FullLeaves.firstLeaf_ne {n : Node α} (h : FullLeaves n) : n.firstLeaf ≠ [] := by
  induction h with
  | leaf h => simpa using h
  | @branch cs s hne _ ih =>
    cases cs with
    | nil => exact absurd rfl hne
    | cons c cs => simpa using ih c (by simp)

theorem FullLeaves.flat_ne {n : Node α} (h : FullLeaves n) : n.flat ≠ [] := by
  induction h with
  | leaf h => simpa using h
  | @branch cs s hne _ ih =>
    cases cs with
    | nil => exact absurd rfl hne
    | cons c cs => simp [ih c (by simp)]

theorem FullLeaves.popFront {n : Node α} (h : FullLeaves n) : n.Sized → ∀ n' x,
    n.popFront = some (n', x) → n'.flat = [] ∨ FullLeaves n' := by
  induction h with
  | @leaf es hne =>
    intro _ n' x hp
    cases es with
    | nil => exact absurd rfl hne
    | cons e es =>
      simp only [Node.popFront, Option.some.injEq, Prod.mk.injEq] at hp
      obtain ⟨rfl, _⟩ := hp
      cases es with
      | nil => left; rfl
      | cons e' es => right; exact .leaf (by simp)
  | @branch cs s hne hc ih =>
    intro hs n' x hp
    cases cs with
    | nil => exact absurd rfl hne
    | cons c post =>
      obtain ⟨_, _, hsc⟩ := (Node.sized_branch _ _).1 hs
      rw [Node.popFront] at hp
      cases hpc : c.popFront with
      | none => simp [hpc] at hp
      | some p =>
        obtain ⟨c', y⟩ := p
        have hsc' := hsc c (by simp)
        have hs' : c'.Sized := by
          rcases Node.popFront_spec c hsc' with ⟨_, n', x', hp', hs', _⟩ | ⟨_, hn⟩
          · rw [hpc] at hp'; cases hp'; exact hs'
          · rw [hpc] at hn; cases hn
        simp only [hpc] at hp
        rw [Node.calculateSize_eq hs'] at hp
        by_cases h0 : c'.flat.length = 0
        · simp only [h0, if_true] at hp
          by_cases hpost : post = []
          · simp only [hpost, List.isEmpty_nil, if_true, Option.some.injEq, Prod.mk.injEq] at hp
            obtain ⟨rfl, _⟩ := hp
            left; rfl
          · have hpe : post.isEmpty = false := by simpa using hpost
            simp only [hpe, Bool.false_eq_true, if_false, Option.some.injEq, Prod.mk.injEq] at hp
            obtain ⟨rfl, _⟩ := hp
            right; exact .branch hpost fun d hd => hc d (by simp [hd])
        · simp only [h0, if_false, Option.some.injEq, Prod.mk.injEq] at hp
          obtain ⟨rfl, _⟩ := hp
          right
          refine .branch (by simp) fun d hd => ?_
          simp only [List.mem_cons] at hd
          rcases hd with rfl | hd
          · rcases ih c (by simp) hsc' _ _ hpc with h | h
            · exact absurd (by simp [h]) h0
            · exact h
          · exact hc d (by simp [hd])

/-- Popping `k` elements off the front. -/
def popFrontN : Nat → PV α → Option (List α × PV α)
  | 0, v => some ([], v)
  | k + 1, v =>
    match popFrontN k v with
    | none => none
    | some (ys, w) =>
      match w.popFront with
      | none => none
      | some (w', x) => some (ys ++ [x], w')

/-- The number of elements of an `n`-element sequence that `from_iter` puts into the tree. -/
def treePart (n : Nat) : Nat := n / 64 * 64

theorem drain_inv (xs : List α) (hx : 64 < xs.length) (k : Nat) (hk : k ≤ treePart xs.length) :
    ∃ w t, popFrontN k (PV.fromIter xs) = some (xs.take k, w) ∧ w.inner = .tree t ∧ t.WF ∧
      w.len = t.len ∧ t.head = [] ∧ t.tail = xs.drop (treePart xs.length) ∧
      t.toList = xs.drop k ∧ (t.root.flat = [] ∨ FullLeaves t.root) := by
  induction k with
  | zero =>
    obtain ⟨h1, h2, h3, h4⟩ := Tree.fromElements_spec xs
    have hnot : ¬ xs.length ≤ ADAPTIVE_INLINE_SIZE := by simp only [ADAPTIVE_INLINE_SIZE]; omega
    have hv : PV.fromIter xs = ⟨.tree (Tree.fromElements xs), xs.length, 0⟩ := by simp [PV.fromIter, hnot]
    refine ⟨PV.fromIter xs, Tree.fromElements xs, by simp [popFrontN], by rw [hv], h1,
      by rw [hv]; simp [h3], h4, ?_, by simpa using h2, ?_⟩
    · rcases Tree.fromElements_shape xs with ⟨h, _⟩ | ⟨_, _, ht⟩
      · simp only [LEAF_CAPACITY] at h; omega
      · exact ht
    · rcases Tree.fromElements_shape xs with ⟨h, _⟩ | ⟨_, hb, _⟩
      · simp only [LEAF_CAPACITY] at h; omega
      · exact .inr (Bal.full hb)
  | succ k ih =>
    obtain ⟨w, t, hp, hin, hwf, hlen, hhead, htail, hlist, hfull⟩ := ih (by omega)
    have htp : treePart xs.length ≤ xs.length := Nat.div_mul_le_self _ _
    have hflat : t.root.flat.length = treePart xs.length - k := by
      have := congrArg List.length hlist
      simp only [Tree.toList, hhead, htail, List.length_append, List.length_nil, List.length_drop] at this
      omega
    have hne : t.root.flat ≠ [] := by
      intro h; rw [h] at hflat; simp at hflat; omega
    have hf : FullLeaves t.root := by
      rcases hfull with h | h
      · exact absurd h hne
      · exact h
    have hl := hwf.len
    have h0 : t.len ≠ 0 := by
      have := List.length_pos_iff.2 hne; omega
    have hpos : t.root.flat.length > 0 := List.length_pos_iff.2 hne
    rcases Node.popFront_spec t.root hwf.sized with ⟨_, n', x, hpn, hsn, hfn⟩ | ⟨hbad, _⟩
    · have htp' : t.popFront = some ({ t with root := n', len := t.len - 1 }, x) := by
        simp [Tree.popFront, h0, hhead, Tree.popFrontFromTree, hwf.treeSize, hpos, hpn]
      have hvp : w.popFront = some (⟨.tree { t with root := n', len := t.len - 1 }, w.len - 1, w.generation + 1⟩, x) := by
        simp [PV.popFront, isEmpty, hlen, h0, hin, htp']
      have hk' : k < xs.length := by omega
      have hcons : t.toList = x :: ({ t with root := n', len := t.len - 1 } : Tree α).toList := by
        simp [Tree.toList, hhead, hfn]
      rw [hlist, List.drop_eq_getElem_cons hk'] at hcons
      obtain ⟨hx', hrest⟩ := List.cons.inj hcons
      refine ⟨⟨.tree { t with root := n', len := t.len - 1 }, w.len - 1, w.generation + 1⟩,
        { t with root := n', len := t.len - 1 }, ?_, rfl, ⟨hsn, ?_⟩, ?_, hhead, htail, ?_, ?_⟩
      · simp only [popFrontN, hp, hvp]
        rw [List.take_succ_eq_append_getElem hk', hx']
      · simp [hfn] at hl ⊢; omega
      · simp [hlen]
      · exact hrest.symm
      · exact hf.popFront hwf.sized _ _ hpn
    · exact absurd hbad hf.firstLeaf_ne

/-- C07 for a freshly collected vector of more than 64 elements, as long as its tree part
(`⌊n/64⌋·64` elements) lasts: draining it from the front yields the elements in order and leaves
the rest in order. -/
theorem c07_drain_partial (xs : List α) (hx : 64 < xs.length) (k : Nat)
    (hk : k ≤ treePart xs.length) :
    ∃ w, popFrontN k (PV.fromIter xs) = some (xs.take k, w) ∧ w.Shows (xs.drop k) := by
  obtain ⟨w, t, hp, hin, hwf, hlen, _, _, hlist, _⟩ := drain_inv xs hx k hk
  refine ⟨w, hp, ?_⟩
  have hw : w.WF := by unfold WF; rw [hin]; exact ⟨hwf, hlen⟩
  have := shows_of_wf hw
  simp only [abs, hin, hlist] at this
  exact this

example : ∃ w, popFrontN 64 (PV.fromIter (List.range 67)) = some ((List.range 67).take 64, w) ∧
    w.Shows ((List.range 67).drop 64) := c07_drain_partial _ (by simp) 64 (by decide +kernel)

/-- C07, the point of failure: when the tree part of a collected vector is exhausted, the next
`pop_front` returns the right element but leaves the others reversed.  So a drain of the whole
vector yields the last `n mod 64` elements, except their first, in reverse order. -/
theorem c07_reversal (xs : List α) (hx : 64 < xs.length) (y : α) (ys : List α)
    (hy : xs.drop (treePart xs.length) = y :: ys) :
    ∃ w w', popFrontN (treePart xs.length) (PV.fromIter xs) = some (xs.take (treePart xs.length), w) ∧
      w.popFront = some (w', y) ∧ w'.Shows ys.reverse := by
  obtain ⟨w, t, hp, hin, hwf, hlen, hhead, htail, hlist, _⟩ := drain_inv xs hx _ (Nat.le_refl _)
  have hflat : t.root.flat = [] := by
    simp only [Tree.toList, hhead, htail, List.nil_append] at hlist
    have := congrArg List.length hlist
    simp only [List.length_append] at this
    exact List.length_eq_zero_iff.1 (by omega)
  obtain ⟨t', h1, h2, h3, h4⟩ := Tree.popFront_tail hwf hhead hflat y ys (by rw [htail, hy])
  have h0 : t.len ≠ 0 := by
    have := hwf.len; rw [htail, hy] at this; simp at this; omega
  refine ⟨w, ⟨.tree t', w.len - 1, w.generation + 1⟩, hp, ?_, ?_⟩
  · simp [PV.popFront, isEmpty, hlen, h0, hin, h1]
  · have hw : (⟨.tree t', w.len - 1, w.generation + 1⟩ : PV α).WF :=
      ⟨h2, by simp [h4, hlen]⟩
    have := shows_of_wf hw
    simp only [abs, h3] at this
    exact this

example : (popFrontN 64 (PV.fromIter (List.range 67))).map (fun p => (p.1.length, p.2.toVec)) =
    some (64, [64, 65, 66]) := by decide +kernel
example : (popFrontN 65 (PV.fromIter (List.range 67))).map (fun p => p.2.toVec) =
    some [66, 65] := by decide +kernel

end PV
end Rustica.PVec
