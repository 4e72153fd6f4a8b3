import Verif.PVec.Theorems.Derived

/-!
# C05: concatenation

`concat` is *not* sequence concatenation for all vectors: when the left operand is
non-empty and has a smaller recorded height than the right one, the operands are swapped
(tree.rs `concat_different_height`).  `c05_concat_false` exhibits this through the API;
`c05_concat_iff` says exactly when the result is right.
-/

namespace Rustica.PVec
namespace PV

variable {α : Type}

/-- The full claim of C05. -/
def ConcatCorrect (a b : PV α) : Prop := (a.concat b).Shows (a.toVec ++ b.toVec)

/-- The full claim fails: a one-element vector followed by a 128-element one comes out with
the operands swapped. -/
theorem c05_concat_false :
    ¬ ∀ a b : PV Nat, Reach a → Reach b → ConcatCorrect a b := by
  intro h
  have := (h (PV.fromIter [1000]) (PV.fromIter (List.range 128)) (.fromIter _) (.fromIter _)).get 0
  revert this
  decide +kernel

/-- In the failing case `get(0)` is the first element of the *right* operand. -/
example : ((PV.fromIter [1000]).concat (PV.fromIter (List.range 128))).get 0 = some 0 ∧
    ((PV.fromIter [1000]).concat (PV.fromIter (List.range 128))).get 128 = some 1000 := by
  decide +kernel

/-- What `concat` does, for all vectors: it never loses, invents or duplicates anything, and it
is the concatenation in one of the two orders. -/
theorem c05_concat_exact {a b : PV α} (ha : Intact a) (hb : Intact b) :
    (a.concat b).Shows
      (if a.toVec ≠ [] ∧ b.toVec ≠ [] ∧ a.heightOf < b.heightOf then b.toVec ++ a.toVec
       else a.toVec ++ b.toVec) := by
  obtain ⟨h1, h2⟩ := concat_spec ha.wf hb.wf
  have := shows_of_wf h1
  rwa [h2, ← toVec_eq ha.wf, ← toVec_eq hb.wf] at this

/-- The left operand is of lower height, so the parts change places. -/
example : ((PV.fromIter [1000]).concat (PV.fromIter (List.range 128))).Shows (List.range 128 ++ [1000]) := by
  have h := c05_concat_exact (a := PV.fromIter [1000]) (b := PV.fromIter (List.range 128)) (.tame (.fromIter _))
    (.tame (.fromIter _))
  rwa [if_pos (by decide +kernel), c01_round_trip, c01_round_trip] at h

/-- C05, the part that always holds: lengths add up and the multiset of elements is right. -/
theorem c05_concat_perm {a b : PV α} (ha : Intact a) (hb : Intact b) :
    (a.concat b).len = a.len + b.len ∧ (a.concat b).toVec.Perm (a.toVec ++ b.toVec) := by
  have h := c05_concat_exact ha hb
  refine ⟨?_, ?_⟩
  · rw [h.len, ha.shows.len, hb.shows.len]
    split <;> simp; omega
  · rw [h.toVec]
    split
    · exact List.perm_append_comm
    · exact List.Perm.refl _

example : ((PV.fromIter [1000]).concat sample).len = 204 :=
  (c05_concat_perm (.tame (.fromIter _)) sample_sound.intact).1.trans (by decide +kernel)

/-- C05, exactly when it holds. -/
theorem c05_concat_iff {a b : PV α} (ha : Intact a) (hb : Intact b) :
    ConcatCorrect a b ↔
      (a.toVec = [] ∨ b.toVec = [] ∨ b.heightOf ≤ a.heightOf ∨
        b.toVec ++ a.toVec = a.toVec ++ b.toVec) := by
  have h := c05_concat_exact ha hb
  unfold ConcatCorrect
  by_cases hs : a.toVec ≠ [] ∧ b.toVec ≠ [] ∧ a.heightOf < b.heightOf
  · rw [if_pos hs] at h
    constructor
    · intro h'
      exact .inr (.inr (.inr (h.unique h')))
    · rintro (e | e | e | e)
      · exact absurd e hs.1
      · exact absurd e hs.2.1
      · omega
      · rwa [e] at h
  · rw [if_neg hs] at h
    refine ⟨fun _ => ?_, fun _ => h⟩
    by_cases h1 : a.toVec = []
    · exact .inl h1
    · by_cases h2 : b.toVec = []
      · exact .inr (.inl h2)
      · refine .inr (.inr (.inl ?_))
        have : ¬ a.heightOf < b.heightOf := fun h3 => hs ⟨h1, h2, h3⟩
        omega

example : ¬ ConcatCorrect (PV.fromIter [1000]) (PV.fromIter (List.range 128)) ∧
    ConcatCorrect sample (PV.fromIter (List.range 128)) := by
  rw [c05_concat_iff (.tame (.fromIter _)) (.tame (.fromIter _)), c05_concat_iff sample_sound.intact (.tame (.fromIter _))]
  decide +kernel

/-- C05 under a hypothesis visible to the client: the right operand still fits the inline
representation (it has never held more than 64 elements). -/
theorem c05_concat_small_partial {a b : PV α} (ha : Intact a) (hb : Intact b)
    (hsmall : b.isTree = false) : ConcatCorrect a b := by
  refine (c05_concat_iff ha hb).2 (.inr (.inr (.inl ?_)))
  unfold isTree at hsmall
  unfold heightOf
  cases h : b.inner with
  | inline es => simp
  | tree t => rw [h] at hsmall; simp at hsmall

/-- C05 for a vector appended to itself. -/
theorem c05_concat_self_partial {a : PV α} (ha : Intact a) : ConcatCorrect a a :=
  (c05_concat_iff ha ha).2 (.inr (.inr (.inl (Nat.le_refl _))))

example : ConcatCorrect sample sample := c05_concat_self_partial sample_sound.intact

/-! ### Freshly collected vectors: the longer operand must come first -/

/-- Number of levels `build_tree_recursive` adds above `k` nodes. -/
theorem buildTree_height_mono {β : Type} : ∀ (fuel fuel' : Nat) (ns : List (Node α)) (ms : List (Node β)),
    ns.length ≤ fuel → ms.length ≤ fuel' → ns ≠ [] → ns.length ≤ ms.length →
    (Tree.buildTreeRecursive fuel ns).2 ≤ (Tree.buildTreeRecursive fuel' ms).2 := by
  intro fuel
  induction fuel with
  | zero => intro _ ns _ h _ hne _; exact absurd (List.length_eq_zero_iff.1 (by omega)) hne
  | succ fuel ih =>
    intro fuel' ns ms hn hm hne hle
    match ns, hne with
    | [n], _ => simp [Tree.buildTreeRecursive]
    | n :: n' :: ns, _ =>
      match fuel', ms, hle with
      | 0, _, hle => simp at hm; simp [hm] at hle
      | fuel' + 1, [], hle => simp at hle
      | fuel' + 1, [m], hle => simp at hle
      | fuel' + 1, m :: m' :: ms, hle =>
        simp only [Tree.buildTreeRecursive]
        have hpos : 0 < BRANCHING_FACTOR := by decide
        have l1 := chunks_length hpos (n :: n' :: ns)
        have l2 := chunks_length hpos (m :: m' :: ms)
        simp only [BRANCHING_FACTOR] at l1 l2
        refine Nat.succ_le_succ (ih fuel' _ _ ?_ ?_ ?_ ?_)
        · simp only [List.length_map, List.length_cons, BRANCHING_FACTOR] at *; omega
        · simp only [List.length_map, List.length_cons, BRANCHING_FACTOR] at *; omega
        · intro h
          have := congrArg List.length h
          simp only [List.length_map, List.length_cons, List.length_nil, BRANCHING_FACTOR] at *; omega
        · simp only [List.length_map, List.length_cons, BRANCHING_FACTOR] at *
          rw [l1, l2]
          exact Nat.div_le_div_right (by omega)

theorem fromIter_height_mono {xs ys : List α} (h : xs.length ≤ ys.length) :
    (PV.fromIter xs).heightOf ≤ (PV.fromIter ys).heightOf := by
  have hx0 : xs.length ≤ 64 → (PV.fromIter xs).heightOf = 0 := by
    intro hx; simp [PV.fromIter, hx, heightOf]
  by_cases hx : xs.length ≤ 64
  · rw [hx0 hx]; omega
  · have hy : ¬ ys.length ≤ 64 := by omega
    have hx1 : ¬ xs.length / LEAF_CAPACITY * LEAF_CAPACITY = 0 := by simp only [LEAF_CAPACITY]; omega
    have hy1 : ¬ ys.length / LEAF_CAPACITY * LEAF_CAPACITY = 0 := by simp only [LEAF_CAPACITY]; omega
    have ex : (xs.take (xs.length / LEAF_CAPACITY * LEAF_CAPACITY)).isEmpty = false := by
      rw [Bool.eq_false_iff]; intro h
      have := congrArg List.length (List.isEmpty_iff.1 h)
      simp only [List.length_take, List.length_nil, LEAF_CAPACITY] at *; omega
    have ey : (ys.take (ys.length / LEAF_CAPACITY * LEAF_CAPACITY)).isEmpty = false := by
      rw [Bool.eq_false_iff]; intro h
      have := congrArg List.length (List.isEmpty_iff.1 h)
      simp only [List.length_take, List.length_nil, LEAF_CAPACITY] at *; omega
    have hpos : 0 < LEAF_CAPACITY := by decide
    have l1 := chunks_length hpos (xs.take (xs.length / LEAF_CAPACITY * LEAF_CAPACITY))
    have l2 := chunks_length hpos (ys.take (ys.length / LEAF_CAPACITY * LEAF_CAPACITY))
    simp only [PV.fromIter, ADAPTIVE_INLINE_SIZE, hx, hy, if_false, heightOf, Tree.fromElements,
      Tree.buildTreeWithTail, ex, ey, Bool.false_eq_true]
    simp only [List.length_take, LEAF_CAPACITY] at l1 l2
    have hdx := Nat.div_mul_le_self xs.length 64
    have hdy := Nat.div_mul_le_self ys.length 64
    have hd := Nat.div_le_div_right (c := 64) h
    rw [Nat.min_eq_left hdx] at l1
    rw [Nat.min_eq_left hdy] at l2
    refine buildTree_height_mono _ _ _ _ (Nat.le_refl _) (Nat.le_refl _) ?_ ?_
    · intro h
      have := congrArg List.length h
      simp only [List.length_map, List.length_nil, LEAF_CAPACITY] at this l1; omega
    · simp only [List.length_map, LEAF_CAPACITY] at l1 l2 ⊢
      rw [l1, l2]; omega

/-- C05 for freshly collected vectors: right whenever the left operand is at least as long as
the right one. -/
theorem c05_concat_from_iter_partial (xs ys : List α) (h : ys.length ≤ xs.length) :
    ConcatCorrect (PV.fromIter xs) (PV.fromIter ys) :=
  (c05_concat_iff (.tame (.fromIter _)) (.tame (.fromIter _))).2
    (.inr (.inr (.inl (fromIter_height_mono h))))

/-- C14: `combine` is associative on contents as long as no step swaps its operands; here for
vectors none of which ever exceeded the inline representation on the right. -/
theorem c14_associative_partial {a b c : PV α} (ha : Intact a) (hb : Intact b) (hc : Intact c)
    (sb : b.isTree = false) (sc : c.isTree = false) (sbc : (b.concat c).isTree = false) :
    ((a.concat b).concat c).toVec = (a.concat (b.concat c)).toVec := by
  rw [(c05_concat_small_partial (.concat ha hb) hc sc).toVec,
    (c05_concat_small_partial ha hb sb).toVec,
    (c05_concat_small_partial ha (.concat hb hc) sbc).toVec,
    (c05_concat_small_partial hb hc sc).toVec, List.append_assoc]

example : ((sample.concat (PV.fromIter [1, 2])).concat (PV.fromIter [3])).toVec =
    (sample.concat ((PV.fromIter [1, 2]).concat (PV.fromIter [3]))).toVec :=
  c14_associative_partial sample_sound.intact (.tame (.fromIter _)) (.tame (.fromIter _)) rfl rfl rfl

/-- C14: associativity fails on contents in general. -/
theorem c14_associative_false :
    ¬ ∀ a b c : PV Nat, Reach a → Reach b → Reach c →
      ((a.concat b).concat c).toVec = (a.concat (b.concat c)).toVec := by
  intro h
  have := h (PV.fromIter [1000]) (PV.fromIter [1001]) (PV.fromIter (List.range 128))
    (.fromIter _) (.fromIter _) (.fromIter _)
  revert this
  decide +kernel

example : ConcatCorrect (PV.fromIter (List.range 200)) (PV.fromIter (List.range 150)) :=
  c05_concat_from_iter_partial _ _ (by simp)

example : ConcatCorrect sample (PV.fromIter [1, 2, 3]) :=
  c05_concat_small_partial sample_sound.intact (.tame (.fromIter _)) rfl

end PV
end Rustica.PVec
