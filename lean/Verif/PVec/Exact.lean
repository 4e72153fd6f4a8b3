import Verif.PVec.Theorems.Reach

/-!
# What `split_at` does to a well-formed tree, exactly

`find_path_to_index` stops after as many levels as the recorded height says.  When the tree is
deeper than that, `split_along_path` continues from there into the *first* children only.  The
definitions here are specifications (not part of the Rust code): the node at which the search
stops, and the position of the cut inside it.
-/

namespace Rustica.PVec
namespace Node

variable {α : Type}

mutual
/-- The node at which a search for position `i` that goes down at most `h` levels stops, with the
position of `i` inside that node. -/
def stop : Node α → Nat → Nat → Node α × Nat
  | .leaf es, _, i => (.leaf es, i)
  | .branch cs s, h, i => if h = 0 then (.branch cs s, i) else stopL cs (h - 1) i
/-- The same, in the member of a list of neighbours that holds position `i`. -/
def stopL : List (Node α) → Nat → Nat → Node α × Nat
  | [], _, i => (.leaf [], i)
  | c :: cs, h, i => if i < c.flat.length then stop c h i else stopL cs h (i - c.flat.length)
end

theorem stopL_append (pre : List (Node α)) (c : Node α) (post) (h r : Nat)
    (hr : r < c.flat.length) :
    stopL (pre ++ c :: post) h ((flatL pre).length + r) = stop c h r := by
  induction pre with
  | nil => simp [stopL, hr]
  | cons p pre ih =>
    have h1 : ¬ (p.flat ++ flatL pre).length + r < p.flat.length := by simp; omega
    have h2 : (p.flat ++ flatL pre).length + r - p.flat.length = (flatL pre).length + r := by
      simp; omega
    simp only [List.cons_append, stopL, flatL_cons, h1, if_false, h2]
    exact ih

/-- The leftmost leaf is the beginning of the node's contents. -/
theorem flat_firstLeaf (n : Node α) : n.Sized → ∃ rest, n.flat = n.firstLeaf ++ rest := by
  induction n using induct with
  | hleaf es => intro _; exact ⟨[], by simp⟩
  | hbranch cs s ih =>
    intro hs
    obtain ⟨hne, _, hc⟩ := (sized_branch _ _).1 hs
    cases cs with
    | nil => exact absurd rfl hne
    | cons c cs =>
      obtain ⟨rest, hr⟩ := ih c (by simp) (hc c (by simp))
      exact ⟨rest ++ flatL cs, by simp [hr]⟩

theorem flat_eq_firstLeaf_iff {n : Node α} (h : n.Sized) :
    n.flat = n.firstLeaf ↔ n.flat.length ≤ n.firstLeaf.length := by
  obtain ⟨rest, hr⟩ := flat_firstLeaf n h
  constructor
  · intro e; rw [← e]; exact Nat.le_refl _
  · intro hl
    rw [hr, List.length_append] at hl
    have : rest = [] := List.length_eq_zero_iff.1 (by omega)
    rw [hr, this, List.append_nil]

end Node

namespace Tree
open Node

variable {α : Type}

/-- With an exhausted path only the leftmost leaf is cut. -/
theorem split_nil (n : Node α) : n.Sized → ∀ i h,
    splitAlongPath n [] i h = (.leaf (n.firstLeaf.take i), .leaf (n.firstLeaf.drop i)) := by
  induction n using Node.induct with
  | hleaf es => intro _ i h; simp [splitAlongPath]
  | hbranch cs s ih =>
    intro hs i h
    obtain ⟨hne, _, hc⟩ := (sized_branch _ _).1 hs
    cases cs with
    | nil => exact absurd rfl hne
    | cons c cs =>
      rw [splitAlongPath]
      simp [splitChild, ih c (by simp) (hc c (by simp))]

/-- Exact effect of the split on a sized node: everything before and after the node where the
search stops is kept; of that node only the leftmost leaf survives. -/
theorem split_exact (n : Node α) : n.Sized → ∀ h i, i < n.flat.length →
    (n.stop h i).1.Sized ∧ (n.stop h i).2 < (n.stop h i).1.flat.length ∧
    ∃ before after, n.flat = before ++ (n.stop h i).1.flat ++ after ∧
      i = before.length + (n.stop h i).2 ∧
      (splitAlongPath n (findPath n h i) i h).1.flat =
        before ++ (n.stop h i).1.firstLeaf.take (n.stop h i).2 ∧
      (splitAlongPath n (findPath n h i) i h).2.flat =
        (n.stop h i).1.firstLeaf.drop (n.stop h i).2 ++ after := by
  induction n using Node.induct with
  | hleaf es =>
    intro _ h i hi
    refine ⟨by simp [stop], by simpa [stop] using hi, [], [], by simp [stop], by simp [stop], ?_, ?_⟩
    · simp [splitAlongPath, stop]
    · simp [splitAlongPath, stop]
  | hbranch cs s ih =>
    intro hs h i hi
    by_cases hh : h = 0
    · subst hh
      have e : (Node.branch cs s).stop 0 i = (.branch cs s, i) := by simp [stop]
      have ep : findPath (.branch cs s) 0 i = [] := by simp [findPath]
      rw [e, ep, split_nil _ hs]
      exact ⟨hs, hi, [], [], by simp, by simp, by simp, by simp⟩
    · obtain ⟨_, rfl, hc⟩ := (sized_branch _ _).1 hs
      obtain ⟨pre, c, post, r, rfl, hidx, hr, heq⟩ := split_branch hs (h := h) (by omega)
        (by simpa using hi)
      have e : (Node.branch (pre ++ c :: post) (some ((pre ++ c :: post).map flen))).stop h i
          = c.stop (h - 1) r := by
        rw [stop, if_neg hh, hidx, stopL_append _ _ _ _ _ hr]
      obtain ⟨h1, h2, before, after, h3, h4, h5, h6⟩ := ih c (by simp) (hc c (by simp)) (h - 1) r hr
      have hsz := splitAlongPath_sized c (hc c (by simp)) (findPath c (h - 1) r) r (h - 1)
      obtain ⟨_, l2⟩ := createLeftBranch_spec (pre := pre) (fun d hd => hc d (by simp [hd]))
        (c :: post) hsz.1
      obtain ⟨_, r2⟩ := createRightBranch_spec (pre := pre) (c := c) (post := post)
        (fun d hd => hc d (by simp [hd])) hsz.2
      rw [e, heq]
      refine ⟨h1, h2, flatL pre ++ before, after ++ flatL post, ?_, ?_, ?_, ?_⟩
      · simp [h3]
      · simp; omega
      · rw [l2, h5]; simp
      · rw [r2, h6]; simp

/-- The cut falls strictly inside the tree part. -/
def Inside (t : Tree α) (i : Nat) : Prop :=
  t.head.length < i ∧ i < t.head.length + t.root.flat.length

/-- Exact effect of `split_at` on a well-formed tree for a cut inside the tree part. -/
theorem splitAt_exact {t : Tree α} (h : t.WF) {i : Nat} (hi : t.Inside i) :
    (t.splitAt i).1.WF ∧ (t.splitAt i).2.WF ∧
    ∃ before after,
      t.toList = before ++ (t.root.stop t.height (i - t.head.length)).1.flat ++ after ∧
      i = before.length + (t.root.stop t.height (i - t.head.length)).2 ∧
      (t.splitAt i).1.toList = before ++ (t.root.stop t.height (i - t.head.length)).1.firstLeaf.take
        (t.root.stop t.height (i - t.head.length)).2 ∧
      (t.splitAt i).2.toList = (t.root.stop t.height (i - t.head.length)).1.firstLeaf.drop
        (t.root.stop t.height (i - t.head.length)).2 ++ after := by
  obtain ⟨hi1, hi2⟩ := hi
  have hl := h.len
  obtain ⟨_, _, before, after, h3, h4, h5, h6⟩ := split_exact t.root h.sized t.height
    (i - t.head.length) (by omega)
  have hsz := splitAlongPath_sized t.root h.sized
    (findPath t.root t.height (i - t.head.length)) (i - t.head.length) t.height
  have e : t.splitAt i =
      (fromHeadAndRoot t.head (t.splitTreeAt (i - t.head.length)).1,
       fromRootAndTail (t.splitTreeAt (i - t.head.length)).2 t.tail) := by
    simp only [splitAt, h.treeSize]
    rw [if_neg (by omega), if_neg (by omega), if_neg (by omega), if_neg (by omega)]
  rw [e]
  simp only [splitTreeAt]
  refine ⟨⟨hsz.1, ?_⟩, ⟨hsz.2, ?_⟩, t.head ++ before, after ++ t.tail, ?_, ?_, ?_, ?_⟩
  · simp [fromHeadAndRoot, calculateSize_eq hsz.1]
  · simp [fromRootAndTail, calculateSize_eq hsz.2]
  · simp only [toList]; rw [h3]; simp
  · simp; omega
  · simp only [fromHeadAndRoot, toList, h5]; simp
  · simp only [fromRootAndTail, toList, h6]; simp

end Tree
end Rustica.PVec
