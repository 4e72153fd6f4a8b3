import Verif.PVec.Theorems.Frames
import Verif.PVec.Theorems.Growth
import Verif.PVec.Theorems.Entries
import Verif.PVec.Theorems.SpaceJoin

/-!
# How many calls the vector operations make (C102)

`calls` of `Frames.lean`: every call of a function that calls itself, on the way down the tree and for the size of each child
of a branch that is made anew.
-/

namespace Rustica.PVec.Frames
open Node Rustica.PVec.Tree

variable {α X Y : Type}

@[simp] theorem calls_pure (x : X) : (pure x : Run X).calls = 0 := rfl
@[simp] theorem calls_bind (r : Run X) (f : X → Run Y) : (r >>= f).calls = r.calls + (f r.val).calls := rfl
@[simp] theorem calls_call (r : Run X) : (call r).calls = r.calls + 1 := rfl

/-! ## Nodes -/

/-- With size tables, one call tells the size of a node. -/
theorem size_calls {n : Node α} (h : n.Sized) : (size n).calls = 1 := by
  cases n with
  | leaf es => simp [size]
  | branch cs s =>
    obtain ⟨_, rfl, _⟩ := (sized_branch _ _).1 h
    simp [size]

theorem sizes_calls (cs : List (Node α)) (h : ∀ c ∈ cs, c.Sized) : (sizes cs).calls = cs.length := by
  induction cs with
  | nil => simp [sizes]
  | cons c cs ih =>
    have h1 := size_calls (h c (by simp))
    have h2 := ih fun c hc => h c (by simp [hc])
    simp only [sizes, calls_bind, calls_pure, List.length_cons]; omega

theorem makeRelaxed_calls (cs : List (Node α)) (h : ∀ c ∈ cs, c.Sized) : (makeRelaxed cs).calls = cs.length := by
  simp only [makeRelaxed, calls_bind, calls_pure, sizes_calls cs h]; omega

theorem getL_calls (cs : List (Node α)) (ih : ∀ c ∈ cs, ∀ i, (get c i).calls ≤ 1 + c.depth) :
    ∀ i j, (getL cs i j).calls ≤ 1 + depthL cs := by
  induction cs with
  | nil => intro i j; simp [getL]
  | cons c cs ihc =>
    intro i j
    cases i with
    | zero => have := ih c (by simp) j; simp only [getL, depthL]; omega
    | succ i => have := ihc (fun c hc => ih c (by simp [hc])) i j; simp only [getL, depthL]; omega

theorem get_calls (n : Node α) : ∀ i, (get n i).calls ≤ 1 + n.depth := by
  induction n using Node.induct with
  | hleaf es => intro i; simp [get]
  | hbranch cs s ih =>
    intro i
    have := getL_calls cs ih
    simp only [get, calls_call, depth_branch]
    split
    · rename_i k j _; have := this k j; omega
    · simp

theorem nodeUpdateL_calls (cs : List (Node α)) (x : α) (ih : ∀ c ∈ cs, ∀ i, (nodeUpdate c i x).calls ≤ 1 + c.depth) :
    ∀ i j, (nodeUpdateL cs i j x).calls ≤ 1 + depthL cs := by
  induction cs with
  | nil => intro i j; simp [nodeUpdateL]
  | cons c cs ihc =>
    intro i j
    cases i with
    | zero => have := ih c (by simp) j; simp only [nodeUpdateL, calls_bind, calls_pure, depthL]; omega
    | succ i =>
      have := ihc (fun c hc => ih c (by simp [hc])) i j
      simp only [nodeUpdateL, calls_bind, calls_pure, depthL]; omega

theorem nodeUpdate_calls (n : Node α) (x : α) : ∀ i, (nodeUpdate n i x).calls ≤ 1 + n.depth := by
  induction n using Node.induct with
  | hleaf es => intro i; simp [nodeUpdate]
  | hbranch cs s ih =>
    intro i
    have := nodeUpdateL_calls cs x ih
    simp only [nodeUpdate, calls_call, depth_branch]
    split
    · rename_i k j _; have := this k j; simp only [calls_bind, calls_pure]; omega
    · simp

theorem pushLeaf_calls {n l : Node α} (hn : n.Sized) (hl : l.Sized) : (pushLeaf n l).calls ≤ 2 := by
  have h1 := size_calls hn
  have h2 := size_calls hl
  cases n with
  | leaf es => simp only [pushLeaf, calls_bind, calls_pure]; omega
  | branch cs s =>
    obtain ⟨_, rfl, _⟩ := (sized_branch _ _).1 hn
    simp only [pushLeaf]
    split <;> (simp only [calls_bind, calls_pure]; omega)

theorem pushFrontLeaf_calls {n l : Node α} (hn : n.Sized) (hl : l.Sized) : (pushFrontLeaf n l).calls ≤ 2 := by
  have h1 := size_calls hn
  have h2 := size_calls hl
  cases n with
  | leaf es => simp only [pushFrontLeaf, calls_bind, calls_pure]; omega
  | branch cs s =>
    obtain ⟨_, rfl, _⟩ := (sized_branch _ _).1 hn
    simp only [pushFrontLeaf]
    split <;> (simp only [calls_bind, calls_pure]; omega)

theorem popBack_sized_node {n n' : Node α} {x : α} (h : n.Sized) (e : n.popBack = some (n', x)) : n'.Sized := by
  rcases Node.popBack_spec n h with ⟨_, m, y, e', hm, _⟩ | ⟨_, e'⟩
  · rw [e] at e'; cases e'; exact hm
  · rw [e] at e'; cases e'

theorem popFront_sized_node {n n' : Node α} {x : α} (h : n.Sized) (e : n.popFront = some (n', x)) : n'.Sized := by
  rcases Node.popFront_spec n h with ⟨_, m, y, e', hm, _⟩ | ⟨_, e'⟩
  · rw [e] at e'; cases e'; exact hm
  · rw [e] at e'; cases e'

theorem afterPopBack_calls (cs : List (Node α)) (s) {c : Node α} (h : c.Sized) (x : α) :
    (afterPopBack cs s c x).calls ≤ 2 := by
  have := size_calls h
  simp only [afterPopBack, calls_bind]
  split
  · split <;> (simp only [calls_pure]; omega)
  · simp only [calls_bind, calls_pure]; omega

theorem afterPopFront_calls (cs : List (Node α)) (s) {c : Node α} (h : c.Sized) (x : α) :
    (afterPopFront cs s c x).calls ≤ 2 := by
  have := size_calls h
  simp only [afterPopFront, calls_bind]
  split
  · split <;> (simp only [calls_pure]; omega)
  · simp only [calls_bind, calls_pure]; omega

theorem nodePopBackLast_calls (cs : List (Node α)) (ih : ∀ c ∈ cs, (nodePopBack c).calls ≤ 1 + 3 * c.depth) :
    (nodePopBackLast cs).calls ≤ 1 + 3 * depthL cs := by
  induction cs with
  | nil => simp [nodePopBackLast]
  | cons c cs ihc =>
    cases cs with
    | nil => have := ih c (by simp); simp only [nodePopBackLast, depthL]; omega
    | cons d ds =>
      have := ihc (fun c hc => ih c (by simp [List.mem_cons.1 hc]))
      simp only [nodePopBackLast]
      simp only [depthL] at *; omega

theorem nodePopBack_calls (n : Node α) : n.Sized → (nodePopBack n).calls ≤ 1 + 3 * n.depth := by
  induction n using Node.induct with
  | hleaf es => intro _; simp [nodePopBack]
  | hbranch cs s ih =>
    intro hs
    obtain ⟨_, _, hc⟩ := (sized_branch _ _).1 hs
    have h1 := nodePopBackLast_calls cs fun c hm => ih c hm (hc c hm)
    simp only [nodePopBack, calls_call, calls_bind, depth_branch,
      nodePopBackLast_val cs (fun c _ => nodePopBack_val c)]
    cases e : Node.popBackLast cs with
    | none => simp only [calls_pure]; omega
    | some q =>
      obtain ⟨c', y⟩ := q
      obtain ⟨c, hm, hp⟩ := popBackLast_of cs c' y e
      have h4 := afterPopBack_calls cs s (popBack_sized_node (hc c hm) hp) y
      simp only; omega

theorem nodePopFront_calls (n : Node α) : n.Sized → (nodePopFront n).calls ≤ 1 + 3 * n.depth := by
  induction n using Node.induct with
  | hleaf es => intro _; simp [nodePopFront]
  | hbranch cs s ih =>
    intro hs
    obtain ⟨_, _, hc⟩ := (sized_branch _ _).1 hs
    cases cs with
    | nil => simp [nodePopFront]
    | cons c cs =>
      have h1 := ih c (by simp) (hc c (by simp))
      simp only [nodePopFront, calls_call, calls_bind, depth_branch, nodePopFront_val, depthL]
      cases e : c.popFront with
      | none => simp only [calls_pure]; omega
      | some q =>
        have h4 := afterPopFront_calls cs s (popFront_sized_node (n' := q.1) (x := q.2) (hc c (by simp)) e) q.2
        simp only; omega

/-- `calculate_height` calls itself once per level, on the first child. -/
theorem calculateHeight_calls (n : Node α) : (calculateHeight n).calls = 1 + Tree.calculateHeight n := by
  induction n using Node.induct with
  | hleaf es => simp [calculateHeight, Tree.calculateHeight]
  | hbranch cs s ih =>
    cases cs with
    | nil => simp [calculateHeight, Tree.calculateHeight]
    | cons c cs => simp [calculateHeight, Tree.calculateHeight, ih c (by simp)]; omega

theorem calculateHeight_calls_le (n : Node α) : (calculateHeight n).calls ≤ 1 + n.depth := by
  have := calculateHeight_le n
  rw [calculateHeight_calls]; omega

/-! ## Trees -/

theorem pushTailToTree_calls {t : Tree α} (h : t.root.Sized) :
    (pushTailToTree t).calls ≤ 3 + t.pushTailToTree.root.depth := by
  simp only [pushTailToTree, Tree.pushTailToTree]
  split
  · simp
  · have h1 := pushLeaf_calls h (sized_leaf t.tail)
    have h2 := calculateHeight_calls_le (t.root.pushLeaf (.leaf t.tail))
    simp only [calls_bind, calls_pure, pushLeaf_val]; omega

theorem pushHeadToTree_calls {t : Tree α} (h : t.root.Sized) :
    (pushHeadToTree t).calls ≤ 3 + t.pushHeadToTree.root.depth := by
  simp only [pushHeadToTree, Tree.pushHeadToTree]
  split
  · simp
  · have h1 := pushFrontLeaf_calls h (sized_leaf t.head)
    have h2 := calculateHeight_calls_le (t.root.pushFrontLeaf (.leaf t.head))
    simp only [calls_bind, calls_pure, pushFrontLeaf_val]; omega

theorem concatLast_calls {k : Nat} (cs : List (Node α)) (r : Node α)
    (ih : ∀ c ∈ cs, (concatNodes c r).calls ≤ k) : (concatLast cs r).calls ≤ k := by
  induction cs with
  | nil => simp [concatLast]
  | cons c cs ihc =>
    cases cs with
    | nil =>
      have := ih c (by simp)
      simp only [concatLast, calls_bind, calls_pure]; omega
    | cons d ds =>
      have := ihc (fun c hc => ih c (by simp [List.mem_cons.1 hc]))
      simp only [concatLast]; exact this

/-- Joining two trees asks every child of the branches along the seam for its size. -/
theorem concatNodes_calls {m n : Nat} (l : Node α) : l.Sized → l.Within (· ≤ m) → ∀ r : Node α, r.Sized →
    r.Within (· ≤ n) → (concatNodes l r).calls ≤ 3 + (m + n) * max l.depth r.depth := by
  induction l using Node.induct with
  | hleaf es =>
    intro _ _ r hr hw
    cases r with
    | leaf fs =>
      simp only [concatNodes, calls_call]
      split
      · simp
      · rw [makeRelaxed_calls _ (by simp)]; simp
    | branch ds s =>
      obtain ⟨_, _, hd⟩ := (sized_branch _ _).1 hr
      have hw' := (within_branch _ _ _).1 hw
      simp only [concatNodes, calls_call]
      rw [makeRelaxed_calls _ (by simpa using hd)]
      have h1 : (m + n) * 1 ≤ (m + n) * max (Node.leaf es).depth (Node.branch ds s).depth :=
        Nat.mul_le_mul_left _ (by simp only [depth_branch]; omega)
      have h2 : ds.length ≤ n := hw'.1
      simp only [List.length_cons]; omega
  | hbranch cs s ih =>
    intro hl hlw r hr hw
    obtain ⟨hne, _, hc⟩ := (sized_branch _ _).1 hl
    have hlw' := (within_branch _ _ _).1 hlw
    have h0 : cs.length ≤ m := hlw'.1
    cases r with
    | leaf fs =>
      simp only [concatNodes, calls_call]
      rw [makeRelaxed_calls _ (by
        intro c h
        rcases List.mem_append.1 h with h | h
        · exact hc c h
        · simp only [List.mem_singleton] at h; subst h; simp)]
      have h1 : (m + n) * 1 ≤ (m + n) * max (Node.branch cs s).depth (Node.leaf fs).depth :=
        Nat.mul_le_mul_left _ (by simp only [depth_branch]; omega)
      simp only [List.length_append, List.length_cons, List.length_nil]; omega
    | branch ds s' =>
      obtain ⟨hne', _, hd⟩ := (sized_branch _ _).1 hr
      have hw' := (within_branch _ _ _).1 hw
      have h2 : ds.length ≤ n := hw'.1
      match ds, hne', hd, hw', h2 with
      | d :: ds, _, hd, hw', h2 =>
        simp only [concatNodes, calls_call, calls_bind, concatLast_val cs (fun c _ => concatNodes_val c)]
        have h3 : (concatLast cs d).calls ≤ 3 + (m + n) * max (depthL cs) (depthL (d :: ds)) := by
          refine concatLast_calls cs d fun c h => ?_
          refine (ih c h (hc c h) (hlw'.2 c h) d (hd d (by simp)) (hw'.2 d (by simp))).trans ?_
          have := depthL_mem h
          exact Nat.add_le_add_left (Nat.mul_le_mul_left _ (by simp only [depthL]; omega)) 3
        have h4 := (Tree.concatLast_length cs d).1
        rw [makeRelaxed_calls _ (by
          intro c h
          rcases List.mem_append.1 h with h | h
          · rcases List.mem_append.1 h with h | h
            · exact hc c (List.dropLast_subset _ h)
            · simp only [Option.mem_toList] at h
              obtain ⟨e, he, rfl⟩ := concatNodes_depth.concatLast_of _ _ _ h
              exact (concatNodes_spec e (hc e he) d (hd d (by simp))).1
          · exact hd c (List.mem_of_mem_drop h))]
        have h5 : (m + n) * (max (depthL cs) (depthL (d :: ds)) + 1) =
            (m + n) * max (Node.branch cs s).depth (Node.branch (d :: ds) s').depth := by
          congr 1; simp only [depth_branch]; omega
        rw [← h5, Nat.mul_succ]
        have h6 : 0 < cs.length := List.length_pos_iff.2 hne
        simp only [List.length_append, List.length_dropLast, List.length_drop, List.length_cons] at h2 ⊢
        omega

theorem elevateRoot_calls (k : Nat) : ∀ n : Node α, n.Sized → (elevateRoot k n).calls = k := by
  induction k with
  | zero => intro n _; simp [elevateRoot]
  | succ k ih =>
    intro n h
    have h1 := ih (.branch [n] (some [n.calculateSize]))
      ((sized_branch _ _).2 ⟨by simp, by simp [calculateSize_eq h], by simpa using h⟩)
    simp only [elevateRoot, calls_bind, size_val, h1, size_calls h]; omega

theorem splitChild_calls {k : Nat} (cs : List (Node α)) (ih : ∀ c ∈ cs, ∀ p j h, (splitAlongPath c p j h).calls ≤ k) :
    ∀ i p j h, (splitChild cs i p j h).calls ≤ k := by
  induction cs with
  | nil => intro i p j h; simp [splitChild]
  | cons c cs ihc =>
    intro i p j h
    cases i with
    | zero =>
      have := ih c (by simp) p j h
      simp only [splitChild, calls_bind, calls_pure]; omega
    | succ i =>
      have := ihc (fun c hc => ih c (by simp [hc])) i p j h
      simp only [splitChild]; exact this

theorem createLeftBranch_calls {cs : List (Node α)} (hc : ∀ c ∈ cs, c.Sized) (i : Nat) {c : Node α} (h : c.Sized) :
    (createLeftBranch cs i c).calls ≤ 2 + (cs.take i).length := by
  have h1 := size_calls h
  simp only [createLeftBranch, calls_bind, size_val]
  generalize he : (if c.calculateSize > 0 then [c] else []) = e
  have hm : ∀ d ∈ e, d.Sized := by
    subst he; intro d hd; split at hd
    · simp only [List.mem_singleton] at hd; exact hd ▸ h
    · simp at hd
  have hl : e.length ≤ 1 := by subst he; split <;> simp
  split
  · simp only [calls_pure]; omega
  · rw [makeRelaxed_calls _ (by
      intro d hd
      rcases List.mem_append.1 hd with hd | hd
      · exact hc d (List.mem_of_mem_take hd)
      · exact hm d hd)]
    rw [List.length_append]; omega

theorem createRightBranch_calls {cs : List (Node α)} (hc : ∀ c ∈ cs, c.Sized) (i : Nat) {c : Node α} (h : c.Sized) :
    (createRightBranch cs i c).calls ≤ 2 + (cs.drop (i + 1)).length := by
  have h1 := size_calls h
  simp only [createRightBranch, calls_bind, size_val]
  generalize he : (if c.calculateSize > 0 then [c] else []) = e
  have hm : ∀ d ∈ e, d.Sized := by
    subst he; intro d hd; split at hd
    · simp only [List.mem_singleton] at hd; exact hd ▸ h
    · simp at hd
  have hl : e.length ≤ 1 := by subst he; split <;> simp
  split
  · simp only [calls_pure]; omega
  · rw [makeRelaxed_calls _ (by
      intro d hd
      rcases List.mem_append.1 hd with hd | hd
      · exact hm d hd
      · exact hc d (List.mem_of_mem_drop hd))]
    rw [List.length_append]; omega

/-- Splitting a tree asks every child of the branches along the cut for its size. -/
theorem splitAlongPath_calls {m : Nat} (n : Node α) : n.Sized → n.Within (· ≤ m) → ∀ p j h,
    (splitAlongPath n p j h).calls ≤ 1 + (m + 4) * n.depth := by
  induction n using Node.induct with
  | hleaf es => intro _ _ p j h; simp [splitAlongPath]
  | hbranch cs s ih =>
    intro hs hw p j h
    obtain ⟨_, _, hc⟩ := (sized_branch _ _).1 hs
    have hw' := (within_branch _ _ _).1 hw
    have h0 : cs.length ≤ m := hw'.1
    have h1 : ∀ c ∈ cs, ∀ p j h, (splitAlongPath c p j h).calls ≤ 1 + (m + 4) * depthL cs := fun c hm p j h =>
      (ih c hm (hc c hm) (hw'.2 c hm) p j h).trans (Nat.add_le_add_left (Nat.mul_le_mul_left _ (depthL_mem hm)) 1)
    have h2 := splitChild_calls cs h1
    rw [depth_branch, Nat.mul_add, Nat.mul_one]
    cases p with
    | nil =>
      have := h2 0 [] j (h - 1)
      simp only [splitAlongPath, calls_call, calls_bind, calls_pure]; omega
    | cons i p =>
      simp only [splitAlongPath, calls_call, calls_bind, splitChild_val cs (fun c _ => splitAlongPath_val c)]
      have h3 := h2 i p (calculateAdjustedIndex j i s (h - 1)) (h - 1)
      cases e : Tree.splitChild cs i p (calculateAdjustedIndex j i s (h - 1)) (h - 1) with
      | none => simp only [calls_pure]; omega
      | some lr =>
        obtain ⟨hl, hr⟩ := splitChild_sized (fun c hm => Tree.splitAlongPath_sized c (hc c hm)) _ _ _ _ _ _ e
        have h4 := createLeftBranch_calls hc i hl
        have h5 := createRightBranch_calls hc i hr
        rw [List.length_take] at h4
        rw [List.length_drop] at h5
        simp only [calls_bind, calls_pure]
        have hi : i < cs.length := by
          obtain ⟨hi, _⟩ := splitChild_of cs _ _ _ _ _ e
          exact hi
        omega

variable {p q m n : Nat}

theorem treePushBack_calls {t : Tree α} (h : t.Paid p) (hs : t.root.Sized) (x : α) :
    (treePushBack t x).calls ≤ 3 + p / 1984 := by
  simp only [treePushBack, LEAF_CAPACITY]
  split
  · simp
  · have h1 := pushTailToTree_calls hs
    have h2 := (pushTail_paid h (by omega)).1
    have h4 := depth_le_pot t.pushTailToTree.root
    unfold Tree.Paid at h2
    simp only [calls_bind, calls_pure]; omega

theorem treePushFront_calls {t : Tree α} (h : t.Paid p) (hs : t.root.Sized) (x : α) :
    (treePushFront t x).calls ≤ 3 + p / 1984 := by
  simp only [treePushFront, LEAF_CAPACITY]
  split
  · simp
  · have h1 := pushHeadToTree_calls hs
    have h2 := (pushHead_paid h (by omega)).1
    have h4 := depth_le_pot t.pushHeadToTree.root
    unfold Tree.Paid at h2
    simp only [calls_bind, calls_pure]; omega

theorem treeUpdate_calls {t : Tree α} (h : t.Paid p) (i : Nat) (x : α) : (treeUpdate t i x).calls ≤ 1 + p / 1984 := by
  have h1 := nodeUpdate_calls t.root x (i - t.head.length)
  have h2 := depth_le_pot t.root
  unfold Tree.Paid at h
  simp only [treeUpdate]
  split
  · simp
  · split
    · simp
    · split
      · simp only [calls_bind, calls_pure]; omega
      · simp

theorem concatSameHeight_calls {a b : Tree α} (hm : 32 ≤ m) (hn : 32 ≤ n) (ha : a.root.Sized) (hb : b.root.Sized)
    (hwa : a.Within (· ≤ m)) (hwb : b.Within (· ≤ n)) :
    (concatSameHeight a b).calls ≤
      11 + a.root.depth + b.root.depth + (m + n) * (1 + max a.root.depth b.root.depth) := by
  have h1 := pushTailToTree_calls ha
  have h2 := pushHeadToTree_calls hb
  have h3 := (pushTail_depth a).1
  have h4 := (pushHead_depth b).1
  have s1 := pushTail_sized ha
  have s2 := pushHead_sized hb
  have w1 := (Tree.pushTail_within (width_le hm) hwa).1
  have w2 := (Tree.pushHead_within (width_le hn) hwb).1
  have key : ∀ x y : Node α, x.Sized → y.Sized → x.Within (· ≤ m) → y.Within (· ≤ n) → x.depth ≤ 1 + a.root.depth →
      y.depth ≤ 1 + b.root.depth →
      (concatNodes x y).calls ≤ 3 + (m + n) * (1 + max a.root.depth b.root.depth) := fun x y hx hy wx wy dx dy =>
    (concatNodes_calls x hx wx y hy wy).trans (Nat.add_le_add_left (Nat.mul_le_mul_left _ (by omega)) 3)
  simp only [concatSameHeight]
  split <;> split <;> simp only [calls_bind, calls_pure, val_pure, pushTailToTree_val, pushHeadToTree_val]
  · have := key _ _ s1 s2 w1 w2 (by omega) (by omega); omega
  · have := key _ _ s1 hb w1 hwb.1 (by omega) (by omega); omega
  · have := key _ _ ha s2 hwa.1 w2 (by omega) (by omega); omega
  · have := key _ _ ha hb hwa.1 hwb.1 (by omega) (by omega); omega

theorem treeConcat_calls {a b : Tree α} (hm : 32 ≤ m) (hn : 32 ≤ n) (pa : a.Paid p) (pb : b.Paid q)
    (ha : a.root.Sized) (hb : b.root.Sized) (hwa : a.Within (· ≤ m)) (hwb : b.Within (· ≤ n)) :
    (treeConcat a b).calls ≤ 11 + 3 * ((p + q) / 1984) + (m + n) * (1 + (p + q) / 1984) := by
  have da := depth_le_pot a.root
  have db := depth_le_pot b.root
  unfold Tree.Paid at pa pb
  have mono : ∀ k, k ≤ (p + q) / 1984 → (m + n) * (1 + k) ≤ (m + n) * (1 + (p + q) / 1984) :=
    fun k h => Nat.mul_le_mul_left _ (by omega)
  simp only [treeConcat, concatDifferentHeight]
  split
  · simp
  · split
    · simp
    · split
      · have h1 := concatSameHeight_calls hm hn ha hb hwa hwb
        have h2 := mono (max a.root.depth b.root.depth) (by omega)
        omega
      · have h1 := elevateRoot_calls (a.height - b.height) b.root hb
        have h2 := elevateRoot_depth (a.height - b.height) b.root
        have h3 := (elevateRoot_spec (a.height - b.height) b.root hb).1
        have h4 := Tree.elevate_within (width_le hn) hwb a.height
        have he : (Tree.elevateTree b a.height).root = Tree.elevateRoot (a.height - b.height) b.root := rfl
        have h5 := mono (max a.root.depth (Tree.elevateTree b a.height).root.depth) (by rw [he, h2]; omega)
        split
        · have h6 := concatSameHeight_calls hn hm (he ▸ h3) ha h4 hwa
          rw [Nat.max_comm, Nat.add_comm n m] at h6
          simp only [Bool.false_eq_true, if_false, calls_bind, elevateTree_val]
          simp only [elevateTree, calls_bind, calls_pure, h1]
          rw [he] at h5 h6; rw [h2] at h5 h6; omega
        · have h6 := concatSameHeight_calls hm hn ha (he ▸ h3) hwa h4
          simp only [if_true, calls_bind, elevateTree_val]
          simp only [elevateTree, calls_bind, calls_pure, h1]
          rw [he] at h5 h6; rw [h2] at h5 h6; omega

theorem treePopBack_levels {t : Tree α} (hs : t.root.Sized) : (treePopBack t).calls ≤ 2 + 4 * t.root.depth := by
  have h1 := get_calls t.root (t.len - t.tail.length - 1)
  have h2 := nodePopBack_calls t.root hs
  simp only [treePopBack]
  split
  · simp
  · split
    · simp
    · simp only [popFromTree]
      split
      · simp
      · split
        · simp
        · simp only [calls_bind, get_val]
          cases t.root.get (t.len - t.tail.length - 1) with
          | none => simp only [calls_pure]; omega
          | some x =>
            simp only [calls_bind, calls_pure, popRoot]
            split
            · simp only [calls_pure]; omega
            · simp only [calls_bind, nodePopBack_val]
              cases t.root.popBack <;> (simp only [calls_pure]; omega)

theorem treePopBack_calls {t : Tree α} (h : t.Paid p) (hs : t.root.Sized) :
    (treePopBack t).calls ≤ 2 + 4 * (p / 1984) := by
  have h1 := treePopBack_levels hs
  have h2 := depth_le_pot t.root
  unfold Tree.Paid at h
  omega

theorem treePopFront_levels {t : Tree α} (hs : t.root.Sized) : (treePopFront t).calls ≤ 1 + 3 * t.root.depth := by
  have h2 := nodePopFront_calls t.root hs
  simp only [treePopFront]
  split
  · simp
  · split
    · simp
    · simp only [popFrontFromTree]
      split
      · simp only [calls_bind, nodePopFront_val]
        cases t.root.popFront <;> (simp only [calls_pure]; omega)
      · simp

theorem treePopFront_calls {t : Tree α} (h : t.Paid p) (hs : t.root.Sized) :
    (treePopFront t).calls ≤ 1 + 3 * (p / 1984) := by
  have h1 := treePopFront_levels hs
  have h2 := depth_le_pot t.root
  unfold Tree.Paid at h
  omega

theorem treeSplitAt_calls {t : Tree α} (h : t.Paid p) (hs : t.root.Sized) (hw : t.root.Within (· ≤ m)) (i : Nat) :
    (treeSplitAt t i).calls ≤ 5 + (m + 6) * (p / 1984) := by
  have h1 := size_calls hs
  have h2 := splitAlongPath_calls t.root hs hw (Tree.findPath t.root t.height (i - t.head.length)) (i - t.head.length)
    t.height
  have h3 := depth_le_pot t.root
  have h4 := split_shrinks t.root (Tree.findPath t.root t.height (i - t.head.length)) (i - t.head.length) t.height
  have h9 := Tree.splitAlongPath_sized t.root hs (Tree.findPath t.root t.height (i - t.head.length))
    (i - t.head.length) t.height
  unfold Tree.Paid at h
  simp only [treeSplitAt]
  split
  · simp
  · split
    · simp
    · split
      · simp only [fromHeadAndTreeAndTail, calls_bind, calls_pure]; omega
      · split
        · simp only [fromHeadAndTreeAndTail, calls_bind, calls_pure]; omega
        · simp only [fromHeadAndRoot, fromRootAndTail, calls_bind, calls_pure, splitAlongPath_val]
          generalize Tree.splitAlongPath t.root _ _ _ = lr at *
          have h5 := size_calls h9.1
          have h6 := size_calls h9.2
          have h7 := calculateHeight_calls_le lr.1
          have h8 := calculateHeight_calls_le lr.2
          have ha : (m + 4) * t.root.depth ≤ (m + 4) * (p / 1984) := Nat.mul_le_mul_left _ (by omega)
          have hb : (m + 6) * (p / 1984) = (m + 4) * (p / 1984) + 2 * (p / 1984) := by
            rw [← Nat.add_mul]
          omega

/-! ## Vectors -/

theorem fromElements_small_calls {es : List α} (h : es.length ≤ 64) : (fromElements es).calls = 0 := by
  simp [fromElements, h]

theorem lax_tree {t : Tree α} {len g : Nat} (h : (⟨.tree t, len, g⟩ : PV α).Lax) : t.root.Sized := by
  simpa [PV.Lax] using h

theorem small_root {es : List α} (h : es.length ≤ 64) : (Tree.fromElements es).root = .leaf es := by
  simp [Tree.fromElements, h]

theorem small_sized {es : List α} (h : es.length ≤ 64) : (Tree.fromElements es).root.Sized := by
  rw [small_root h]; simp

theorem pushBack_calls {v : PV α} (h : v.Paid p) (hs : v.Lax) (x : α) : (pushBack v x).calls ≤ 3 + p / 1984 := by
  obtain ⟨inner, len, g⟩ := v
  cases inner with
  | inline es =>
    have h1 := h.inline rfl
    simp only [pushBack]
    split
    · simp
    · have h2 := treePushBack_calls (PV.small_paid h1.1) (small_sized h1.1) x
      simp only [transitionToTree, vecTreePushBack, calls_bind, calls_pure, val_bind, val_pure, fromElements_val,
        fromElements_small_calls h1.1]
      omega
  | tree t =>
    have := treePushBack_calls (h.tree rfl) (lax_tree hs) x
    simp only [pushBack, vecTreePushBack, calls_bind, calls_pure]; omega

theorem pushFront_calls {v : PV α} (h : v.Paid p) (hs : v.Lax) (x : α) : (pushFront v x).calls ≤ 3 + p / 1984 := by
  obtain ⟨inner, len, g⟩ := v
  cases inner with
  | inline es =>
    have h1 := h.inline rfl
    simp only [pushFront]
    split
    · simp
    · have h2 := treePushFront_calls (PV.small_paid h1.1) (small_sized h1.1) x
      simp only [transitionToTree, vecTreePushFront, calls_bind, calls_pure, val_bind, val_pure, fromElements_val,
        fromElements_small_calls h1.1]
      omega
  | tree t =>
    have := treePushFront_calls (h.tree rfl) (lax_tree hs) x
    simp only [pushFront, vecTreePushFront, calls_bind, calls_pure]; omega

theorem update_calls {v : PV α} (h : v.Paid p) (i : Nat) (x : α) : (update v i x).calls ≤ 1 + p / 1984 := by
  obtain ⟨inner, len, g⟩ := v
  simp only [update]
  split
  · simp
  · cases inner with
    | inline es => simp
    | tree t =>
      have := treeUpdate_calls (h.tree rfl) i x
      simp only [calls_bind, calls_pure]; omega

theorem popBack_calls {v : PV α} (h : v.Paid p) (hs : v.Lax) : (popBack v).calls ≤ 2 + 4 * (p / 1984) := by
  obtain ⟨inner, len, g⟩ := v
  simp only [popBack]
  split
  · simp
  · cases inner with
    | inline es => simp only; split <;> simp
    | tree t =>
      have := treePopBack_calls (h.tree rfl) (lax_tree hs)
      simp only [calls_bind, calls_pure]; omega

theorem popFront_calls {v : PV α} (h : v.Paid p) (hs : v.Lax) : (popFront v).calls ≤ 1 + 3 * (p / 1984) := by
  obtain ⟨inner, len, g⟩ := v
  simp only [popFront]
  split
  · simp
  · cases inner with
    | inline es => cases es <;> simp
    | tree t =>
      have := treePopFront_calls (h.tree rfl) (lax_tree hs)
      simp only [calls_bind, calls_pure]; omega

theorem splitAt_calls {v : PV α} (h : v.Paid p) (hs : v.Lax) (hw : v.Within (· ≤ m)) (i : Nat) :
    (splitAt v i).calls ≤ 5 + (m + 6) * (p / 1984) := by
  obtain ⟨inner, len, g⟩ := v
  simp only [splitAt]
  split
  · simp
  · split
    · simp
    · cases inner with
      | inline es => simp
      | tree t =>
        have hw' : t.root.Within (· ≤ m) := hw.1
        have := treeSplitAt_calls (h.tree rfl) (lax_tree hs) hw' i
        simp only [calls_bind, calls_pure]; omega

theorem take_calls {v : PV α} (h : v.Paid p) (hs : v.Lax) (hw : v.Within (· ≤ m)) (i : Nat) :
    (take v i).calls ≤ 5 + (m + 6) * (p / 1984) := by
  have := splitAt_calls h hs hw i
  simp only [take]
  split
  · simp
  · simp only [calls_bind, calls_pure]; omega

theorem skip_calls {v : PV α} (h : v.Paid p) (hs : v.Lax) (hw : v.Within (· ≤ m)) (i : Nat) :
    (skip v i).calls ≤ 5 + (m + 6) * (p / 1984) := by
  have := splitAt_calls h hs hw i
  simp only [skip]
  split
  · simp
  · simp only [calls_bind, calls_pure]; omega

theorem nextLevel_calls (cs : List (List (Node α))) (h : ∀ c ∈ cs, ∀ n ∈ c, n.Sized) :
    (nextLevel cs).calls = cs.flatten.length := by
  induction cs with
  | nil => simp [nextLevel]
  | cons c cs ih =>
    have h1 := ih fun c hc => h c (by simp [hc])
    have h2 := makeRelaxed_calls c (h c (by simp))
    simp only [nextLevel, calls_bind, calls_pure, List.flatten_cons, List.length_append]; omega

/-- Building the branches over some nodes takes one call per node of each level and one per level. -/
theorem build_calls : ∀ (fuel : Nat) (nodes : List (Node α)), nodes ≠ [] → nodes.length ≤ fuel →
    (∀ n ∈ nodes, n.Sized) → (buildTreeRecursive fuel nodes).calls ≤ 2 * nodes.length ∧
    (nodes.length = 1 → (buildTreeRecursive fuel nodes).calls = 1) := by
  intro fuel
  induction fuel with
  | zero => intro nodes hne hlen; exact absurd (List.length_eq_zero_iff.1 (by omega)) hne
  | succ fuel ih =>
    intro nodes hne hlen hs
    match nodes, hne, hlen, hs with
    | [n], _, _, _ => simp [buildTreeRecursive]
    | n :: m :: rest, _, hlen, hs =>
      refine ⟨?_, fun h => by simp at h⟩
      have hcl := chunks_length (n := BRANCHING_FACTOR) (by decide) (n :: m :: rest)
      have hcf := chunks_flatten (n := BRANCHING_FACTOR) (by decide) (n :: m :: rest)
      have hcm : ∀ c ∈ chunks BRANCHING_FACTOR (n :: m :: rest), ∀ x ∈ c, x ∈ n :: m :: rest := by
        intro c hc x hx
        rw [← hcf]
        exact List.mem_flatten.2 ⟨c, hc, hx⟩
      have hnl := nextLevel_calls (chunks BRANCHING_FACTOR (n :: m :: rest)) (fun c hc x hx => hs x (hcm c hc x hx))
      rw [hcf] at hnl
      have hcn := chunks_mem (n := BRANCHING_FACTOR) (by decide) (n :: m :: rest)
      simp only [buildTreeRecursive, calls_call, calls_bind, calls_pure, nextLevel_val, hnl]
      generalize chunks BRANCHING_FACTOR (n :: m :: rest) = cs at *
      simp only [BRANCHING_FACTOR, List.length_cons] at hcl hlen ⊢
      have hne' : cs.map Node.makeRelaxed ≠ [] := by
        intro h
        have : cs = [] := by simpa using h
        subst this; simp at hcl; omega
      obtain ⟨h1, h2⟩ := ih (cs.map Node.makeRelaxed) hne' (by simp only [List.length_map]; omega) (by
        intro x hx
        obtain ⟨c, hc, rfl⟩ := List.mem_map.1 hx
        exact sized_makeRelaxed (hcn c hc).1 fun y hy => hs y (hcm c hc y hy))
      rw [List.length_map] at h1 h2
      by_cases h3 : cs.length = 1
      · have := h2 h3; omega
      · omega

/-- C102 for vectors made in one go: two calls for each full leaf. -/
theorem c102_from_iter_partial (xs : List α) : (fromIter xs).calls ≤ 2 * (xs.length / 64) := by
  by_cases h : xs.length ≤ 64
  · simp [fromIter, h]
  have hne : (xs.take (xs.length / 64 * 64)).isEmpty = false := by
    rw [List.isEmpty_eq_false_iff]; intro h0
    have := congrArg List.length h0
    simp only [List.length_take, List.length_nil] at this; omega
  have hcl := chunks_length (n := 64) (by decide) (xs.take (xs.length / 64 * 64))
  simp only [List.length_take] at hcl
  simp only [fromIter, fromElements, ADAPTIVE_INLINE_SIZE, LEAF_CAPACITY, h, if_false, hne,
    Bool.false_eq_true, calls_bind, calls_pure]
  generalize chunks 64 (xs.take (xs.length / 64 * 64)) = cs at *
  have h1 := (build_calls (cs.map Node.leaf).length (cs.map Node.leaf) (by
    intro h
    have : cs = [] := by simpa using h
    subst this; simp at hcl; omega) (Nat.le_refl _) (by
    intro n hn
    obtain ⟨c, _, rfl⟩ := List.mem_map.1 hn
    simp)).1
  simp only [List.length_map] at h1 ⊢
  omega

theorem concat_calls {v w : PV α} (hm : 32 ≤ m) (hn : 32 ≤ n) (hv : v.Paid p) (hw : w.Paid q) (sv : v.Lax) (sw : w.Lax)
    (wv : v.Within (· ≤ m)) (ww : w.Within (· ≤ n)) :
    (concat v w).calls ≤ 11 + 3 * ((p + q) / 1984) + (m + n) * (1 + (p + q) / 1984) := by
  obtain ⟨i1, l1, g1⟩ := v
  obtain ⟨i2, l2, g2⟩ := w
  have hp := hv.pos
  have hq := hw.pos
  have mono : ∀ k, k ≤ (p + q) / 1984 → (m + n) * (1 + k) ≤ (m + n) * (1 + (p + q) / 1984) :=
    fun k h => Nat.mul_le_mul_left _ (by omega)
  cases i1 with
  | inline es =>
    have h1 := hv.inline rfl
    cases i2 with
    | inline fs =>
      have h2 := hw.inline rfl
      have h3 := c102_from_iter_partial (es ++ fs)
      simp only [List.length_append] at h3
      simp only [concat]; omega
    | tree t =>
      have h3 := treeConcat_calls hm hn (PV.small_paid h1.1) (hw.tree rfl) (small_sized h1.1) (lax_tree sw)
        (Tree.fromElements_within (width_le hm) es) ww
      have h4 := mono ((1984 + q) / 1984) (by omega)
      simp only [concat, calls_bind, calls_pure, fromElements_small_calls h1.1, fromElements_val]; omega
  | tree t =>
    cases i2 with
    | inline fs =>
      have h2 := hw.inline rfl
      have h3 := treeConcat_calls hm hn (hv.tree rfl) (PV.small_paid h2.1) (lax_tree sv) (small_sized h2.1) wv
        (Tree.fromElements_within (width_le hn) fs)
      have h4 := mono ((p + 1984) / 1984) (by omega)
      simp only [concat, calls_bind, calls_pure, fromElements_small_calls h2.1, fromElements_val]; omega
    | tree u =>
      have := treeConcat_calls hm hn (hv.tree rfl) (hw.tree rfl) (lax_tree sv) (lax_tree sw) wv ww
      simp only [concat, calls_bind, calls_pure]; omega

theorem insert_calls {v : PV α} (hm : 32 ≤ m) (h : v.Paid p) (hs : v.Lax) (hw : v.Within (· ≤ m)) (i : Nat) (x : α) :
    (insert v i x).calls ≤ 19 + 2 * m + (3 * m + 10) * ((2 * p + 1) / 1984) := by
  have h1 := pushBack_calls h hs x
  have h2 := pushFront_calls h hs x
  have hW := width_le hm
  have ha : (m + 6) * (p / 1984) ≤ (m + 6) * ((2 * p + 1) / 1984) := Nat.mul_le_mul_left _ (by omega)
  have hb : (3 * m + 10) * ((2 * p + 1) / 1984) = (m + 6) * ((2 * p + 1) / 1984) + 4 * ((2 * p + 1) / 1984) +
      (m + m) * ((2 * p + 1) / 1984) := by ring
  have hc : (m + m) * (1 + (2 * p + 1) / 1984) = 2 * m + (m + m) * ((2 * p + 1) / 1984) := by ring
  simp only [insert]
  split
  · omega
  · split
    · omega
    · have h3 := splitAt_calls h hs hw i
      have h4 := pushBack_calls (h.splitAt i).1 (hs.splitAt i).1 x
      have h5 := concat_calls hm hm ((h.splitAt i).1.pushBack x) (h.splitAt i).2 ((hs.splitAt i).1.pushBack x)
        (hs.splitAt i).2 ((hw.splitAt hW i).1.pushBack hW x) (hw.splitAt hW i).2
      rw [show p + 1 + p = 2 * p + 1 by omega] at h5
      simp only [calls_bind, splitAt_val, pushBack_val]; omega

theorem remove_calls {v : PV α} (hm : 32 ≤ m) (h : v.Paid p) (hs : v.Lax) (hw : v.Within (· ≤ m)) (i : Nat) :
    (remove v i).calls ≤ 21 + 2 * m + (3 * m + 9) * (2 * p / 1984) := by
  have hW := width_le hm
  have ha : (m + 6) * (2 * (p / 1984)) ≤ (m + 6) * (2 * p / 1984) := Nat.mul_le_mul_left _ (by omega)
  have ha' : (m + 6) * (2 * (p / 1984)) = (m + 6) * (p / 1984) + (m + 6) * (p / 1984) := by ring
  have hb : (3 * m + 9) * (2 * p / 1984) = (m + 6) * (2 * p / 1984) + 3 * (2 * p / 1984) + (m + m) * (2 * p / 1984) := by
    ring
  have hc : (m + m) * (1 + 2 * p / 1984) = 2 * m + (m + m) * (2 * p / 1984) := by ring
  simp only [remove]
  split
  · simp
  · split
    · simp
    · have h3 := splitAt_calls h hs hw i
      have h4 := skip_calls (h.splitAt i).2 (hs.splitAt i).2 (hw.splitAt hW i).2 1
      have h5 := concat_calls hm hm (h.splitAt i).1 ((h.splitAt i).2.skip 1) (hs.splitAt i).1 ((hs.splitAt i).2.skip 1)
        (hw.splitAt hW i).1 ((hw.splitAt hW i).2.skip hW 1)
      rw [show p + p = 2 * p by omega] at h5
      simp only [calls_bind, calls_pure, splitAt_val, skip_val]; omega

/-- A vector with a cost is reachable. -/
theorem Costs.reach {v : PV α} (h : PV.Costs p v) : Reach v := by
  induction h with
  | new => exact .new
  | unit x => exact .unit x
  | fromIter xs _ _ => exact .fromIter xs
  | pushBack x _ ih => exact .pushBack x ih
  | pushFront x _ ih => exact .pushFront x ih
  | extend xs _ ih => exact .extend xs ih
  | update i x _ ih => exact .update i x ih
  | concat _ _ ih1 ih2 => exact .concat ih1 ih2
  | popBack _ h ih => exact .popBack ih h
  | popFront _ h ih => exact .popFront ih h
  | splitLeft i _ ih => exact .splitLeft i ih
  | splitRight i _ ih => exact .splitRight i ih
  | take n _ ih => exact .take n ih
  | skip n _ ih => exact .skip n ih
  | insert i x _ ih => exact .insert i x ih
  | remove i _ h ih => exact .remove i ih h

theorem Joins.pos {k : Nat} {v : PV α} (h : PV.Joins k v) : 1 ≤ k := by
  induction h <;> omega

/-- C102 with every call, by the levels that the calls that made the vector have paid for (`Costs`): `update`, the pushes
and the pops make at most four calls for each of them and three more, whatever the branches are. -/
theorem c102_ends_partial {v : PV α} (hv : PV.Costs p v) (i : Nat) (x : α) :
    (update v i x).calls ≤ 1 + p / 1984 ∧ (pushBack v x).calls ≤ 3 + p / 1984 ∧ (pushFront v x).calls ≤ 3 + p / 1984 ∧
    (popBack v).calls ≤ 2 + 4 * (p / 1984) ∧ (popFront v).calls ≤ 1 + 3 * (p / 1984) :=
  have hl := (Costs.reach hv).lax
  ⟨update_calls hv.paid i x, pushBack_calls hv.paid hl x, pushFront_calls hv.paid hl x, popBack_calls hv.paid hl,
    popFront_calls hv.paid hl⟩

/-- Meets the hypothesis. -/
example : PV.Costs (1984 * 2 + 64 + 1) ((PV.fromIter (List.range 2000)).pushFront 7) :=
  .pushFront 7 (.fromIter _ 1 (by simp))

/-- C102 with every call: `split_at`, `take`, `skip`, `concat`, `insert` and `remove` ask all children of the branches they go
down for their sizes, so the bound is the levels paid for (`Costs`) times 32 for each vector joined in (`Joins`).  Missing
from C102: both numbers grow linearly in the number of calls (`c102_log_false`, `c102_concat_false`). -/
theorem c102_calls_partial {j k : Nat} {v w : PV α} (hv : PV.Costs p v) (hw : PV.Costs q w) (jv : PV.Joins j v)
    (jw : PV.Joins k w) (i : Nat) (x : α) :
    (splitAt v i).calls ≤ 5 + (32 * j + 6) * (p / 1984) ∧ (take v i).calls ≤ 5 + (32 * j + 6) * (p / 1984) ∧
    (skip v i).calls ≤ 5 + (32 * j + 6) * (p / 1984) ∧
    (concat v w).calls ≤ 11 + 3 * ((p + q) / 1984) + (32 * j + 32 * k) * (1 + (p + q) / 1984) ∧
    (insert v i x).calls ≤ 19 + 2 * (32 * j) + (3 * (32 * j) + 10) * ((2 * p + 1) / 1984) ∧
    (remove v i).calls ≤ 21 + 2 * (32 * j) + (3 * (32 * j) + 9) * (2 * p / 1984) :=
  have lv := (Costs.reach hv).lax
  have lw := (Costs.reach hw).lax
  have wv := PV.c60_children_joins_partial jv
  have ww := PV.c60_children_joins_partial jw
  have mj : 32 ≤ 32 * j := by have := Joins.pos jv; omega
  have mk : 32 ≤ 32 * k := by have := Joins.pos jw; omega
  ⟨splitAt_calls hv.paid lv wv i, take_calls hv.paid lv wv i, skip_calls hv.paid lv wv i,
    concat_calls mj mk hv.paid hw.paid lv lw wv ww, insert_calls mj hv.paid lv wv i x, remove_calls mj hv.paid lv wv i⟩

/-- Meets the hypotheses. -/
example : PV.Costs (1984 * 2 + 64) (PV.fromIter (List.range 2000)) ∧ PV.Joins 1 (PV.fromIter (List.range 2000)) :=
  ⟨.fromIter _ 1 (by simp), .fromIter _⟩

/-! ## Vectors made by `push_back` -/

theorem Spine.update_calls : ∀ {d : Nat} {n : Node α}, Spine d n → ∀ x, (nodeUpdate n 0 x).calls = d + 1
  | 0, .leaf es, _, x => by simp [nodeUpdate]
  | d + 1, .branch (c :: ls) (some (sz :: _)), h, x => by
    have := Spine.update_calls h.2.1 x
    simp only [nodeUpdate, findChild, scanSizes, Nat.zero_add, h.1, if_true, nodeUpdateL, calls_call, calls_bind,
      calls_pure, Nat.sub_zero]
    omega

theorem Spine.popFront_calls : ∀ {d : Nat} {n : Node α}, Spine d n → d + 1 ≤ (nodePopFront n).calls
  | 0, .leaf es, _ => by simp [nodePopFront]
  | d + 1, .branch (c :: ls) (some (sz :: _)), h => by
    have := Spine.popFront_calls h.2.1
    simp only [nodePopFront, calls_call, calls_bind]; omega

/-- C102, what `push_back` builds: on a vector made by `n > 64` calls of `push_back`, updating the first element makes exactly
one call for each of the `((n - 1) / 64 + 29) / 31` levels and one more, and every 64th `push_back` goes down all levels, too,
to find the height of the new root; the other 63 make none of the counted calls. -/
theorem c102_push_back_exact (xs : List α) (x : α) (h : 64 < xs.length) :
    (update (PV.new.extend xs) 0 x).calls = 1 + ((xs.length - 1) / 64 + 29) / 31 ∧
    1 + ((xs.length - 1) / 64 + 29) / 31 ≤ (popFront (PV.new.extend xs)).calls ∧
    (pushBack (PV.new.extend xs) x).calls =
      if xs.length % 64 = 0 then 2 + (xs.length / 64 + 29) / 31 + (if xs.length / 64 % 31 = 2 then 1 else 0) else 0 := by
  obtain ⟨t, d, hv, hh, hl, hvl, hn, ht, hr, hd⟩ := built_new xs h
  obtain ⟨t', d', hv', hh', hl', hvl', hn', ht', hr', hd'⟩ := (built_new xs h).push x
  have ep : (PV.new.extend xs).pushBack x = ⟨.tree (t.pushBack x), (PV.new.extend xs).len + 1,
      (PV.new.extend xs).generation + 1⟩ := by simp only [PV.pushBack, hv, PV.treePushBack]
  have et : t' = t.pushBack x := by rw [ep] at hv'; cases hv'; rfl
  subst et
  generalize PV.new.extend xs = v at *
  have hdd : d = ((xs.length - 1) / 64 + 29) / 31 := by omega
  have hdd' : d' = (xs.length / 64 + 29) / 31 := by omega
  have hts : 0 < t.treeSize := by simp only [Tree.treeSize, hh, hl, ht, List.length_nil]; omega
  refine ⟨?_, ?_, ?_⟩
  · have h1 := hr.update_calls x
    simp only [update, hv, hvl, show ¬ 0 ≥ xs.length by omega, if_false, treeUpdate, hl, hh, List.length_nil,
      Nat.not_lt_zero, Nat.sub_zero, hts, if_true, calls_bind, calls_pure]
    omega
  · have h1 := hr.popFront_calls
    have hz : xs.length ≠ 0 := by omega
    simp only [popFront, PV.isEmpty, hv, hvl, hz, beq_iff_eq, if_false, treePopFront, hl, hh, popFrontFromTree, hts,
      if_true, calls_bind, calls_pure, nodePopFront_val]
    cases t.root.popFront <;> (simp only [calls_pure]; omega)
  · simp only [pushBack, hv, vecTreePushBack, treePushBack, LEAF_CAPACITY, calls_bind, calls_pure]
    by_cases hlt : t.tail.length < 64
    · rw [if_pos hlt, if_neg (by omega)]; simp
    · have hne : t.tail.isEmpty = false := by
        rw [List.isEmpty_eq_false_iff]; intro h0; rw [h0] at hlt; simp at hlt
      rw [if_neg hlt, if_pos (by omega)]
      have h3 : (pushLeaf t.root (.leaf t.tail)).calls = if xs.length / 64 % 31 = 2 then 2 else 1 := by
        have h4 : (size (.leaf t.tail)).calls = 1 := by simp [size]
        generalize t.root = r at *
        match d, r, hr, hd with
        | 0, .leaf fs, _, hd =>
          rw [if_pos (by omega)]
          have h5 : (size (.leaf fs)).calls = 1 := by simp [size]
          simp only [pushLeaf, calls_bind, calls_pure, h4, h5]
        | d + 1, .branch (c :: ls) (some (sz :: szs)), _, hd =>
          have h5 : (size (.branch (c :: ls) (some (sz :: szs)))).calls = 1 := by simp [size]
          simp only [kids, List.length_cons] at hd
          simp only [pushLeaf, List.length_cons, BRANCHING_FACTOR]
          split
          · rw [if_neg (by omega)]; simp only [calls_bind, calls_pure, h4]
          · rw [if_pos (by omega)]; simp only [calls_bind, calls_pure, h4, h5]
      simp only [Tree.pushBack, LEAF_CAPACITY, if_neg hlt, Tree.pushTailToTree, hne, Bool.false_eq_true, if_false] at hr'
      have h6 := hr'.height
      simp only [pushTailToTree, hne, Bool.false_eq_true, if_false, calls_bind, calls_pure, h3, pushLeaf_val,
        calculateHeight_calls, h6]
      split <;> omega

/-- Meets the hypothesis: at 2176 = 34 * 64 elements the next `push_back` makes 2 + 2 calls. -/
example : (pushBack (PV.new.extend (List.replicate 2176 ())) ()).calls = 4 ∧ 64 < (List.replicate 2176 ()).length := by
  have hl : (List.replicate 2176 ()).length = 2176 := List.length_replicate
  have h := (c102_push_back_exact (List.replicate 2176 ()) () (by rw [hl]; omega)).2.2
  rw [hl] at h
  exact ⟨h, by rw [hl]; omega⟩

/-- Up to 64 elements, and for the 65th, `push_back` makes none of the counted calls. -/
theorem pushBack_small (xs : List α) (x : α) (h : xs.length ≤ 64) : (pushBack (PV.new.extend xs) x).calls = 0 := by
  obtain ⟨g, hg⟩ := PV.extend_small xs h
  rw [hg]
  simp only [pushBack, ADAPTIVE_INLINE_SIZE]
  split
  · simp
  · simp only [transitionToTree, vecTreePushBack, calls_bind, calls_pure, val_bind, val_pure, fromElements_val,
      fromElements_small_calls h, treePushBack, Tree.fromElements, LEAF_CAPACITY, if_pos h, List.length_nil]
    rw [if_pos (by omega)]; simp

theorem extend_calls_append (xs ys : List α) : ∀ v : PV α,
    (extend v (xs ++ ys)).calls = (extend v xs).calls + (extend (v.extend xs) ys).calls := by
  induction xs with
  | nil => intro v; simp [extend, PV.extend]
  | cons x xs ih =>
    intro v
    have := ih (v.pushBack x)
    simp only [List.cons_append, extend, calls_bind, pushBack_val, PV.extend, List.foldl_cons] at this ⊢
    omega

/-- C102, pushing one element after the other: with `q = (n - 1) / 64` leaves in the tree, `62` times the number of calls is
between `q² + 123 q - 124` and `q² + 245 q`.  The number of calls grows with the square of the number of elements. -/
theorem c102_extend_square (xs : List α) :
    (xs.length - 1) / 64 * ((xs.length - 1) / 64) + 123 * ((xs.length - 1) / 64) ≤
      62 * (extend PV.new xs).calls + 124 ∧
    62 * (extend PV.new xs).calls ≤ (xs.length - 1) / 64 * ((xs.length - 1) / 64) + 245 * ((xs.length - 1) / 64) := by
  suffices h : ∀ ys : List α, (ys.reverse.length - 1) / 64 * ((ys.reverse.length - 1) / 64) +
        123 * ((ys.reverse.length - 1) / 64) ≤ 62 * (extend PV.new ys.reverse).calls + 124 ∧
      62 * (extend PV.new ys.reverse).calls ≤ (ys.reverse.length - 1) / 64 * ((ys.reverse.length - 1) / 64) +
        245 * ((ys.reverse.length - 1) / 64) by
    have := h xs.reverse; rwa [List.reverse_reverse] at this
  intro ys
  induction ys with
  | nil => simp [extend]
  | cons y ys ih =>
    rw [List.reverse_cons, extend_calls_append]
    have e : (extend (PV.new.extend ys.reverse) [y]).calls = (pushBack (PV.new.extend ys.reverse) y).calls := by
      simp only [extend, calls_bind, calls_pure]; omega
    rw [e, List.length_append, List.length_singleton, Nat.add_sub_cancel]
    by_cases h : ys.reverse.length ≤ 64
    · rw [pushBack_small _ _ h]
      by_cases h64 : ys.reverse.length = 64
      · rw [h64] at ih ⊢; simp only [Nat.reduceSub, Nat.reduceDiv, Nat.reduceMul, Nat.reduceAdd] at ih ⊢; omega
      · rw [Nat.div_eq_of_lt (show ys.reverse.length < 64 by omega)]
        rw [Nat.div_eq_of_lt (show ys.reverse.length - 1 < 64 by omega)] at ih
        omega
    · rw [(c102_push_back_exact ys.reverse y (by omega)).2.2]
      generalize ys.reverse.length = n at *
      split
      · have e1 : n / 64 = (n - 1) / 64 + 1 := by omega
        rw [e1]
        generalize (n - 1) / 64 = q at *
        have e2 : (q + 1) * (q + 1) = q * q + 2 * q + 1 := by ring
        rw [e2]
        have h31 : 31 * ((q + 1 + 29) / 31) ≤ q + 30 ∧ q ≤ 31 * ((q + 1 + 29) / 31) := by omega
        split
        · omega
        · omega
      · rw [show n / 64 = (n - 1) / 64 by omega]; omega

/-- A hundred thousand elements: the 1562 leaves take more than forty thousand calls. -/
example : 42000 ≤ (extend PV.new (List.replicate 100000 ())).calls := by
  have h := (c102_extend_square (List.replicate 100000 ())).1
  rw [List.length_replicate] at h
  omega

/-! ## What fails -/

theorem nodeUpdate_visits (n : Node α) (x : α) : n.Sized → ∀ i ht, (nodeUpdate n i x).calls = n.visits i ht := by
  induction n using Node.induct with
  | hleaf es => intro _ i ht; simp [Node.visits, nodeUpdate]
  | hbranch cs s ih =>
    intro hs i ht
    obtain ⟨hn, rfl, hc⟩ := (Node.sized_branch _ _).mp hs
    simp only [Node.visits, nodeUpdate, Node.findChild, calls_call]
    cases Node.scanSizes _ 0 0 i with
    | none => rfl
    | some r =>
      obtain ⟨k, j⟩ := r
      simp only [calls_bind, calls_pure, Nat.add_zero]
      congr 1
      clear hs hn
      induction cs generalizing k with
      | nil => rfl
      | cons c cs ih2 =>
        cases k with
        | zero =>
          simp only [nodeUpdateL, Node.visitsL, calls_bind, calls_pure, Nat.add_zero]
          exact ih c (by simp) (hc c (by simp)) j _
        | succ k =>
          simp only [nodeUpdateL, Node.visitsL, calls_bind, calls_pure, Nat.add_zero]
          exact ih2 (fun c h => ih c (by simp [h])) (fun c h => hc c (by simp [h])) k

/-- C102, `update` exactly: it makes as many calls as a lookup of the same element reads nodes. -/
theorem c102_update_exact {v : PV α} (h : Reach v) (i : Nat) (x : α) (hi : i < v.len) :
    (update v i x).calls = v.visits i := by
  have hl := h.lax
  obtain ⟨inner, len, g⟩ := v
  simp only at hi
  simp only [update, show ¬ i ≥ len by omega, if_false, PV.visits]
  cases inner with
  | inline es => simp
  | tree t =>
    simp only [calls_bind, calls_pure, Nat.add_zero, treeUpdate]
    by_cases h1 : i ≥ t.len
    · rw [if_pos h1, if_neg (by omega)]; rfl
    · rw [if_neg h1]
      by_cases h2 : i < t.head.length
      · rw [if_pos h2, if_neg (by omega)]; rfl
      · rw [if_neg h2]
        by_cases h3 : i - t.head.length < t.treeSize
        · rw [if_pos h3, if_pos (by omega)]
          simp only [calls_bind, calls_pure, Nat.add_zero]
          exact nodeUpdate_visits t.root x (lax_tree hl) _ _
        · have h4 : ¬ (i < t.len ∧ t.head.length ≤ i ∧ i - t.head.length < t.treeSize) := by omega
          rw [if_neg h4, if_neg h3]; rfl

/-- Meets the hypotheses: two nodes for the first of 200 elements. -/
example : (update (PV.fromIter (List.range 200)) 5 7).calls = 2 :=
  (c102_update_exact (.fromIter _) 5 7 (by decide +kernel)).trans (by decide +kernel)

/-- C102, what fails, in the strongest form: for no length is there a bound on the calls made by updating the first
element. -/
theorem c102_no_bound (k b : Nat) : ∃ v : PV Unit, Reach v ∧ v.len = k + 1 ∧ b < (update v 0 ()).calls := by
  obtain ⟨v, h1, h2, h3⟩ := PV.c59_no_bound k b
  exact ⟨v, h1, h2, by rw [c102_update_exact h1 0 () (by omega)]; exact h3⟩

/-- C102 is false of the code also for vectors that were only pushed to: no bound `a * log2(len) + b` holds for the number of
calls made by `update`, by `pop_front` or by `push_back`. -/
theorem c102_log_false (f : PV Unit → Nat) (hf : f ∈ [fun v => (update v 0 ()).calls,
      fun v => (popFront v).calls, fun v => (pushBack v ()).calls]) :
    ¬ ∃ a b : Nat, ∀ xs : List Unit, f (PV.new.extend xs) ≤ a * Nat.log2 xs.length + b := by
  rintro ⟨a, b, h⟩
  obtain ⟨m, hm⟩ := PV.exp_beats a b
  have hb : 1 ≤ 2 ^ m := Nat.one_le_two_pow
  have hl : (List.replicate (2048 * 2 ^ m) ()).length = 2048 * 2 ^ m := by simp
  have h1 := c102_push_back_exact (List.replicate (2048 * 2 ^ m) ()) () (by rw [hl]; omega)
  have h2 := h (List.replicate (2048 * 2 ^ m) ())
  have h4 : Nat.log2 (2048 * 2 ^ m) = m + 11 := by
    rw [show 2048 * 2 ^ m = 2 ^ (m + 11) by rw [pow_add]; ring]
    exact Nat.log2_two_pow
  rw [hl, h4] at h2
  rw [hl, if_pos (by omega)] at h1
  simp only [List.mem_cons, List.not_mem_nil, or_false] at hf
  rcases hf with rfl | rfl | rfl <;> simp only at h2 <;> omega

/-- Meets the hypothesis: updating the first element. -/
example : (fun v : PV Unit => (update v 0 ()).calls) ∈ [fun v : PV Unit => (update v 0 ()).calls,
    fun v => (popFront v).calls, fun v => (pushBack v ()).calls] := List.mem_cons_self

/-- C102 is false of the code for many calls together, too: `n` calls of `push_back` make more than `a * n * log2 n + b` of
the counted calls. -/
theorem c102_extend_false : ¬ ∃ a b : Nat, ∀ xs : List Unit,
    (extend PV.new xs).calls ≤ a * (xs.length * Nat.log2 xs.length) + b := by
  rintro ⟨a, b, h⟩
  obtain ⟨m, hm⟩ := PV.exp_beats (2048 * 2048 * a) (2048 * b + 1)
  have hb : 1 ≤ 2 ^ m := Nat.one_le_two_pow
  have hl : (List.replicate (2048 * 2 ^ m) ()).length = 2048 * 2 ^ m := by simp
  have h1 := (c102_extend_square (List.replicate (2048 * 2 ^ m) ())).1
  have h2 := h (List.replicate (2048 * 2 ^ m) ())
  have h4 : Nat.log2 (2048 * 2 ^ m) = m + 11 := by
    rw [show 2048 * 2 ^ m = 2 ^ (m + 11) by rw [pow_add]; ring]
    exact Nat.log2_two_pow
  rw [hl, h4] at h2
  rw [hl] at h1
  generalize (extend PV.new (List.replicate (2048 * 2 ^ m) ())).calls = T at *
  generalize 2 ^ m = X at *
  have hq : 31 * X ≤ (2048 * X - 1) / 64 := by omega
  have h5 := Nat.mul_le_mul hq hq
  generalize (2048 * X - 1) / 64 = q at *
  have h6 : (2048 * 2048 * a * (m + 11) + (2048 * b + 1)) * X < X * X := Nat.mul_lt_mul_of_pos_right hm hb
  have h7 : a * (2048 * X * (m + 11)) * 2048 + 2048 * b * X + X < X * X := by
    refine lt_of_le_of_lt (Nat.le_of_eq ?_) h6; ring
  have h8 : 31 * X * (31 * X) = 961 * (X * X) := by ring
  have h9 : 2048 * b ≤ 2048 * b * X := Nat.le_mul_of_pos_right _ hb
  omega

theorem concatLast_calls_append (pre : List (Node α)) (c r : Node α) :
    (concatLast (pre ++ [c]) r).calls = (concatNodes c r).calls := by
  induction pre with
  | nil => simp [concatLast]
  | cons p pre ih =>
    cases pre with
    | nil => simp [concatLast]
    | cons q pre => simpa [concatLast] using ih

theorem sized_pair (es : List α) : (Node.branch [.leaf es, .leaf es] (some [es.length, es.length])).Sized :=
  (sized_branch _ _).2 ⟨by simp, by simp [flen], by simp⟩

/-- C102, what `concat` costs: joining 128 more elements to `k + 1` vectors of 128 elements joined before makes `k + 7` calls,
as the sizes of all children of the root are asked for again, although no lookup reads more than three nodes. -/
theorem c102_concat_exact (k : Nat) :
    (concat (PV.joined k) (PV.fromIter (List.replicate 128 ()))).calls = k + 7 := by
  obtain ⟨cs, sizes, g, h, hc, _⟩ := PV.joined_last k
  have hsz : ∀ c ∈ cs, c.Sized := by
    have := (PV.reach_joined k).lax
    rw [h] at this
    intro c hm
    exact ((sized_branch _ _).1 (lax_tree this)).2.2 c (by simp [hm])
  have h64 : (concatNodes (.leaf (List.replicate 64 ())) (.leaf (List.replicate 64 ()))).calls = 3 := by
    simp only [concatNodes, calls_call, LEAF_CAPACITY, List.length_append, List.length_replicate, Nat.reduceAdd,
      Nat.reduceLeDiff, if_false]
    rw [makeRelaxed_calls _ (by simp)]; rfl
  have hcc := sized_pair (List.replicate 64 ())
  rw [List.length_replicate] at hcc
  rw [h, PV.fromIter128]
  simp only [concat, treeConcat, calls_bind, calls_pure]
  rw [if_neg (by omega), if_neg (by omega)]
  simp only [if_true, concatSameHeight, List.isEmpty_nil, Bool.not_true, Bool.false_eq_true, if_false, calls_bind,
    calls_pure, val_pure, Nat.zero_add, Nat.add_zero]
  rw [concatNodes]
  simp only [calls_call, calls_bind, concatLast_calls_append, h64,
    concatLast_val _ (fun c _ => concatNodes_val c), Tree.concatLast_append, PV.concat64, Option.toList_some,
    List.dropLast_concat, List.drop_succ_cons, List.drop_zero]
  rw [makeRelaxed_calls _ (by
    intro c hm
    simp only [List.append_assoc, List.mem_append, List.mem_singleton] at hm
    rcases hm with hm | rfl | rfl
    · exact hsz c hm
    · exact hcc
    · simp)]
  simp only [List.length_append, List.length_cons, List.length_nil, hc]
  omega

/-- C102 is false of the code also where the tree is flat: no bound `a * log2(len) + b` holds for the number of calls made by
`concat` of vectors of which no lookup reads more than three nodes. -/
theorem c102_concat_false : ¬ ∃ a b : Nat, ∀ v w : PV Unit, Reach v → Reach w → (∀ i, v.visits i ≤ 3) →
    (∀ i, w.visits i ≤ 3) → (concat v w).calls ≤ a * Nat.log2 (v.len + w.len) + b := by
  rintro ⟨a, b, h⟩
  obtain ⟨m, hm⟩ := PV.exp_beats a (b + 2)
  have hb : 1 ≤ 2 ^ m := Nat.one_le_two_pow
  have h2 : 2 ≤ 2 ^ m := by omega
  obtain ⟨h1, _, h3⟩ := PV.c99_concat_exact (2 ^ m - 2)
  have h4 := h (PV.joined (2 ^ m - 2)) (PV.joined 0) (PV.reach_joined _) (PV.reach_joined _) h3 (PV.c99_concat_exact 0).2.2
  have h5 : (PV.joined 0).len = 128 := (PV.c99_concat_exact 0).1
  have h6 : Nat.log2 (128 * (2 ^ m - 2 + 1) + 128) = m + 7 := by
    rw [show 128 * (2 ^ m - 2 + 1) + 128 = 128 * 2 ^ m by omega, show 128 * 2 ^ m = 2 ^ (m + 7) by rw [pow_add]; ring]
    exact Nat.log2_two_pow
  rw [h1, h5, h6] at h4
  have h7 : (concat (PV.joined (2 ^ m - 2)) (PV.joined 0)).calls = 2 ^ m - 2 + 7 := c102_concat_exact _
  rw [h7] at h4
  have h8 : a * (m + 7) ≤ a * (m + 11) := Nat.mul_le_mul_left _ (by omega)
  omega

/-- C102 for vectors made without taking elements away: fewer calls than two per element (and per level two more where the
element at an end goes), where without this condition no bound by the length holds (`c102_no_bound`).  Missing from C102: a
logarithmic bound (`c102_log_false`). -/
theorem c102_joined_partial {v : PV α} (h : PV.Joined v) (i : Nat) (x : α) :
    (update v i x).calls ≤ 2 * v.len ∧ (pushBack v x).calls ≤ 4 + 2 * v.len ∧ (pushFront v x).calls ≤ 4 + 2 * v.len ∧
    (popBack v).calls ≤ 8 * v.len ∧ (popFront v).calls ≤ 6 * v.len := by
  have hlow := h.low
  have hl := h.reach.lax
  obtain ⟨inner, len, g⟩ := v
  cases inner with
  | inline es =>
    simp only [PV.Low] at hlow
    have hp : (⟨.inline es, len, g⟩ : PV α).Paid 1984 := ⟨hlow.2, by omega⟩
    have h1 := pushBack_calls hp hl x
    have h2 := pushFront_calls hp hl x
    refine ⟨?_, by simpa using by omega, by simpa using by omega, ?_, ?_⟩
    · simp only [update]; split <;> simp
    · simp only [popBack]
      split
      · simp
      · split <;> simp
    · simp only [popFront]
      split
      · simp
      · cases es <;> simp
  | tree t =>
    simp only [PV.Low] at hlow
    have hs := lax_tree hl
    have hb := pushTailToTree_calls hs
    have hb' := (pushTail_depth t).1
    have hf := pushHeadToTree_calls hs
    have hf' := (pushHead_depth t).1
    refine ⟨?_, ?_, ?_, ?_, ?_⟩
    · have h1 := nodeUpdate_calls t.root x (i - t.head.length)
      simp only [update]
      split
      · simp
      · simp only [calls_bind, calls_pure, treeUpdate]
        split
        · simp
        · split
          · simp
          · split
            · simp only [calls_bind, calls_pure]; omega
            · simp
    · simp only [pushBack, vecTreePushBack, treePushBack, calls_bind, calls_pure]
      split
      · simp
      · simp only [calls_bind, calls_pure]; omega
    · simp only [pushFront, vecTreePushFront, treePushFront, calls_bind, calls_pure]
      split
      · simp
      · simp only [calls_bind, calls_pure]; omega
    · have h1 := treePopBack_levels hs
      simp only [popBack]
      split
      · simp
      · simp only [calls_bind, calls_pure]; omega
    · have h1 := treePopFront_levels hs
      simp only [popFront]
      split
      · simp
      · simp only [calls_bind, calls_pure]; omega

/-- Meets the hypothesis. -/
example : PV.Joined (((PV.fromIter (List.range 200)).pushFront 7).concat (PV.fromIter (List.range 300)) : PV Nat) :=
  .concat (.pushFront 7 (.fromIter _)) (.fromIter _)

end Rustica.PVec.Frames
