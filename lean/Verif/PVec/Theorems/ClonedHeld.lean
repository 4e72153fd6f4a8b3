import Verif.PVec.Theorems.Cloned
import Verif.PVec.Theorems.Elements

/-!
# Only elements that a vector holds are cloned (C93)

The value given to `push_back`, `push_front` or `update` is moved into the result; what these calls clone are elements
already stored in the vector.
-/

namespace Rustica.PVec.Cloned

variable {α X : Type}

/-! ## Nodes -/

theorem node_held (n : Node α) : (node n).log ⊆ n.flat := by cases n <;> simp [node]

theorem mem_flatL {cs : List (Node α)} {c : Node α} (hc : c ∈ cs) : c.flat ⊆ Node.flatL cs := by
  induction cs with
  | nil => cases hc
  | cons d ds ih =>
    rw [Node.flatL_cons]
    rcases List.mem_cons.1 hc with rfl | hc
    · exact List.subset_append_left _ _
    · exact List.subset_append_of_subset_right _ (ih hc)

theorem nodeUpdateL_held (x : α) (cs : List (Node α)) (ih : ∀ c ∈ cs, ∀ i, (nodeUpdate c i x).log ⊆ c.flat) :
    ∀ i j, (nodeUpdateL cs i j x).log ⊆ Node.flatL cs := by
  induction cs with
  | nil => intro i j; simp [nodeUpdateL]
  | cons c cs ihc =>
    intro i j
    cases i with
    | zero =>
      simp only [nodeUpdateL, log_bind, log_pure, List.append_nil, Node.flatL_cons]
      exact List.subset_append_of_subset_left _ (ih c (by simp) j)
    | succ i =>
      simp only [nodeUpdateL, log_bind, log_pure, List.append_nil, Node.flatL_cons]
      exact List.subset_append_of_subset_right _ (ihc (fun c hc => ih c (by simp [hc])) i j)

theorem nodeUpdate_held (x : α) (n : Node α) : ∀ i, (nodeUpdate n i x).log ⊆ n.flat := by
  induction n using Node.induct with
  | hleaf es => intro i; simp [nodeUpdate]
  | hbranch cs s ih =>
    intro i
    simp only [nodeUpdate]
    split
    · simpa using nodeUpdateL_held x cs ih _ _
    · simp [node]

theorem pushLeaf_held (n l : Node α) : (pushLeaf n l).log ⊆ n.flat := by
  cases n with
  | leaf es => simp [pushLeaf, node]
  | branch cs s => simp only [pushLeaf]; split <;> simp [node]

theorem pushFrontLeaf_held (n l : Node α) : (pushFrontLeaf n l).log ⊆ n.flat := by
  cases n with
  | leaf es => simp [pushFrontLeaf, node]
  | branch cs s => simp only [pushFrontLeaf]; split <;> simp [node]

theorem nodePopBackLast_held (cs : List (Node α)) (ih : ∀ c ∈ cs, (nodePopBack c).log ⊆ c.flat) :
    (nodePopBackLast cs).log ⊆ Node.flatL cs := by
  induction cs with
  | nil => simp [nodePopBackLast]
  | cons c cs ihc =>
    cases cs with
    | nil => simpa [nodePopBackLast] using ih c (by simp)
    | cons d ds =>
      simp only [nodePopBackLast]
      rw [Node.flatL_cons]
      exact List.subset_append_of_subset_right _ (ihc (fun c hc => ih c (by simp [List.mem_cons.1 hc])))

theorem nodePopBack_held (n : Node α) : (nodePopBack n).log ⊆ n.flat := by
  induction n using Node.induct with
  | hleaf es => simp only [nodePopBack]; split <;> simp
  | hbranch cs s ih =>
    have h := nodePopBackLast_held cs ih
    simp only [nodePopBack, log_bind, Node.flat_branch]
    refine List.append_subset.2 ⟨h, ?_⟩
    split
    · simp
    · split
      · split <;> simp
      · simp

theorem nodePopFront_held (n : Node α) : (nodePopFront n).log ⊆ n.flat := by
  induction n using Node.induct with
  | hleaf es => simp only [nodePopFront]; split <;> simp
  | hbranch cs s ih =>
    cases cs with
    | nil => simp [nodePopFront]
    | cons c cs =>
      simp only [nodePopFront, log_bind, Node.flat_branch, Node.flatL_cons]
      refine List.append_subset.2 ⟨List.subset_append_of_subset_left _ (ih c (by simp)), ?_⟩
      split
      · simp
      · split
        · split <;> simp
        · simp

theorem joined_held (xs : List α) : (joined xs).log ⊆ xs := by
  simp only [joined]
  split
  · simp
  · simp

theorem concatLast_held (cs : List (Node α))
    (ih : ∀ c ∈ cs, ∀ r, (concatNodes c r).log ⊆ c.flat ++ r.flat) :
    ∀ r, (concatLast cs r).log ⊆ Node.flatL cs ++ r.flat := by
  induction cs with
  | nil => intro r; simp [concatLast]
  | cons c cs ihc =>
    intro r
    cases cs with
    | nil => simpa [concatLast] using ih c (by simp) r
    | cons d ds =>
      simp only [concatLast]
      rw [Node.flatL_cons, List.append_assoc]
      exact List.subset_append_of_subset_right _ (ihc (fun c hc => ih c (by simp [List.mem_cons.1 hc])) r)

theorem concatNodes_held (l : Node α) : ∀ r, (concatNodes l r).log ⊆ l.flat ++ r.flat := by
  induction l using Node.induct with
  | hleaf es =>
    intro r
    cases r with
    | leaf fs =>
      simp only [concatNodes, log_bind, log_all, val_all, Node.flat_leaf]
      have := joined_held (es ++ fs)
      intro y hy
      simp only [List.mem_append] at hy ⊢
      rcases hy with h | h | h
      · exact .inl h
      · exact .inr h
      · simpa using this h
    | branch ds s => simp [concatNodes]
  | hbranch cs s ih =>
    intro r
    cases r with
    | leaf fs => simp [concatNodes]
    | branch ds s' =>
      cases ds with
      | nil => simp [concatNodes]
      | cons d ds =>
        simp only [concatNodes, log_bind, log_pure, List.append_nil, Node.flat_branch, Node.flatL_cons]
        intro y hy
        have := concatLast_held cs ih d hy
        simp only [List.mem_append] at this ⊢
        rcases this with h | h
        · exact .inl h
        · exact .inr (.inl h)

theorem splitChild_held (cs : List (Node α))
    (ih : ∀ c ∈ cs, ∀ p j h, (splitAlongPath c p j h).log ⊆ c.flat) :
    ∀ i p j h, (splitChild cs i p j h).log ⊆ Node.flatL cs := by
  induction cs with
  | nil => intro i p j h; simp [splitChild]
  | cons c cs ihc =>
    intro i p j h
    cases i with
    | zero =>
      simp only [splitChild, log_bind, log_pure, List.append_nil, Node.flatL_cons]
      exact List.subset_append_of_subset_left _ (ih c (by simp) p j h)
    | succ i =>
      simp only [splitChild, Node.flatL_cons]
      exact List.subset_append_of_subset_right _ (ihc (fun c hc => ih c (by simp [hc])) i p j h)

theorem splitAlongPath_held (n : Node α) : ∀ p j h, (splitAlongPath n p j h).log ⊆ n.flat := by
  induction n using Node.induct with
  | hleaf es => intro p j h; simp [splitAlongPath]
  | hbranch cs s ih =>
    intro p j h
    cases p with
    | nil => simpa [splitAlongPath] using splitChild_held cs ih 0 [] j (h - 1)
    | cons i p =>
      simp only [splitAlongPath, log_bind, Node.flat_branch]
      refine List.append_subset.2 ⟨splitChild_held cs ih _ _ _ _, ?_⟩
      split <;> simp

/-! ## Trees -/

theorem sub_head (t : Tree α) : t.head ⊆ t.toList := by simp [Tree.toList]

theorem sub_root (t : Tree α) : t.root.flat ⊆ t.toList := fun _ h => by simp [Tree.toList, h]

theorem sub_tail (t : Tree α) : t.tail ⊆ t.toList := by simp [Tree.toList]

/-- Cloning from a list, step by step. -/
theorem log_bind_held {Y : Type} {zs : List α} {r : Run α X} {f : X → Run α Y} (h1 : r.log ⊆ zs)
    (h2 : (f r.val).log ⊆ zs) : (r >>= f).log ⊆ zs := by
  rw [log_bind]; exact List.append_subset.2 ⟨h1, h2⟩

theorem all_bind_held {Y : Type} {zs xs : List α} {f : List α → Run α Y} (h1 : xs ⊆ zs) (h2 : (f xs).log ⊆ zs) :
    (all xs >>= f).log ⊆ zs := log_bind_held h1 h2

theorem pure_held (zs : List α) (x : X) : (pure x : Run α X).log ⊆ zs := by simp

theorem tree_held (t : Tree α) : (tree t).log ⊆ t.toList :=
  all_bind_held (sub_tail t) (all_bind_held (sub_head t) (pure_held _ _))

theorem fromElements_held (xs : List α) : (fromElements xs).log ⊆ xs := by
  simp only [fromElements]
  split
  · simp
  · simp only [buildTreeWithTail]
    split
    · exact all_bind_held (List.drop_subset _ _) (pure_held _ _)
    · refine log_bind_held ?_ (all_bind_held (List.drop_subset _ _) (pure_held _ _))
      rw [leaves_log, chunks_flatten (by decide)]
      exact List.take_subset _ _

theorem treeUpdate_held (t : Tree α) (i : Nat) (x : α) : (treeUpdate t i x).log ⊆ t.toList := by
  simp only [treeUpdate]
  split
  · exact tree_held t
  · split
    · exact all_bind_held (sub_head t) (all_bind_held (sub_tail t) (pure_held _ _))
    · split
      · exact log_bind_held (List.Subset.trans (nodeUpdate_held x _ _) (sub_root t))
          (all_bind_held (sub_tail t) (all_bind_held (sub_head t) (pure_held _ _)))
      · exact all_bind_held (sub_tail t) (all_bind_held (sub_head t) (pure_held _ _))

theorem pushTailToTree_held (t : Tree α) (h : t.root.Sized) : (pushTailToTree t).log ⊆ t.toList := by
  have hp := (Tree.pushTail_flat h).1
  simp only [pushTailToTree]
  simp only [Tree.pushTailToTree] at hp
  split
  · exact tree_held t
  · rename_i he
    rw [if_neg he] at hp
    refine all_bind_held (sub_tail t) (log_bind_held (List.Subset.trans (pushLeaf_held _ _) (sub_root t))
      (log_bind_held (List.Subset.trans (node_held _) ?_) (all_bind_held (sub_head t) (pure_held _ _))))
    rw [pushLeaf_val, ← hp]
    exact sub_root (Tree.mk (t.root.pushLeaf (.leaf t.tail)) [] t.head _ _)

theorem pushHeadToTree_held (t : Tree α) (h : t.root.Sized) : (pushHeadToTree t).log ⊆ t.toList := by
  have hp := (Tree.pushHead_flat h).1
  simp only [pushHeadToTree]
  simp only [Tree.pushHeadToTree] at hp
  split
  · exact tree_held t
  · rename_i he
    rw [if_neg he] at hp
    refine all_bind_held (sub_head t) (log_bind_held (List.Subset.trans (pushFrontLeaf_held _ _) (sub_root t))
      (log_bind_held (List.Subset.trans (node_held _) ?_) (all_bind_held (sub_tail t) (pure_held _ _))))
    rw [pushFrontLeaf_val, ← hp]
    exact sub_root (Tree.mk (t.root.pushFrontLeaf (.leaf t.head)) t.tail [] _ _)

theorem pushBackTail_held (t : Tree α) (x : α) : (pushBackTail t x).log ⊆ t.toList :=
  all_bind_held (sub_tail t) (all_bind_held (sub_head t) (pure_held _ _))

theorem pushFrontHead_held (t : Tree α) (x : α) : (pushFrontHead t x).log ⊆ t.toList :=
  all_bind_held (sub_head t) (all_bind_held (sub_tail t) (pure_held _ _))

theorem treePushBack_held (t : Tree α) (h : t.root.Sized) (x : α) : (treePushBack t x).log ⊆ t.toList := by
  simp only [treePushBack]
  split
  · exact pushBackTail_held t x
  · refine log_bind_held (pushTailToTree_held t h) ?_
    rw [pushTailToTree_val, ← (Tree.pushTail_flat h).1]
    exact pushBackTail_held _ x

theorem treePushFront_held (t : Tree α) (h : t.root.Sized) (x : α) : (treePushFront t x).log ⊆ t.toList := by
  simp only [treePushFront]
  split
  · exact pushFrontHead_held t x
  · refine log_bind_held (pushHeadToTree_held t h) ?_
    rw [pushHeadToTree_val, ← (Tree.pushHead_flat h).1]
    exact pushFrontHead_held _ x

theorem concatSameHeight_held (a b : Tree α) (ha : a.root.Sized) (hb : b.root.Sized) :
    (concatSameHeight a b).log ⊆ a.toList ++ b.toList := by
  have L : ∀ {xs : List α}, xs ⊆ a.toList → xs ⊆ a.toList ++ b.toList := List.subset_append_of_subset_left _
  have R : ∀ {xs : List α}, xs ⊆ b.toList → xs ⊆ a.toList ++ b.toList := List.subset_append_of_subset_right _
  have fin : ∀ l r : Tree α, l.toList = a.toList → r.toList = b.toList → ∀ hgt n,
      ((do
        let root ← concatNodes l.root r.root
        let tail ← all r.tail
        let head ← all l.head
        return ⟨root, tail, head, hgt, n⟩ : Run α (Tree α))).log ⊆ a.toList ++ b.toList := by
    intro l r hl hr hgt n
    refine log_bind_held (List.Subset.trans (concatNodes_held _ _) (List.append_subset.2 ⟨L ?_, R ?_⟩))
      (all_bind_held (R ?_) (all_bind_held (L ?_) (pure_held _ _)))
    · rw [← hl]; exact sub_root l
    · rw [← hr]; exact sub_root r
    · rw [← hr]; exact sub_tail r
    · rw [← hl]; exact sub_head l
  simp only [concatSameHeight]
  refine log_bind_held (L (tree_held a)) (log_bind_held (R (tree_held b)) ?_)
  simp only [tree_val]
  split
  · refine log_bind_held (L (pushTailToTree_held a ha)) ?_
    simp only [pushTailToTree_val]
    split
    · refine log_bind_held (R (pushHeadToTree_held b hb)) ?_
      simp only [pushHeadToTree_val]
      exact fin _ _ (Tree.pushTail_flat ha).1 (Tree.pushHead_flat hb).1 _ _
    · exact log_bind_held (pure_held _ _) (fin _ _ (Tree.pushTail_flat ha).1 rfl _ _)
  · refine log_bind_held (pure_held _ _) ?_
    simp only [val_pure]
    split
    · refine log_bind_held (R (pushHeadToTree_held b hb)) ?_
      simp only [pushHeadToTree_val]
      exact fin _ _ rfl (Tree.pushHead_flat hb).1 _ _
    · exact log_bind_held (pure_held _ _) (fin _ _ rfl rfl _ _)

theorem elevateTree_held (t : Tree α) (k : Nat) : (elevateTree t k).log ⊆ t.toList :=
  all_bind_held (sub_tail t) (all_bind_held (sub_head t) (pure_held _ _))

theorem elevateTree_flat (t : Tree α) (k : Nat) (h : t.root.Sized) :
    (Tree.elevateTree t k).root.Sized ∧ (Tree.elevateTree t k).toList = t.toList := by
  obtain ⟨h1, h2⟩ := Tree.elevateRoot_spec (k - t.height) t.root h
  exact ⟨h1, by simp [Tree.toList, Tree.elevateTree, h2]⟩

theorem treeConcat_held (a b : Tree α) (ha : a.root.Sized) (hb : b.root.Sized) :
    (treeConcat a b).log ⊆ a.toList ++ b.toList := by
  have diff : ∀ (a b : Tree α) (lh : Bool), a.root.Sized → b.root.Sized →
      (concatDifferentHeight a b lh).log ⊆ a.toList ++ b.toList := by
    intro a b lh ha hb
    simp only [concatDifferentHeight]
    split
    · obtain ⟨e1, e2⟩ := elevateTree_flat b a.height hb
      refine log_bind_held (List.subset_append_of_subset_right _ (elevateTree_held _ _)) ?_
      rw [elevateTree_val, ← e2]
      exact concatSameHeight_held _ _ ha e1
    · obtain ⟨e1, e2⟩ := elevateTree_flat a b.height ha
      refine log_bind_held (List.subset_append_of_subset_left _ (elevateTree_held _ _)) ?_
      rw [elevateTree_val, ← e2]
      exact concatSameHeight_held _ _ e1 hb
  simp only [treeConcat]
  split
  · exact List.subset_append_of_subset_right _ (tree_held b)
  · split
    · exact List.subset_append_of_subset_left _ (tree_held a)
    · split
      · exact concatSameHeight_held a b ha hb
      · split
        · exact List.Subset.trans (diff b a false hb ha) (by simp)
        · exact diff a b true ha hb

theorem popRoot_held (t : Tree α) (k : Nat) : (popRoot t k).log ⊆ t.root.flat := by
  simp only [popRoot]
  split
  · simp
  · refine log_bind_held (nodePopBack_held _) ?_
    split <;> simp

theorem treePopBack_held (t : Tree α) (h : t.root.Sized) : (treePopBack t).log ⊆ t.toList := by
  simp only [treePopBack]
  split
  · simp
  · split
    · refine all_bind_held (sub_tail t) ?_
      split
      · simp
      · exact all_bind_held (sub_head t) (pure_held _ _)
    · simp only [popFromTree]
      split
      · simp
      · split
        · simp
        · cases e : t.root.get (t.len - t.tail.length - 1) with
          | none => simp
          | some y =>
            refine log_bind_held ?_ (log_bind_held (List.Subset.trans (popRoot_held t _) (sub_root t))
              (all_bind_held (sub_tail t) (all_bind_held (sub_head t) (pure_held _ _))))
            rw [Node.get_eq _ h] at e
            simpa using sub_root t (List.mem_of_getElem? e)

theorem treePopFront_held (t : Tree α) : (treePopFront t).log ⊆ t.toList := by
  have ht : (popFrontFromTail t).log ⊆ t.toList := by
    refine all_bind_held (fun y hy => sub_tail t (by simpa using hy)) (pure_held _ _)
  simp only [treePopFront]
  split
  · simp
  · split
    · refine all_bind_held (sub_head t) ?_
      split
      · simp
      · exact all_bind_held (sub_tail t) (pure_held _ _)
    · simp only [popFrontFromTree]
      split
      · refine log_bind_held (List.Subset.trans (nodePopFront_held _) (sub_root t)) ?_
        split
        · exact all_bind_held (sub_tail t) (all_bind_held (sub_head t) (pure_held _ _))
        · exact ht
      · exact ht

theorem treeSplitAt_held (t : Tree α) (i : Nat) : (treeSplitAt t i).log ⊆ t.toList := by
  have hd : ∀ k, t.head.take k ⊆ t.toList ∧ t.head.drop k ⊆ t.toList := fun k =>
    ⟨List.Subset.trans (List.take_subset _ _) (sub_head t), List.Subset.trans (List.drop_subset _ _) (sub_head t)⟩
  have tl : ∀ k, t.tail.take k ⊆ t.toList ∧ t.tail.drop k ⊆ t.toList := fun k =>
    ⟨List.Subset.trans (List.take_subset _ _) (sub_tail t), List.Subset.trans (List.drop_subset _ _) (sub_tail t)⟩
  simp only [treeSplitAt]
  split
  · exact log_bind_held (tree_held t) (pure_held _ _)
  · split
    · exact log_bind_held (tree_held t) (pure_held _ _)
    · split
      · exact all_bind_held (hd _).1 (all_bind_held (hd _).2 (log_bind_held (all_bind_held (hd _).1 (pure_held _ _))
          (all_bind_held (sub_tail t) (log_bind_held
            (all_bind_held (sub_tail t) (all_bind_held (hd _).2 (pure_held _ _))) (pure_held _ _)))))
      · split
        · exact all_bind_held (tl _).1 (all_bind_held (tl _).2 (all_bind_held (sub_head t) (log_bind_held
            (all_bind_held (tl _).1 (all_bind_held (sub_head t) (pure_held _ _)))
            (log_bind_held (all_bind_held (tl _).2 (pure_held _ _)) (pure_held _ _)))))
        · exact log_bind_held (List.Subset.trans (splitAlongPath_held _ _ _ _) (sub_root t))
            (all_bind_held (sub_head t) (log_bind_held (all_bind_held (sub_head t) (pure_held _ _))
              (all_bind_held (sub_tail t) (log_bind_held (all_bind_held (sub_tail t) (pure_held _ _)) (pure_held _ _)))))

/-! ## Vectors -/

theorem vec_held (v : PV α) : (vec v).log ⊆ v.abs := by
  obtain ⟨inner, len, g⟩ := v
  cases inner <;> simp [vec, PV.abs]

theorem fromIter_held (xs : List α) : (fromIter xs).log ⊆ xs := by
  simp only [fromIter]
  split
  · simp
  · refine log_bind_held (fromElements_held xs) (log_bind_held (List.Subset.trans (tree_held _) ?_) (pure_held _ _))
    rw [fromElements_val, (Tree.fromElements_spec xs).2.1]
    exact List.Subset.refl _

theorem pushBack_held {v : PV α} (h : v.Lax) (x : α) : (pushBack v x).log ⊆ v.abs := by
  obtain ⟨inner, len, g⟩ := v
  cases inner with
  | inline es =>
    simp only [pushBack, PV.abs]
    split
    · exact all_bind_held (List.Subset.refl _) (pure_held _ _)
    · obtain ⟨f1, f2, _⟩ := Tree.fromElements_spec es
      refine log_bind_held (all_bind_held (List.Subset.refl _) (log_bind_held (fromElements_held es) (pure_held _ _))) ?_
      simp only [transitionToTree_val, PV.transitionToTree, vecTreePushBack]
      refine log_bind_held (List.Subset.trans (treePushBack_held _ f1.sized x) ?_) (pure_held _ _)
      rw [f2]; exact List.Subset.refl _
  | tree t =>
    simp only [pushBack, vecTreePushBack, PV.abs]
    exact log_bind_held (treePushBack_held t h x) (pure_held _ _)

theorem pushFront_held {v : PV α} (h : v.Lax) (x : α) : (pushFront v x).log ⊆ v.abs := by
  obtain ⟨inner, len, g⟩ := v
  cases inner with
  | inline es =>
    simp only [pushFront, PV.abs]
    split
    · exact all_bind_held (List.Subset.refl _) (pure_held _ _)
    · obtain ⟨f1, f2, _⟩ := Tree.fromElements_spec es
      refine log_bind_held (all_bind_held (List.Subset.refl _) (log_bind_held (fromElements_held es) (pure_held _ _))) ?_
      simp only [transitionToTree_val, PV.transitionToTree, vecTreePushFront]
      refine log_bind_held (List.Subset.trans (treePushFront_held _ f1.sized x) ?_) (pure_held _ _)
      rw [f2]; exact List.Subset.refl _
  | tree t =>
    simp only [pushFront, vecTreePushFront, PV.abs]
    exact log_bind_held (treePushFront_held t h x) (pure_held _ _)

theorem extend_held (xs : List α) : ∀ {v : PV α}, v.Lax → (extend v xs).log ⊆ v.abs ++ xs.dropLast := by
  induction xs with
  | nil => intro v _; simp [extend]
  | cons x xs ih =>
    intro v h
    refine log_bind_held (List.subset_append_of_subset_left _ (pushBack_held h x)) ?_
    rw [pushBack_val]
    cases xs with
    | nil => simp [extend]
    | cons y ys =>
      have := ih (h.pushBack x)
      rw [PV.pushBack_abs h] at this
      simpa using this

theorem update_held (v : PV α) (i : Nat) (x : α) : (update v i x).log ⊆ v.abs := by
  obtain ⟨inner, len, g⟩ := v
  simp only [update]
  split
  · exact vec_held _
  · cases inner with
    | inline es => exact all_bind_held (List.Subset.refl _) (pure_held _ _)
    | tree t => exact log_bind_held (treeUpdate_held t i x) (pure_held _ _)

theorem concat_held {v w : PV α} (hv : v.Lax) (hw : w.Lax) : (concat v w).log ⊆ v.abs ++ w.abs := by
  obtain ⟨i1, l1, g1⟩ := v
  obtain ⟨i2, l2, g2⟩ := w
  have L : ∀ {xs ys zs : List α}, xs ⊆ ys → xs ⊆ ys ++ zs := List.subset_append_of_subset_left _
  have R : ∀ {xs ys zs : List α}, xs ⊆ zs → xs ⊆ ys ++ zs := List.subset_append_of_subset_right _
  cases i1 with
  | inline es =>
    obtain ⟨f1, f2, _⟩ := Tree.fromElements_spec es
    cases i2 with
    | inline fs => exact all_bind_held (List.Subset.refl _) (fromIter_held _)
    | tree t =>
      refine all_bind_held (L (List.Subset.refl _)) (log_bind_held (L (fromElements_held es))
        (log_bind_held ?_ (pure_held _ _)))
      rw [fromElements_val]
      have := treeConcat_held _ t f1.sized hw
      rwa [f2] at this
  | tree t =>
    cases i2 with
    | inline fs =>
      obtain ⟨f1, f2, _⟩ := Tree.fromElements_spec fs
      refine all_bind_held (R (List.Subset.refl _)) (log_bind_held (R (fromElements_held fs))
        (log_bind_held ?_ (pure_held _ _)))
      rw [fromElements_val]
      have := treeConcat_held t _ hv f1.sized
      rwa [f2] at this
    | tree u =>
      exact log_bind_held (L (tree_held t)) (log_bind_held (R (tree_held u))
        (log_bind_held (by rw [tree_val, tree_val]; exact treeConcat_held t u hv hw) (pure_held _ _)))

theorem popBack_held {v : PV α} (h : v.Lax) : (popBack v).log ⊆ v.abs := by
  obtain ⟨inner, len, g⟩ := v
  simp only [popBack]
  split
  · simp
  · cases inner with
    | inline es =>
      cases e : es.getLast? with
      | none => simp [e]
      | some y =>
        simp only [e]
        refine log_bind_held ?_ (all_bind_held (List.Subset.refl _) (pure_held _ _))
        simpa [PV.abs] using List.mem_of_getLast? e
    | tree t => exact log_bind_held (treePopBack_held t h) (pure_held _ _)

theorem popFront_held (v : PV α) : (popFront v).log ⊆ v.abs := by
  obtain ⟨inner, len, g⟩ := v
  simp only [popFront]
  split
  · simp
  · cases inner with
    | inline es => cases es <;> simp [PV.abs]
    | tree t => exact log_bind_held (treePopFront_held t) (pure_held _ _)

theorem splitAt_held (v : PV α) (i : Nat) : (splitAt v i).log ⊆ v.abs := by
  obtain ⟨inner, len, g⟩ := v
  simp only [splitAt]
  split
  · exact log_bind_held (vec_held _) (pure_held _ _)
  · split
    · exact log_bind_held (vec_held _) (pure_held _ _)
    · cases inner with
      | inline es =>
        exact all_bind_held (List.take_subset _ _) (all_bind_held (List.drop_subset _ _) (pure_held _ _))
      | tree t => exact log_bind_held (treeSplitAt_held t i) (pure_held _ _)

theorem take_held (v : PV α) (n : Nat) : (take v n).log ⊆ v.abs := by
  simp only [take]
  split
  · exact vec_held v
  · exact log_bind_held (splitAt_held v n) (pure_held _ _)

theorem skip_held (v : PV α) (n : Nat) : (skip v n).log ⊆ v.abs := by
  simp only [skip]
  split
  · simp
  · exact log_bind_held (splitAt_held v n) (pure_held _ _)

theorem insert_held {v : PV α} (h : v.Lax) (i : Nat) (x : α) : (insert v i x).log ⊆ x :: v.abs := by
  simp only [insert]
  split
  · exact List.subset_cons_of_subset _ (pushBack_held h x)
  · split
    · exact List.subset_cons_of_subset _ (pushFront_held h x)
    · obtain ⟨l1, l2⟩ := h.splitAt i
      have hs := (PV.splitAt_abs v i).subset
      refine log_bind_held (List.subset_cons_of_subset _ (splitAt_held v i)) ?_
      rw [splitAt_val]
      refine log_bind_held (List.Subset.trans (pushBack_held l1 x) fun y hy => ?_) ?_
      · exact List.mem_cons_of_mem _ (hs (List.mem_append_left _ hy))
      · rw [pushBack_val]
        refine List.Subset.trans (concat_held (l1.pushBack x) l2) ?_
        rw [PV.pushBack_abs l1]
        intro y hy
        simp only [List.mem_append, List.mem_singleton] at hy
        rcases hy with (hy | rfl) | hy
        · exact List.mem_cons_of_mem _ (hs (List.mem_append_left _ hy))
        · exact List.mem_cons_self
        · exact List.mem_cons_of_mem _ (hs (List.mem_append_right _ hy))

theorem remove_held {v : PV α} (h : v.Lax) (i : Nat) : (remove v i).log ⊆ v.abs := by
  simp only [remove]
  split
  · simp
  · split
    · simp
    · obtain ⟨l1, l2⟩ := h.splitAt i
      have hs := (PV.splitAt_abs v i).subset
      refine log_bind_held (splitAt_held v i) ?_
      rw [splitAt_val]
      have hr : (v.splitAt i).2.abs ⊆ v.abs := fun y hy => hs (List.mem_append_right _ hy)
      refine log_bind_held (List.Subset.trans (skip_held _ 1) hr) (log_bind_held ?_ (pure_held _ _))
      rw [skip_val]
      refine List.Subset.trans (concat_held l1 (l2.skip 1)) (List.append_subset.2 ⟨fun y hy => ?_, ?_⟩)
      · exact hs (List.mem_append_left _ hy)
      · exact List.Subset.trans (PV.skip_abs _ 1).subset hr

/-- Whatever calls made the vectors: a call clones only elements that the vectors hold.  In particular the value given to
`push_back`, `push_front` or `update` is not cloned, nor is the last one given to `extend`.  `insert` may clone the value it is
given (`c93_insert_clones_value`). -/
theorem c93_only_held {v w : PV α} (hv : Reach v) (hw : Reach w) (i : Nat) (x : α) (xs : List α) :
    (vec v).log ⊆ v.abs ∧ (update v i x).log ⊆ v.abs ∧ (pushBack v x).log ⊆ v.abs ∧ (pushFront v x).log ⊆ v.abs ∧
    (popBack v).log ⊆ v.abs ∧ (popFront v).log ⊆ v.abs ∧ (splitAt v i).log ⊆ v.abs ∧ (take v i).log ⊆ v.abs ∧
    (skip v i).log ⊆ v.abs ∧ (remove v i).log ⊆ v.abs ∧ (concat v w).log ⊆ v.abs ++ w.abs ∧
    (insert v i x).log ⊆ x :: v.abs ∧ (extend v xs).log ⊆ v.abs ++ xs.dropLast :=
  ⟨vec_held v, update_held v i x, pushBack_held hv.lax x, pushFront_held hv.lax x, popBack_held hv.lax, popFront_held v,
    splitAt_held v i, take_held v i, skip_held v i, remove_held hv.lax i, concat_held hv.lax hw.lax,
    insert_held hv.lax i x, extend_held xs hv.lax⟩

/-- Pushing 7 onto 64 zeros clones zeros only, and some. -/
example : let v := PV.fromIter (List.replicate 64 0)
    7 ∉ (pushBack v 7).log ∧ (pushBack v 7).log ≠ [] :=
  ⟨fun h => by
    have := (c93_only_held (.fromIter (List.replicate 64 0)) .new 0 7 []).2.2.1 h
    revert this; decide +kernel, by decide +kernel⟩

/-- `insert` into the middle clones the value it is given. -/
theorem c93_insert_clones_value : ∃ v : PV Nat, Reach v ∧ 7 ∉ v.abs ∧ 7 ∈ (insert v 1 7).log :=
  ⟨PV.fromIter [0, 1], .fromIter _, by decide, by decide⟩

end Rustica.PVec.Cloned
