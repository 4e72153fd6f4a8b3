import Verif.PVec.Cloned
import Verif.PVec.Theorems.Capacity

/-!
# The elements that vector operations clone (C93)
-/

namespace Rustica.PVec.Cloned

variable {α β X Y : Type}

@[simp] theorem val_pure (x : X) : (pure x : Run α X).val = x := rfl
@[simp] theorem log_pure (x : X) : (pure x : Run α X).log = [] := rfl
@[simp] theorem val_bind (r : Run α X) (f : X → Run α Y) : (r >>= f).val = (f r.val).val := rfl
@[simp] theorem log_bind (r : Run α X) (f : X → Run α Y) : (r >>= f).log = r.log ++ (f r.val).log := rfl
@[simp] theorem val_all (xs : List α) : (all xs).val = xs := rfl
@[simp] theorem log_all (xs : List α) : (all xs).log = xs := rfl
@[simp] theorem val_one (x : α) : (one x).val = x := rfl
@[simp] theorem log_one (x : α) : (one x).log = [x] := rfl

/-! ## The calls return what the calls of the model without the record return -/

@[simp] theorem node_val (n : Node α) : (node n).val = n := by cases n <;> simp [node]

theorem nodeUpdateL_val (cs : List (Node α)) (ih : ∀ c ∈ cs, ∀ i x, (nodeUpdate c i x).val = c.update i x) :
    ∀ i j x, (nodeUpdateL cs i j x).val = Node.updateL cs i j x := by
  induction cs with
  | nil => intro i j x; simp [nodeUpdateL, Node.updateL]
  | cons c cs ihc =>
    intro i j x
    cases i with
    | zero => simp [nodeUpdateL, Node.updateL, ih c (by simp)]
    | succ i => simp [nodeUpdateL, Node.updateL, ihc (fun c hc => ih c (by simp [hc]))]

@[simp] theorem nodeUpdate_val (n : Node α) : ∀ i x, (nodeUpdate n i x).val = n.update i x := by
  induction n using Node.induct with
  | hleaf es => intro i x; simp only [nodeUpdate, Node.update]; rfl
  | hbranch cs s ih =>
    intro i x
    simp only [nodeUpdate, Node.update]
    cases Node.findChild s i with
    | none => simp
    | some q => simp [nodeUpdateL_val cs ih]

@[simp] theorem pushLeaf_val (n l : Node α) : (pushLeaf n l).val = n.pushLeaf l := by
  cases n with
  | leaf es => simp [pushLeaf, Node.pushLeaf]
  | branch cs s => simp only [pushLeaf, Node.pushLeaf]; cases s <;> split <;> simp

@[simp] theorem pushFrontLeaf_val (n l : Node α) : (pushFrontLeaf n l).val = n.pushFrontLeaf l := by
  cases n with
  | leaf es => simp [pushFrontLeaf, Node.pushFrontLeaf]
  | branch cs s => simp only [pushFrontLeaf, Node.pushFrontLeaf]; cases s <;> split <;> simp

theorem nodePopBackLast_val (cs : List (Node α)) (ih : ∀ c ∈ cs, (nodePopBack c).val = c.popBack) :
    (nodePopBackLast cs).val = Node.popBackLast cs := by
  induction cs with
  | nil => simp [nodePopBackLast, Node.popBackLast]
  | cons c cs ihc =>
    cases cs with
    | nil => simp [nodePopBackLast, Node.popBackLast, ih c (by simp)]
    | cons d ds =>
      simp only [nodePopBackLast, Node.popBackLast]
      exact ihc (fun c hc => ih c (by simp [List.mem_cons.1 hc]))

@[simp] theorem nodePopBack_val (n : Node α) : (nodePopBack n).val = n.popBack := by
  induction n using Node.induct with
  | hleaf es =>
    cases es with
    | nil => simp [nodePopBack, Node.popBack]
    | cons e es =>
      simp only [nodePopBack, Node.popBack]
      cases h : (e :: es).getLast? <;> simp [h]
  | hbranch cs s ih =>
    simp only [nodePopBack, Node.popBack, val_bind, nodePopBackLast_val cs ih]
    cases Node.popBackLast cs with
    | none => rfl
    | some q =>
      simp only
      split
      · split <;> simp
      · simp

@[simp] theorem nodePopFront_val (n : Node α) : (nodePopFront n).val = n.popFront := by
  induction n using Node.induct with
  | hleaf es =>
    cases es with
    | nil => simp [nodePopFront, Node.popFront]
    | cons e es => simp [nodePopFront, Node.popFront]
  | hbranch cs s ih =>
    cases cs with
    | nil => simp [nodePopFront, Node.popFront]
    | cons c cs =>
      simp only [nodePopFront, Node.popFront, val_bind, ih c (by simp)]
      cases c.popFront with
      | none => rfl
      | some q =>
        simp only
        split
        · split <;> simp
        · simp

@[simp] theorem tree_val (t : Tree α) : (tree t).val = t := by simp [tree]

@[simp] theorem leaves_val (cs : List (List α)) : (leaves cs).val = cs.map Node.leaf := by
  induction cs with
  | nil => simp [leaves]
  | cons c cs ih => simp [leaves, ih]

@[simp] theorem fromElements_val (xs : List α) : (fromElements xs).val = Tree.fromElements xs := by
  simp only [fromElements, Tree.fromElements]
  split
  · simp
  · simp only [buildTreeWithTail, Tree.buildTreeWithTail]; split <;> simp

@[simp] theorem treeUpdate_val (t : Tree α) (i : Nat) (x : α) : (treeUpdate t i x).val = t.update i x := by
  simp only [treeUpdate, Tree.update]
  split
  · simp
  · split
    · simp
    · split
      · simp
      · rfl

@[simp] theorem pushTailToTree_val (t : Tree α) : (pushTailToTree t).val = t.pushTailToTree := by
  simp only [pushTailToTree, Tree.pushTailToTree]; split <;> simp

@[simp] theorem pushHeadToTree_val (t : Tree α) : (pushHeadToTree t).val = t.pushHeadToTree := by
  simp only [pushHeadToTree, Tree.pushHeadToTree]; split <;> simp

@[simp] theorem treePushBack_val (t : Tree α) (x : α) : (treePushBack t x).val = t.pushBack x := by
  simp only [treePushBack, Tree.pushBack]; split <;> simp [pushBackTail]

@[simp] theorem treePushFront_val (t : Tree α) (x : α) : (treePushFront t x).val = t.pushFront x := by
  simp only [treePushFront, Tree.pushFront]; split <;> simp [pushFrontHead]

theorem concatLast_val (cs : List (Node α)) (ih : ∀ c ∈ cs, ∀ r, (concatNodes c r).val = Tree.concatNodes c r) :
    ∀ r, (concatLast cs r).val = Tree.concatLast cs r := by
  induction cs with
  | nil => intro r; simp [concatLast, Tree.concatLast]
  | cons c cs ihc =>
    intro r
    cases cs with
    | nil => simp [concatLast, Tree.concatLast, ih c (by simp)]
    | cons d ds =>
      simp only [concatLast, Tree.concatLast]
      exact ihc (fun c hc => ih c (by simp [List.mem_cons.1 hc])) r

theorem joined_val (xs : List α) : (joined xs).val = if xs.length ≤ LEAF_CAPACITY then .leaf xs
    else Node.makeRelaxed [.leaf (xs.take LEAF_CAPACITY), .leaf (xs.drop LEAF_CAPACITY)] := by
  simp only [joined]; split <;> simp

@[simp] theorem concatNodes_val (l : Node α) : ∀ r, (concatNodes l r).val = Tree.concatNodes l r := by
  induction l using Node.induct with
  | hleaf es =>
    intro r
    cases r with
    | leaf fs =>
      simp only [concatNodes, Tree.concatNodes, val_bind, val_all, joined_val]
    | branch ds s => simp [concatNodes, Tree.concatNodes]
  | hbranch cs s ih =>
    intro r
    cases r with
    | leaf fs => simp [concatNodes, Tree.concatNodes]
    | branch ds s' =>
      cases ds with
      | nil => simp [concatNodes, Tree.concatNodes]
      | cons d ds => simp [concatNodes, Tree.concatNodes, concatLast_val cs ih]

@[simp] theorem concatSameHeight_val (a b : Tree α) : (concatSameHeight a b).val = a.concatSameHeight b := by
  simp only [concatSameHeight, Tree.concatSameHeight, val_bind, tree_val]
  split <;> split <;> simp

@[simp] theorem elevateTree_val (t : Tree α) (k : Nat) : (elevateTree t k).val = Tree.elevateTree t k := by
  simp [elevateTree, Tree.elevateTree]

@[simp] theorem treeConcat_val (a b : Tree α) : (treeConcat a b).val = a.concat b := by
  simp only [treeConcat, Tree.concat]
  split
  · simp
  · split
    · simp
    · split
      · simp
      · split <;> simp [concatDifferentHeight, Tree.concatDifferentHeight]

theorem popRoot_val (t : Tree α) (k : Nat) : (popRoot t k).val =
    if k = 1 then (Node.leaf [], 0)
    else match t.root.popBack with
      | some (newRoot, _) => (newRoot, t.height)
      | none => (t.root, t.height) := by
  simp only [popRoot]
  split
  · rfl
  · simp only [val_bind, nodePopBack_val]
    cases t.root.popBack <;> rfl

@[simp] theorem popFromTree_val (t : Tree α) : (popFromTree t).val = t.popFromTree := by
  simp only [popFromTree, Tree.popFromTree]
  split
  · rfl
  · split
    · rfl
    · cases t.root.get (t.len - t.tail.length - 1) with
      | none => rfl
      | some x => simp only [val_bind, val_one, val_all, val_pure, popRoot_val]; rfl

@[simp] theorem treePopBack_val (t : Tree α) : (treePopBack t).val = t.popBack := by
  obtain ⟨root, tail, head, height, len⟩ := t
  simp only [treePopBack, Tree.popBack]
  split
  · rfl
  · cases tail with
    | nil => simp
    | cons y ys => simp [List.getLast?_cons]

@[simp] theorem popFrontFromTail_val (t : Tree α) : (popFrontFromTail t).val = t.popFrontFromTail := by
  simp only [popFrontFromTail, Tree.popFrontFromTail, val_bind, val_all, val_pure]; rfl

@[simp] theorem popFrontFromTree_val (t : Tree α) : (popFrontFromTree t).val = t.popFrontFromTree := by
  simp only [popFrontFromTree, Tree.popFrontFromTree]
  split
  · simp only [val_bind, nodePopFront_val]
    cases t.root.popFront <;> simp
  · simp

@[simp] theorem treePopFront_val (t : Tree α) : (treePopFront t).val = t.popFront := by
  obtain ⟨root, tail, head, height, len⟩ := t
  simp only [treePopFront, Tree.popFront]
  split
  · rfl
  · cases head <;> simp

theorem splitChild_val (cs : List (Node α))
    (ih : ∀ c ∈ cs, ∀ p j h, (splitAlongPath c p j h).val = Tree.splitAlongPath c p j h) :
    ∀ i p j h, (splitChild cs i p j h).val = Tree.splitChild cs i p j h := by
  induction cs with
  | nil => intro i p j h; simp [splitChild, Tree.splitChild]
  | cons c cs ihc =>
    intro i p j h
    cases i with
    | zero => simp [splitChild, Tree.splitChild, ih c (by simp)]
    | succ i => simp [splitChild, Tree.splitChild, ihc (fun c hc => ih c (by simp [hc]))]

@[simp] theorem splitAlongPath_val (n : Node α) :
    ∀ p j h, (splitAlongPath n p j h).val = Tree.splitAlongPath n p j h := by
  induction n using Node.induct with
  | hleaf es => intro p j h; simp [splitAlongPath, Tree.splitAlongPath]
  | hbranch cs s ih =>
    intro p j h
    cases p with
    | nil => simp [splitAlongPath, Tree.splitAlongPath, splitChild_val cs ih]
    | cons i p =>
      simp only [splitAlongPath, Tree.splitAlongPath, val_bind, splitChild_val cs ih]
      generalize Tree.splitChild cs i p _ (h - 1) = q
      cases q <;> rfl

@[simp] theorem treeSplitAt_val (t : Tree α) (i : Nat) : (treeSplitAt t i).val = t.splitAt i := by
  simp only [treeSplitAt, Tree.splitAt]
  split
  · simp
  · split
    · simp
    · split
      · simp [fromHead, fromHeadAndTreeAndTail]
      · split
        · simp [fromTail, fromHeadAndTreeAndTail]
        · simp [fromHeadAndRoot, fromRootAndTail, Tree.splitTreeAt]

@[simp] theorem vec_val (v : PV α) : (vec v).val = v := by
  obtain ⟨inner, len, g⟩ := v; cases inner <;> simp [vec]

@[simp] theorem fromIter_val (xs : List α) : (fromIter xs).val = PV.fromIter xs := by
  simp only [fromIter, PV.fromIter]; split <;> simp

@[simp] theorem transitionToTree_val (v : PV α) : (transitionToTree v).val = v.transitionToTree := by
  obtain ⟨inner, len, g⟩ := v; cases inner <;> simp [transitionToTree, PV.transitionToTree]

@[simp] theorem vecTreePushBack_val (v : PV α) (x : α) : (vecTreePushBack v x).val = v.treePushBack x := by
  obtain ⟨inner, len, g⟩ := v; cases inner <;> simp [vecTreePushBack, PV.treePushBack]

@[simp] theorem vecTreePushFront_val (v : PV α) (x : α) : (vecTreePushFront v x).val = v.treePushFront x := by
  obtain ⟨inner, len, g⟩ := v; cases inner <;> simp [vecTreePushFront, PV.treePushFront]

@[simp] theorem pushBack_val (v : PV α) (x : α) : (pushBack v x).val = v.pushBack x := by
  obtain ⟨inner, len, g⟩ := v
  cases inner with
  | inline es => simp only [pushBack, PV.pushBack]; split <;> simp
  | tree t => simp [pushBack, PV.pushBack]

@[simp] theorem pushFront_val (v : PV α) (x : α) : (pushFront v x).val = v.pushFront x := by
  obtain ⟨inner, len, g⟩ := v
  cases inner with
  | inline es => simp only [pushFront, PV.pushFront]; split <;> simp
  | tree t => simp [pushFront, PV.pushFront]

@[simp] theorem extend_val (xs : List α) : ∀ v : PV α, (extend v xs).val = v.extend xs := by
  induction xs with
  | nil => intro v; simp [extend, PV.extend]
  | cons x xs ih => intro v; simp [extend, ih, PV.extend]

@[simp] theorem update_val (v : PV α) (i : Nat) (x : α) : (update v i x).val = v.update i x := by
  obtain ⟨inner, len, g⟩ := v
  simp only [update, PV.update]
  split
  · simp
  · cases inner <;> simp

@[simp] theorem concat_val (v w : PV α) : (concat v w).val = v.concat w := by
  obtain ⟨i1, l1, g1⟩ := v
  obtain ⟨i2, l2, g2⟩ := w
  cases i1 <;> cases i2 <;> simp [concat, PV.concat]

@[simp] theorem popBack_val (v : PV α) : (popBack v).val = v.popBack := by
  obtain ⟨inner, len, g⟩ := v
  simp only [popBack, PV.popBack]
  split
  · rfl
  · cases inner with
    | inline es => cases h : es.getLast? <;> simp [h]
    | tree t => simp

@[simp] theorem popFront_val (v : PV α) : (popFront v).val = v.popFront := by
  obtain ⟨inner, len, g⟩ := v
  simp only [popFront, PV.popFront]
  split
  · rfl
  · cases inner with
    | inline es => cases es <;> simp
    | tree t => simp

@[simp] theorem splitAt_val (v : PV α) (i : Nat) : (splitAt v i).val = v.splitAt i := by
  obtain ⟨inner, len, g⟩ := v
  simp only [splitAt, PV.splitAt]
  split
  · simp
  · split
    · simp
    · cases inner <;> simp

@[simp] theorem take_val (v : PV α) (n : Nat) : (take v n).val = v.take n := by
  simp only [take, PV.take]; split <;> simp

@[simp] theorem skip_val (v : PV α) (n : Nat) : (skip v n).val = v.skip n := by
  simp only [skip, PV.skip]; split <;> simp

@[simp] theorem insert_val (v : PV α) (i : Nat) (x : α) : (insert v i x).val = v.insert i x := by
  simp only [insert, PV.insert]
  split
  · simp
  · split <;> simp

@[simp] theorem remove_val (v : PV α) (i : Nat) : (remove v i).val = v.remove i := by
  simp only [remove, PV.remove]
  split
  · simp
  · split <;> simp

theorem partitionLoop_val (p : α → Bool) (xs : List α) :
    ∀ ts fs, (partitionLoop p xs ts fs).val = PV.partitionLoop p xs ts fs ∧ (partitionLoop p xs ts fs).log = xs := by
  induction xs with
  | nil => intro ts fs; simp [partitionLoop, PV.partitionLoop]
  | cons x xs ih =>
    intro ts fs
    simp only [partitionLoop, PV.partitionLoop]
    split <;> simp [ih]

/-! ## How many elements are cloned -/

/-- All leaves and buffers hold at most 64 elements. -/
abbrev Any : Nat → Prop := fun _ => True

theorem width_any : Node.Width Any := ⟨fun _ _ => trivial, fun _ _ _ _ => trivial⟩

theorem node_log {n : Node α} (h : n.Within Any) : (node n).log.length ≤ 64 := by
  cases n <;> simp_all [node]

theorem nodeUpdateL_log (cs : List (Node α)) (x : α) (ih : ∀ c ∈ cs, ∀ i, (nodeUpdate c i x).log.length ≤ 64) :
    ∀ i j, (nodeUpdateL cs i j x).log.length ≤ 64 := by
  induction cs with
  | nil => intro i j; simp [nodeUpdateL]
  | cons c cs ihc =>
    intro i j
    cases i with
    | zero => simpa [nodeUpdateL] using ih c (by simp) j
    | succ i => simpa [nodeUpdateL] using ihc (fun c hc => ih c (by simp [hc])) i j

theorem nodeUpdate_log (n : Node α) (x : α) : n.Within Any → ∀ i, (nodeUpdate n i x).log.length ≤ 64 := by
  induction n using Node.induct with
  | hleaf es => intro h i; simpa [nodeUpdate] using h
  | hbranch cs s ih =>
    intro h i
    rw [Node.within_branch] at h
    simp only [nodeUpdate]
    split
    · simpa using nodeUpdateL_log cs x (fun c hc => ih c hc (h.2 c hc)) _ _
    · simp [node]

theorem pushLeaf_log {n : Node α} (l : Node α) (h : n.Within Any) : (pushLeaf n l).log.length ≤ 64 := by
  cases n with
  | leaf es => simpa [pushLeaf, node] using h
  | branch cs s => simp only [pushLeaf]; split <;> simp [node]

theorem pushFrontLeaf_log {n : Node α} (l : Node α) (h : n.Within Any) : (pushFrontLeaf n l).log.length ≤ 64 := by
  cases n with
  | leaf es => simpa [pushFrontLeaf, node] using h
  | branch cs s => simp only [pushFrontLeaf]; split <;> simp [node]

theorem nodePopBackLast_log (cs : List (Node α)) (ih : ∀ c ∈ cs, (nodePopBack c).log.length ≤ 64) :
    (nodePopBackLast cs).log.length ≤ 64 := by
  induction cs with
  | nil => simp [nodePopBackLast]
  | cons c cs ihc =>
    cases cs with
    | nil => simpa [nodePopBackLast] using ih c (by simp)
    | cons d ds => simpa only [nodePopBackLast] using ihc (fun c hc => ih c (by simp [List.mem_cons.1 hc]))

theorem nodePopBack_log (n : Node α) : n.Within Any → (nodePopBack n).log.length ≤ 64 := by
  induction n using Node.induct with
  | hleaf es =>
    intro h
    simp only [nodePopBack]
    split
    · simp
    · simpa using h
  | hbranch cs s ih =>
    intro h
    rw [Node.within_branch] at h
    have := nodePopBackLast_log cs (fun c hc => ih c hc (h.2 c hc))
    simp only [nodePopBack, log_bind]
    generalize (nodePopBackLast cs).val = q
    cases q with
    | none => simpa using this
    | some q =>
      simp only
      split
      · split <;> simpa using this
      · simpa using this

theorem nodePopFront_log (n : Node α) : n.Within Any → (nodePopFront n).log.length ≤ 64 := by
  induction n using Node.induct with
  | hleaf es =>
    intro h
    simp only [nodePopFront]
    split
    · simp
    · simpa using h
  | hbranch cs s ih =>
    intro h
    rw [Node.within_branch] at h
    cases cs with
    | nil => simp [nodePopFront]
    | cons c cs =>
      have := ih c (by simp) (h.2 c (by simp))
      simp only [nodePopFront, log_bind]
      generalize (nodePopFront c).val = q
      cases q with
      | none => simpa using this
      | some q =>
        simp only
        split
        · split <;> simpa using this
        · simpa using this

/-- A `pop_front` that finds nothing has cloned nothing. -/
theorem nodePopFront_none (n : Node α) : n.popFront = none → (nodePopFront n).log = [] := by
  induction n using Node.induct with
  | hleaf es => cases es <;> simp [nodePopFront, Node.popFront]
  | hbranch cs s ih =>
    cases cs with
    | nil => simp [nodePopFront]
    | cons c cs =>
      intro h
      simp only [Node.popFront] at h
      simp only [nodePopFront, log_bind, nodePopFront_val]
      cases e : c.popFront with
      | none => simp [ih c (by simp) e]
      | some q =>
        rw [e] at h
        simp only at h
        split at h
        · split at h <;> cases h
        · cases h

theorem tree_log {t : Tree α} (h : t.Within Any) : (tree t).log.length ≤ 128 := by
  have := h.2
  simp [tree]; omega

theorem treeUpdate_log {t : Tree α} (h : t.Within Any) (i : Nat) (x : α) : (treeUpdate t i x).log.length ≤ 192 := by
  have h1 := nodeUpdate_log t.root x h.1
  have h2 := tree_log h
  have := h.2
  simp only [treeUpdate]
  split
  · omega
  · split
    · simp; omega
    · split
      · have := h1 (i - t.head.length)
        simp; omega
      · simp; omega

/-- Handing the tail over clones the tail, the head and, if the root is a leaf, the root. -/
theorem pushTailToTree_log {t : Tree α} (h : t.Within Any) : (pushTailToTree t).log.length ≤ 192 := by
  have h1 := pushLeaf_log (.leaf t.tail) h.1
  have h2 := tree_log h
  have := h.2
  have hb : (node (t.root.pushLeaf (.leaf t.tail))).log = [] := by
    cases t.root with
    | leaf es => rfl
    | branch cs s => simp only [Node.pushLeaf]; split <;> rfl
  simp only [pushTailToTree]
  split
  · omega
  · simp [hb]; omega

theorem pushHeadToTree_log {t : Tree α} (h : t.Within Any) : (pushHeadToTree t).log.length ≤ 192 := by
  have h1 := pushFrontLeaf_log (.leaf t.head) h.1
  have h2 := tree_log h
  have := h.2
  have hb : (node (t.root.pushFrontLeaf (.leaf t.head))).log = [] := by
    cases t.root with
    | leaf es => rfl
    | branch cs s => simp only [Node.pushFrontLeaf]; split <;> rfl
  simp only [pushHeadToTree]
  split
  · omega
  · simp [hb]; omega

theorem treePushBack_log {t : Tree α} (h : t.Within Any) (x : α) : (treePushBack t x).log.length ≤ 256 := by
  have h1 := pushTailToTree_log h
  have h2 := Tree.pushTail_within width_any h
  have h3 := Tree.pushTail_tail t
  have := h.2
  have := h2.2
  simp only [treePushBack]
  split
  · simp [pushBackTail]; omega
  · simp [pushBackTail, h3]; omega

theorem treePushFront_log {t : Tree α} (h : t.Within Any) (x : α) : (treePushFront t x).log.length ≤ 256 := by
  have h1 := pushHeadToTree_log h
  have h2 := Tree.pushHead_within width_any h
  have h3 := Tree.pushHead_head t
  have := h.2
  have := h2.2
  simp only [treePushFront]
  split
  · simp [pushFrontHead]; omega
  · simp [pushFrontHead, h3]; omega

theorem joined_log (xs : List α) (h : xs.length ≤ 128) : (joined xs).log.length ≤ 128 := by
  simp only [joined]
  split
  · simp
  · simp; omega

theorem concatLast_log (cs : List (Node α)) (r : Node α) (ih : ∀ c ∈ cs, (concatNodes c r).log.length ≤ 256) :
    (concatLast cs r).log.length ≤ 256 := by
  induction cs with
  | nil => simp [concatLast]
  | cons c cs ihc =>
    cases cs with
    | nil => simpa [concatLast] using ih c (by simp)
    | cons d ds => simpa only [concatLast] using ihc (fun c hc => ih c (by simp [List.mem_cons.1 hc]))

theorem concatNodes_log (l : Node α) : l.Within Any → ∀ r : Node α, r.Within Any →
    (concatNodes l r).log.length ≤ 256 := by
  induction l using Node.induct with
  | hleaf es =>
    intro h r hr
    cases r with
    | leaf fs =>
      simp only [Node.within_leaf] at h hr
      have := joined_log (es ++ fs) (by simp; omega)
      simp [concatNodes]; omega
    | branch ds s => simp [concatNodes]
  | hbranch cs s ih =>
    intro h r hr
    rw [Node.within_branch] at h
    cases r with
    | leaf fs => simp [concatNodes]
    | branch ds s' =>
      rw [Node.within_branch] at hr
      cases ds with
      | nil => simp [concatNodes]
      | cons d ds =>
        simpa [concatNodes] using concatLast_log cs d (fun c hc => ih c hc (h.2 c hc) d (hr.2 d (by simp)))

theorem concatSameHeight_log {a b : Tree α} (ha : a.Within Any) (hb : b.Within Any) :
    (concatSameHeight a b).log.length ≤ 1024 := by
  have a1 := tree_log ha
  have b1 := tree_log hb
  have a2 := pushTailToTree_log ha
  have b2 := pushHeadToTree_log hb
  have a3 := Tree.pushTail_within width_any ha
  have b3 := Tree.pushHead_within width_any hb
  simp only [concatSameHeight, log_bind, tree_val, List.length_append]
  have key : ∀ l r : Tree α, l.Within Any → r.Within Any →
      (concatNodes l.root r.root).log.length + (r.tail.length + l.head.length) ≤ 384 := by
    intro l r hl hr
    have := concatNodes_log l.root hl.1 r.root hr.1
    have := hl.2.1
    have := hr.2.2
    omega
  split <;> split
  · have := key _ _ a3 b3
    simp; omega
  · have := key _ _ a3 hb
    simp; omega
  · have := key _ _ ha b3
    simp; omega
  · have := key _ _ ha hb
    simp; omega

theorem elevateTree_log {t : Tree α} (h : t.Within Any) (k : Nat) : (elevateTree t k).log.length ≤ 128 := by
  have := h.2
  simp [elevateTree]; omega

theorem treeConcat_log {a b : Tree α} (ha : a.Within Any) (hb : b.Within Any) :
    (treeConcat a b).log.length ≤ 1152 := by
  have a1 := tree_log ha
  have b1 := tree_log hb
  simp only [treeConcat]
  split
  · omega
  · split
    · omega
    · split
      · have := concatSameHeight_log ha hb; omega
      · split
        · have := elevateTree_log hb a.height
          have := concatSameHeight_log (Tree.elevate_within width_any hb a.height) ha
          simp [concatDifferentHeight]; omega
        · have := elevateTree_log hb a.height
          have := concatSameHeight_log ha (Tree.elevate_within width_any hb a.height)
          simp [concatDifferentHeight]; omega

theorem popRoot_log {t : Tree α} (h : t.Within Any) (k : Nat) : (popRoot t k).log.length ≤ 64 := by
  have := nodePopBack_log t.root h.1
  simp only [popRoot]
  split
  · simp
  · simp only [log_bind]
    generalize (nodePopBack t.root).val = q
    cases q <;> simpa using this

theorem treePopBack_log {t : Tree α} (h : t.Within Any) : (treePopBack t).log.length ≤ 129 := by
  have := h.2
  simp only [treePopBack]
  split
  · simp
  · split
    · cases e : t.tail.getLast? <;> simp [e] <;> omega
    · rename_i he
      have he : t.tail = [] := by simpa using he
      simp only [popFromTree]
      split
      · simp
      · split
        · simp
        · split
          · simp
          · have := popRoot_log h t.len
            simp [he]; omega

theorem popFrontFromTail_log {t : Tree α} (h : t.Within Any) : (popFrontFromTail t).log.length ≤ 64 := by
  have := h.2
  simp [popFrontFromTail]; omega

theorem treePopFront_log {t : Tree α} (h : t.Within Any) : (treePopFront t).log.length ≤ 128 := by
  have := h.2
  have hr := nodePopFront_log t.root h.1
  have ht := popFrontFromTail_log h
  simp only [treePopFront]
  split
  · simp
  · split
    · simp only [log_bind, val_all, log_all]
      cases e : t.head with
      | nil => simp
      | cons y ys => have := h.2.1; simp [e] at this ⊢; omega
    · rename_i he
      have he : t.head = [] := by simpa using he
      simp only [popFrontFromTree]
      split
      · simp only [log_bind, nodePopFront_val]
        cases e : t.root.popFront with
        | none => simp [nodePopFront_none _ e]; omega
        | some q => simp [he]; omega
      · omega

theorem splitChild_log (cs : List (Node α)) (ih : ∀ c ∈ cs, ∀ p j h, (splitAlongPath c p j h).log.length ≤ 64) :
    ∀ i p j h, (splitChild cs i p j h).log.length ≤ 64 := by
  induction cs with
  | nil => intro i p j h; simp [splitChild]
  | cons c cs ihc =>
    intro i p j h
    cases i with
    | zero => simpa [splitChild] using ih c (by simp) p j h
    | succ i => simpa only [splitChild] using ihc (fun c hc => ih c (by simp [hc])) i p j h

theorem splitAlongPath_log (n : Node α) : n.Within Any → ∀ p j h, (splitAlongPath n p j h).log.length ≤ 64 := by
  induction n using Node.induct with
  | hleaf es =>
    intro hw p j h
    simp only [Node.within_leaf] at hw
    simp [splitAlongPath]; omega
  | hbranch cs s ih =>
    intro hw p j h
    rw [Node.within_branch] at hw
    have hc := splitChild_log cs (fun c hc => ih c hc (hw.2 c hc))
    cases p with
    | nil => simpa [splitAlongPath] using hc _ _ _ _
    | cons i p =>
      have := hc i p (Tree.calculateAdjustedIndex j i s (h - 1)) (h - 1)
      simp only [splitAlongPath, log_bind]
      generalize (splitChild cs i p (Tree.calculateAdjustedIndex j i s (h - 1)) (h - 1)).val = q
      cases q <;> simpa using this

theorem treeSplitAt_log {t : Tree α} (h : t.Within Any) (i : Nat) : (treeSplitAt t i).log.length ≤ 320 := by
  have := h.2
  have h1 := tree_log h
  simp only [treeSplitAt]
  split
  · simp; omega
  · split
    · simp; omega
    · split
      · simp [fromHead, fromHeadAndTreeAndTail]; omega
      · split
        · simp [fromTail, fromHeadAndTreeAndTail]; omega
        · have := splitAlongPath_log t.root h.1 (Tree.findPath t.root t.height (i - t.head.length))
            (i - t.head.length) t.height
          simp [fromHeadAndRoot, fromRootAndTail]; omega

/-- The clones of building a tree: none up to 64 elements, each element once beyond. -/
theorem leaves_log (cs : List (List α)) : (leaves cs).log = cs.flatten := by
  induction cs with
  | nil => simp [leaves]
  | cons c cs ih => simp [leaves, ih]

theorem fromElements_log (xs : List α) : (fromElements xs).log = if xs.length ≤ 64 then [] else xs := by
  simp only [fromElements, LEAF_CAPACITY]
  split
  · rfl
  · simp only [buildTreeWithTail, LEAF_CAPACITY]
    split
    · rename_i h
      have h : xs.take (xs.length / 64 * 64) = [] := by simpa using h
      have h0 := congrArg List.length h
      simp only [List.length_take, List.length_nil] at h0
      have : xs.length / 64 * 64 = 0 := by omega
      simp [this]
    · simp [leaves_log, chunks_flatten]

/-! ## The property -/

/-- The calls with a record return what the calls of `Core.lean` return. -/
theorem c93_returns (v w : PV α) (i : Nat) (x : α) (xs : List α) :
    (vec v).val = v ∧ (fromIter xs).val = PV.fromIter xs ∧ (pushBack v x).val = v.pushBack x ∧
    (pushFront v x).val = v.pushFront x ∧ (extend v xs).val = v.extend xs ∧ (update v i x).val = v.update i x ∧
    (concat v w).val = v.concat w ∧ (popBack v).val = v.popBack ∧ (popFront v).val = v.popFront ∧
    (splitAt v i).val = v.splitAt i ∧ (take v i).val = v.take i ∧ (skip v i).val = v.skip i ∧
    (insert v i x).val = v.insert i x ∧ (remove v i).val = v.remove i := by
  simp

/-- The methods that rebuild a vector return what the methods of `Core.lean` return. -/
theorem c93_returns_rebuilt [DecidableEq α] (v : PV α) (le : α → α → Bool) (p : α → Bool) (xs : List α) :
    (fromSlice xs).val = PV.fromIter xs ∧ (toVec v).val = v.toVec ∧ (filter v p).val = v.filter p ∧
    (dedup v).val = v.dedup ∧ (sorted le v).val = v.sorted le ∧ (partition v p).val = v.partition p ∧
    (tryIntoValue v).val = v.tryValue := by
  refine ⟨by simp [fromSlice], rfl, by simp [filter, PV.filter], by simp [dedup, PV.dedup],
    by simp [sorted, PV.sorted], ?_, ?_⟩
  · simp [partition, PV.partition, (partitionLoop_val p v.items [] []).1]
  · simp only [tryIntoValue, PV.tryValue]; cases v.first <;> rfl

theorem fromIter_log (xs : List α) :
    (fromIter xs).log = if xs.length ≤ 64 then [] else xs ++ xs.drop (xs.length / 64 * 64) := by
  simp only [fromIter, ADAPTIVE_INLINE_SIZE]
  split
  · rfl
  · rename_i h
    simp only [log_bind, fromElements_log, fromElements_val, if_neg h, log_pure, List.append_nil]
    congr 1
    simp only [Tree.fromElements, LEAF_CAPACITY, if_neg h, Tree.buildTreeWithTail]
    split <;> simp [tree]

/-- Collecting owned elements clones none of them up to 64; beyond, each of them once, and those that are left over after
filling leaves of 64 twice. -/
theorem c93_from_iter (xs : List α) :
    (fromIter xs).log = if xs.length ≤ 64 then [] else xs ++ xs.drop (xs.length / 64 * 64) := fromIter_log xs

theorem vec_log {v : PV α} (h : v.Within Any) : (vec v).log.length ≤ 64 := by
  obtain ⟨inner, len, g⟩ := v
  cases inner <;> simp_all [vec, PV.Within]

theorem fromElements_small {xs : List α} (h : xs.length ≤ 64) : (fromElements xs).log = [] := by
  rw [fromElements_log, if_pos h]

theorem pushBack_log {v : PV α} (h : v.Within Any) (x : α) : (pushBack v x).log.length ≤ 256 := by
  obtain ⟨inner, len, g⟩ := v
  cases inner with
  | inline es =>
    have h : es.length ≤ 64 := h
    simp only [pushBack]
    split
    · simp; omega
    · have e : (treePushBack (Tree.fromElements es) x).log = [] := by
        simp [Tree.fromElements, h, treePushBack, pushBackTail]
      simp [transitionToTree, vecTreePushBack, fromElements_small h, e]; omega
  | tree t => simpa [pushBack, vecTreePushBack] using treePushBack_log (t := t) h x

theorem pushFront_log {v : PV α} (h : v.Within Any) (x : α) : (pushFront v x).log.length ≤ 256 := by
  obtain ⟨inner, len, g⟩ := v
  cases inner with
  | inline es =>
    have h : es.length ≤ 64 := h
    simp only [pushFront]
    split
    · simp; omega
    · have e : (treePushFront (Tree.fromElements es) x).log = [] := by
        simp [Tree.fromElements, h, treePushFront, pushFrontHead]
      simp [transitionToTree, vecTreePushFront, fromElements_small h, e]; omega
  | tree t => simpa [pushFront, vecTreePushFront] using treePushFront_log (t := t) h x

theorem update_log {v : PV α} (h : v.Within Any) (i : Nat) (x : α) : (update v i x).log.length ≤ 192 := by
  have hv := vec_log h
  obtain ⟨inner, len, g⟩ := v
  simp only [update]
  split
  · omega
  · cases inner with
    | inline es => have h : es.length ≤ 64 := h; simp; omega
    | tree t => simpa using treeUpdate_log (t := t) h i x

theorem concat_log {v w : PV α} (hv : v.Within Any) (hw : w.Within Any) : (concat v w).log.length ≤ 1408 := by
  obtain ⟨i1, l1, g1⟩ := v
  obtain ⟨i2, l2, g2⟩ := w
  cases i1 with
  | inline es =>
    have hv : es.length ≤ 64 := hv
    cases i2 with
    | inline fs =>
      have hw : fs.length ≤ 64 := hw
      simp only [concat, log_bind, log_all, val_all, fromIter_log]
      split
      · simp; omega
      · simp; omega
    | tree t =>
      have := treeConcat_log (Tree.fromElements_within (B := Any) width_any es) (b := t) hw
      simp [concat, fromElements_small hv]; omega
  | tree s =>
    cases i2 with
    | inline fs =>
      have hw : fs.length ≤ 64 := hw
      have := treeConcat_log (a := s) hv (Tree.fromElements_within (B := Any) width_any fs)
      simp [concat, fromElements_small hw]; omega
    | tree t =>
      have := treeConcat_log (a := s) (b := t) hv hw
      have := tree_log (t := s) hv
      have := tree_log (t := t) hw
      simp [concat]; omega

theorem popBack_log {v : PV α} (h : v.Within Any) : (popBack v).log.length ≤ 129 := by
  obtain ⟨inner, len, g⟩ := v
  simp only [popBack]
  split
  · simp
  · cases inner with
    | inline es =>
      have h : es.length ≤ 64 := h
      simp only
      split
      · simp; omega
      · simp
    | tree t => simpa using treePopBack_log (t := t) h

theorem popFront_log {v : PV α} (h : v.Within Any) : (popFront v).log.length ≤ 128 := by
  obtain ⟨inner, len, g⟩ := v
  simp only [popFront]
  split
  · simp
  · cases inner with
    | inline es =>
      have h : es.length ≤ 64 := h
      cases es with
      | nil => simp
      | cons e es => simp at h ⊢; omega
    | tree t => simpa using treePopFront_log (t := t) h

theorem splitAt_log {v : PV α} (h : v.Within Any) (i : Nat) : (splitAt v i).log.length ≤ 320 := by
  have hv := vec_log h
  obtain ⟨inner, len, g⟩ := v
  simp only [splitAt]
  split
  · simp; omega
  · split
    · simp; omega
    · cases inner with
      | inline es => have h : es.length ≤ 64 := h; simp; omega
      | tree t => simpa using treeSplitAt_log (t := t) h i

theorem take_log {v : PV α} (h : v.Within Any) (n : Nat) : (take v n).log.length ≤ 320 := by
  have hv := vec_log h
  have := splitAt_log h n
  simp only [take]
  split
  · omega
  · simpa using this

theorem skip_log {v : PV α} (h : v.Within Any) (n : Nat) : (skip v n).log.length ≤ 320 := by
  have := splitAt_log h n
  simp only [skip]
  split
  · simp
  · simpa using this

theorem extend_log (xs : List α) : ∀ {v : PV α}, v.Within Any → (extend v xs).log.length ≤ 256 * xs.length := by
  induction xs with
  | nil => intro v _; simp [extend]
  | cons x xs ih =>
    intro v h
    have := pushBack_log h x
    have := ih (h.pushBack width_any x)
    simp [extend]; omega

/-- The bound of the property: a call returns after cloning at most `k` elements. -/
def ClonesAtMost (k : Nat) (r : Run α X) : Prop := r.log.length ≤ k

/-- However long the vector and whatever calls made it: pushing, popping, updating, splitting, joining and copying clone a
bounded number of elements. -/
theorem c93_bounded {v w : PV α} (hv : Reach v) (hw : Reach w) (i : Nat) (x : α) (xs : List α) :
    ClonesAtMost 64 (vec v) ∧ ClonesAtMost 192 (update v i x) ∧
    ClonesAtMost 256 (pushBack v x) ∧ ClonesAtMost 256 (pushFront v x) ∧ ClonesAtMost (256 * xs.length) (extend v xs) ∧
    ClonesAtMost 129 (popBack v) ∧ ClonesAtMost 128 (popFront v) ∧
    ClonesAtMost 320 (splitAt v i) ∧ ClonesAtMost 320 (take v i) ∧ ClonesAtMost 320 (skip v i) ∧
    ClonesAtMost 1408 (concat v w) ∧ ClonesAtMost 1984 (insert v i x) ∧ ClonesAtMost 2048 (remove v i) := by
  have hv := PV.c60_leaves hv
  have hw := PV.c60_leaves hw
  have hs := splitAt_log hv i
  have hp := hv.splitAt width_any i
  refine ⟨vec_log hv, update_log hv i x, pushBack_log hv x, pushFront_log hv x, extend_log xs hv, popBack_log hv,
    popFront_log hv, hs, take_log hv i, skip_log hv i, concat_log hv hw, ?_, ?_⟩
  · have h1 := pushBack_log hv x
    have h2 := pushFront_log hv x
    have h3 := pushBack_log hp.1 x
    have h4 := concat_log (hp.1.pushBack width_any x) hp.2
    simp only [ClonesAtMost, insert]
    split
    · omega
    · split
      · omega
      · simp; omega
  · have h1 := skip_log hp.2 1
    have h2 := concat_log hp.1 (hp.2.skip width_any 1)
    simp only [ClonesAtMost, remove]
    split
    · simp
    · split
      · simp
      · simp; omega

/-- A vector of 256 elements whose two buffers are full, and one of 192 elements whose root is a leaf. -/
def wide : PV Unit := (List.replicate 64 ()).foldl PV.pushFront ((PV.fromIter (List.replicate 128 ())).extend
  (List.replicate 64 ()))

/-- See `wide`. -/
def narrow : PV Unit := (List.replicate 64 ()).foldl PV.pushFront ((PV.fromIter (List.replicate 64 ())).extend
  (List.replicate 64 ()))

theorem reach_fronts (xs : List α) : ∀ {v : PV α}, Reach v → Reach (xs.foldl PV.pushFront v) := by
  induction xs with
  | nil => intro v h; exact h
  | cons x xs ih => intro v h; exact ih (h.pushFront x)

theorem reach_wide : Reach wide := reach_fronts _ (.extend _ (.fromIter _))

theorem reach_narrow : Reach narrow := reach_fronts _ (.extend _ (.fromIter _))

/-- `c93_bounded` has hypotheses that hold of large vectors. -/
example : ClonesAtMost 192 (update wide 100 ()) ∧ wide.len = 256 :=
  ⟨(c93_bounded reach_wide reach_wide 100 () []).2.1, by decide +kernel⟩

/-- The bounds for `update`, `push_back`, `push_front`, `pop_front` and `split_at` are reached; joining can clone 1344
elements. -/
theorem c93_reached :
    (∃ v : PV Unit, Reach v ∧ (update v 100 ()).log.length = 192 ∧ (pushBack v ()).log.length = 256 ∧
      (pushFront v ()).log.length = 256 ∧ (splitAt v 100).log.length = 320) ∧
    (∃ v : PV Unit, Reach v ∧ (popFront v).log.length = 128) ∧
    (∃ v w : PV Unit, Reach v ∧ Reach w ∧ (concat v w).log.length = 1344) := by
  refine ⟨⟨narrow, reach_narrow, ?_⟩, ⟨narrow, reach_narrow, ?_⟩, ⟨narrow, wide, reach_narrow, reach_wide, ?_⟩⟩ <;>
    decide +kernel

/-- While there is room in the buffer a call works on, it clones the two buffers once each and nothing else; an inline vector
clones its elements once (and `pop_back` the last one twice). -/
theorem c93_buffers (t : Tree α) (es : List α) (n g i : Nat) (x : α) :
    (es.length < 64 → (pushBack ⟨.inline es, n, g⟩ x).log = es ∧ (pushFront ⟨.inline es, n, g⟩ x).log = es) ∧
    (i < n → (update ⟨.inline es, n, g⟩ i x).log = es) ∧
    (n ≠ 0 → es ≠ [] → (popBack ⟨.inline es, n, g⟩).log = es.getLast?.toList ++ es ∧
      (popFront ⟨.inline es, n, g⟩).log = es) ∧
    (0 < i → i < n → (splitAt ⟨.inline es, n, g⟩ i).log = es) ∧
    (t.tail.length < 64 → (pushBack ⟨.tree t, n, g⟩ x).log = t.tail ++ t.head) ∧
    (t.head.length < 64 → (pushFront ⟨.tree t, n, g⟩ x).log = t.head ++ t.tail) ∧
    (n ≠ 0 → t.len ≠ 0 → t.tail ≠ [] → (popBack ⟨.tree t, n, g⟩).log = t.tail ++ t.head) ∧
    (n ≠ 0 → t.len ≠ 0 → t.head ≠ [] → (popFront ⟨.tree t, n, g⟩).log = t.head ++ t.tail) ∧
    (i < n → i < t.len → i < t.head.length → (update ⟨.tree t, n, g⟩ i x).log = t.head ++ t.tail) ∧
    (i < n → i < t.len → t.head.length + t.treeSize ≤ i → (update ⟨.tree t, n, g⟩ i x).log = t.tail ++ t.head) := by
  refine ⟨fun h => ?_, fun h => ?_, fun h h' => ?_, fun h h' => ?_, fun h => ?_, fun h => ?_, fun h h1 h2 => ?_,
    fun h h1 h2 => ?_, fun h h1 h2 => ?_, fun h h1 h2 => ?_⟩
  · simp [pushBack, pushFront, ADAPTIVE_INLINE_SIZE, h]
  · simp [update, Nat.not_le.2 h]
  · cases es with
    | nil => exact absurd rfl h'
    | cons e es =>
      refine ⟨?_, by simp [popFront, PV.isEmpty, h]⟩
      simp only [popBack, PV.isEmpty]
      cases hl : (e :: es).getLast? with
      | none => simp at hl
      | some y => simp [h]
  · simp [splitAt, Nat.not_le.2 h', Nat.pos_iff_ne_zero.1 h]
  · simp [pushBack, vecTreePushBack, treePushBack, pushBackTail, LEAF_CAPACITY, h]
  · simp [pushFront, vecTreePushFront, treePushFront, pushFrontHead, LEAF_CAPACITY, h]
  · simp only [popBack, PV.isEmpty]
    cases hl : t.tail.getLast? with
    | none => simp at hl; exact absurd hl h2
    | some y => simp [treePopBack, h, h1, h2, hl]
  · simp only [popFront, PV.isEmpty]
    cases hl : t.head with
    | nil => exact absurd hl h2
    | cons y ys => simp [treePopFront, h, h1, hl]
  · simp [update, treeUpdate, Nat.not_le.2 h, Nat.not_le.2 h1, h2]
  · have h3 : ¬ i < t.head.length := by omega
    have h4 : ¬ i - t.head.length < t.treeSize := by omega
    simp [update, treeUpdate, Nat.not_le.2 h, Nat.not_le.2 h1, h3, h4]

/-- A tree with one element in front and two behind a leaf of three. -/
example : (pushBack (⟨.tree ⟨.leaf [2, 3, 4], [5, 6], [1], 0, 6⟩, 6, 0⟩ : PV Nat) 7).log = [5, 6, 1] :=
  (c93_buffers ⟨.leaf [2, 3, 4], [5, 6], [1], 0, 6⟩ [] 6 0 0 7).2.2.2.2.1 (by decide)

/-- Collecting with `from_slice`, `to_vec`, consuming by `into_iter`, `filter`, `dedup`, `sorted` and `partition` clone what
they take from the vector once, and then what `from_iter` clones; methods that go through a closure which makes new elements
(`map`, `filter_map`, `flat_map`) clone none of the old elements, and of the new ones what `from_iter` clones. -/
theorem c93_rebuilt [DecidableEq α] (v : PV α) (le : α → α → Bool) (p : α → Bool) (xs : List α) (ys : List β) :
    (fromSlice xs).log = xs ++ (fromIter xs).log ∧ (toVec v).log = v.items ∧
    (filter v p).log = v.items.filter p ++ (fromIter (v.items.filter p)).log ∧
    (dedup v).log = PV.dedupLoop v.items none ++ (fromIter (PV.dedupLoop v.items none)).log ∧
    (sorted le v).log = v.items ++ (fromIter (v.items.mergeSort le)).log ∧
    (partition v p).log = v.items ++ ((fromIter (PV.partitionLoop p v.items [] []).1).log ++
      (fromIter (PV.partitionLoop p v.items [] []).2).log) ∧
    (rebuild ys).log = (fromIter ys).log ∧ (tryIntoValue v).log = v.first.toList := by
  refine ⟨by simp [fromSlice], rfl, by simp [filter], by simp [dedup], by simp [sorted], ?_, rfl, ?_⟩
  · simp [partition, (partitionLoop_val p v.items [] []).1, (partitionLoop_val p v.items [] []).2]
  · simp only [tryIntoValue]; cases v.first <;> rfl

/-- In numbers: collecting `n` elements clones none if `n ≤ 64`, and `n + n % 64` otherwise, so less than twice `n`. -/
theorem c93_from_iter_count (xs : List α) :
    (fromIter xs).log.length = (if xs.length ≤ 64 then 0 else xs.length + xs.length % 64) ∧
    (fromIter xs).log.length < 2 * xs.length + 1 := by
  rw [fromIter_log]
  split
  · simp
  · simp; omega

end Rustica.PVec.Cloned
