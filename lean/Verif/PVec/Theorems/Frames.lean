import Verif.PVec.Frames
import Verif.PVec.Theorems.Levels

/-!
# How deep the calls of the vector operations nest (C96)
-/

namespace Rustica.PVec.Frames

variable {α X Y : Type}

@[simp] theorem val_pure (x : X) : (pure x : Run X).val = x := rfl
@[simp] theorem depth_pure (x : X) : (pure x : Run X).depth = 0 := rfl
@[simp] theorem val_bind (r : Run X) (f : X → Run Y) : (r >>= f).val = (f r.val).val := rfl
@[simp] theorem depth_bind (r : Run X) (f : X → Run Y) : (r >>= f).depth = max r.depth (f r.val).depth := rfl
@[simp] theorem val_call (r : Run X) : (call r).val = r.val := rfl
@[simp] theorem depth_call (r : Run X) : (call r).depth = r.depth + 1 := rfl

/-! ## The calls return what the calls of the model without the count return -/

theorem sizeL_val (cs : List (Node α)) (ih : ∀ c ∈ cs, (size c).val = c.calculateSize) :
    (sizeL cs).val = Node.calculateSizeL cs := by
  induction cs with
  | nil => simp [sizeL, Node.calculateSizeL]
  | cons c cs ihc => simp [sizeL, Node.calculateSizeL, ih c (by simp), ihc (fun c hc => ih c (by simp [hc]))]

@[simp] theorem size_val (n : Node α) : (size n).val = n.calculateSize := by
  induction n using Node.induct with
  | hleaf es => simp [size, Node.calculateSize]
  | hbranch cs s ih => cases s <;> simp [size, Node.calculateSize, sizeL_val cs ih]

@[simp] theorem sizes_val (cs : List (Node α)) : (sizes cs).val = cs.map Node.calculateSize := by
  induction cs with
  | nil => simp [sizes]
  | cons c cs ih => simp [sizes, ih]

@[simp] theorem makeRelaxed_val (cs : List (Node α)) : (makeRelaxed cs).val = Node.makeRelaxed cs := by
  simp [makeRelaxed, Node.makeRelaxed]

theorem getL_val (cs : List (Node α)) (ih : ∀ c ∈ cs, ∀ i, (get c i).val = c.get i) :
    ∀ i j, (getL cs i j).val = Node.getL cs i j := by
  induction cs with
  | nil => intro i j; simp [getL, Node.getL]
  | cons c cs ihc =>
    intro i j
    cases i with
    | zero => simp [getL, Node.getL, ih c (by simp)]
    | succ i => simp [getL, Node.getL, ihc (fun c hc => ih c (by simp [hc]))]

@[simp] theorem get_val (n : Node α) : ∀ i, (get n i).val = n.get i := by
  induction n using Node.induct with
  | hleaf es => intro i; simp [get, Node.get]
  | hbranch cs s ih =>
    intro i
    cases s with
    | none => simp only [get, Node.get]; cases Node.findChildRegular cs i 1 <;> simp [getL_val cs ih]
    | some s => simp only [get, Node.get]; cases Node.scanSizes s 0 0 i <;> simp [getL_val cs ih]

theorem nodeUpdateL_val (cs : List (Node α)) (ih : ∀ c ∈ cs, ∀ i x, (nodeUpdate c i x).val = c.update i x) :
    ∀ i j x, (nodeUpdateL cs i j x).val = Node.updateL cs i j x := by
  induction cs with
  | nil => intro i j x; simp [nodeUpdateL, Node.updateL]
  | cons c cs ihc =>
    intro i j x
    cases i with
    | zero => simp [nodeUpdateL, Node.updateL, ih c (by simp)]
    | succ i => simp [nodeUpdateL, Node.updateL, ihc (fun c hc => ih c (by simp [hc]))]

@[simp] theorem nodeUpdate_val (n : Node α) : ∀ i x, (nodeUpdate n i x).val = n.update i x := by
  induction n using Node.induct with
  | hleaf es => intro i x; simp only [nodeUpdate, Node.update]; rfl
  | hbranch cs s ih =>
    intro i x
    simp only [nodeUpdate, Node.update]
    cases Node.findChild s i with
    | none => simp
    | some q => simp [nodeUpdateL_val cs ih]

@[simp] theorem pushLeaf_val (n l : Node α) : (pushLeaf n l).val = n.pushLeaf l := by
  cases n with
  | leaf es => simp [pushLeaf, Node.pushLeaf]
  | branch cs s => simp only [pushLeaf, Node.pushLeaf]; cases s <;> split <;> simp

@[simp] theorem pushFrontLeaf_val (n l : Node α) : (pushFrontLeaf n l).val = n.pushFrontLeaf l := by
  cases n with
  | leaf es => simp [pushFrontLeaf, Node.pushFrontLeaf]
  | branch cs s => simp only [pushFrontLeaf, Node.pushFrontLeaf]; cases s <;> split <;> simp

theorem nodePopBackLast_val (cs : List (Node α)) (ih : ∀ c ∈ cs, (nodePopBack c).val = c.popBack) :
    (nodePopBackLast cs).val = Node.popBackLast cs := by
  induction cs with
  | nil => simp [nodePopBackLast, Node.popBackLast]
  | cons c cs ihc =>
    cases cs with
    | nil => simp [nodePopBackLast, Node.popBackLast, ih c (by simp)]
    | cons d ds =>
      simp only [nodePopBackLast, Node.popBackLast]
      exact ihc (fun c hc => ih c (by simp [List.mem_cons.1 hc]))

@[simp] theorem nodePopBack_val (n : Node α) : (nodePopBack n).val = n.popBack := by
  induction n using Node.induct with
  | hleaf es => simp only [nodePopBack, Node.popBack]; rfl
  | hbranch cs s ih =>
    simp only [nodePopBack, Node.popBack, val_call, val_bind, nodePopBackLast_val cs ih]
    cases Node.popBackLast cs with
    | none => rfl
    | some q =>
      simp only [afterPopBack, val_bind, size_val]
      split
      · split <;> simp
      · simp

@[simp] theorem nodePopFront_val (n : Node α) : (nodePopFront n).val = n.popFront := by
  induction n using Node.induct with
  | hleaf es => simp only [nodePopFront, Node.popFront]; rfl
  | hbranch cs s ih =>
    cases cs with
    | nil => simp [nodePopFront, Node.popFront]
    | cons c cs =>
      simp only [nodePopFront, Node.popFront, val_call, val_bind, ih c (by simp)]
      cases c.popFront with
      | none => rfl
      | some q =>
        simp only [afterPopFront, val_bind, size_val]
        split
        · split <;> simp
        · simp

@[simp] theorem nextLevel_val (cs : List (List (Node α))) : (nextLevel cs).val = cs.map Node.makeRelaxed := by
  induction cs with
  | nil => simp [nextLevel]
  | cons c cs ih => simp [nextLevel, ih]

@[simp] theorem build_val (fuel : Nat) : ∀ ns : List (Node α),
    (buildTreeRecursive fuel ns).val = Tree.buildTreeRecursive fuel ns := by
  induction fuel with
  | zero => intro ns; rfl
  | succ fuel ih =>
    intro ns
    match ns with
    | [] => simp [buildTreeRecursive, Tree.buildTreeRecursive, ih]
    | [n] => simp [buildTreeRecursive, Tree.buildTreeRecursive]
    | m :: n :: ns => simp [buildTreeRecursive, Tree.buildTreeRecursive, ih]

@[simp] theorem fromElements_val (xs : List α) : (fromElements xs).val = Tree.fromElements xs := by
  simp only [fromElements, Tree.fromElements]
  split
  · simp
  · simp only [Tree.buildTreeWithTail]; split <;> simp

@[simp] theorem treeUpdate_val (t : Tree α) (i : Nat) (x : α) : (treeUpdate t i x).val = t.update i x := by
  simp only [treeUpdate, Tree.update]
  split
  · simp
  · split
    · simp
    · split
      · simp
      · split <;> simp [*]

@[simp] theorem calculateHeight_val (n : Node α) : (calculateHeight n).val = Tree.calculateHeight n := by
  induction n using Node.induct with
  | hleaf es => simp [calculateHeight, Tree.calculateHeight]
  | hbranch cs s ih =>
    cases cs with
    | nil => simp [calculateHeight, Tree.calculateHeight]
    | cons c cs => simp [calculateHeight, Tree.calculateHeight, ih c (by simp)]

@[simp] theorem pushTailToTree_val (t : Tree α) : (pushTailToTree t).val = t.pushTailToTree := by
  simp only [pushTailToTree, Tree.pushTailToTree]; split <;> simp

@[simp] theorem pushHeadToTree_val (t : Tree α) : (pushHeadToTree t).val = t.pushHeadToTree := by
  simp only [pushHeadToTree, Tree.pushHeadToTree]; split <;> simp

@[simp] theorem treePushBack_val (t : Tree α) (x : α) : (treePushBack t x).val = t.pushBack x := by
  simp only [treePushBack, Tree.pushBack]; split <;> simp

@[simp] theorem treePushFront_val (t : Tree α) (x : α) : (treePushFront t x).val = t.pushFront x := by
  simp only [treePushFront, Tree.pushFront]; split <;> simp

theorem concatLast_val (cs : List (Node α)) (ih : ∀ c ∈ cs, ∀ r, (concatNodes c r).val = Tree.concatNodes c r) :
    ∀ r, (concatLast cs r).val = Tree.concatLast cs r := by
  induction cs with
  | nil => intro r; simp [concatLast, Tree.concatLast]
  | cons c cs ihc =>
    intro r
    cases cs with
    | nil => simp [concatLast, Tree.concatLast, ih c (by simp)]
    | cons d ds =>
      simp only [concatLast, Tree.concatLast]
      exact ihc (fun c hc => ih c (by simp [List.mem_cons.1 hc])) r

@[simp] theorem concatNodes_val (l : Node α) : ∀ r, (concatNodes l r).val = Tree.concatNodes l r := by
  induction l using Node.induct with
  | hleaf es =>
    intro r
    cases r with
    | leaf fs =>
      simp only [concatNodes, Tree.concatNodes, val_call]
      split <;> simp
    | branch ds s => simp [concatNodes, Tree.concatNodes]
  | hbranch cs s ih =>
    intro r
    cases r with
    | leaf fs => simp [concatNodes, Tree.concatNodes]
    | branch ds s' =>
      cases ds with
      | nil => simp [concatNodes, Tree.concatNodes]
      | cons d ds => simp [concatNodes, Tree.concatNodes, concatLast_val cs ih]

@[simp] theorem concatSameHeight_val (a b : Tree α) : (concatSameHeight a b).val = a.concatSameHeight b := by
  simp only [concatSameHeight, Tree.concatSameHeight]
  split <;> split <;> simp

@[simp] theorem elevateRoot_val (k : Nat) : ∀ n : Node α, (elevateRoot k n).val = Tree.elevateRoot k n := by
  induction k with
  | zero => intro n; rfl
  | succ k ih => intro n; simp [elevateRoot, Tree.elevateRoot, ih]

@[simp] theorem elevateTree_val (t : Tree α) (k : Nat) : (elevateTree t k).val = Tree.elevateTree t k := by
  simp [elevateTree, Tree.elevateTree]

@[simp] theorem treeConcat_val (a b : Tree α) : (treeConcat a b).val = a.concat b := by
  simp only [treeConcat, Tree.concat]
  split
  · simp
  · split
    · simp
    · split
      · simp
      · split <;> simp [concatDifferentHeight, Tree.concatDifferentHeight]

theorem popRoot_val (t : Tree α) (k : Nat) : (popRoot t k).val =
    if k = 1 then (Node.leaf [], 0)
    else match t.root.popBack with
      | some (newRoot, _) => (newRoot, t.height)
      | none => (t.root, t.height) := by
  simp only [popRoot]
  split
  · rfl
  · simp only [val_bind, nodePopBack_val]
    cases t.root.popBack <;> rfl

@[simp] theorem popFromTree_val (t : Tree α) : (popFromTree t).val = t.popFromTree := by
  simp only [popFromTree, Tree.popFromTree]
  split
  · rfl
  · split
    · rfl
    · simp only [val_bind, get_val]
      cases t.root.get (t.len - t.tail.length - 1) with
      | none => rfl
      | some x => simp only [val_bind, val_pure, popRoot_val]; rfl

@[simp] theorem treePopBack_val (t : Tree α) : (treePopBack t).val = t.popBack := by
  obtain ⟨root, tail, head, height, len⟩ := t
  simp only [treePopBack, Tree.popBack]
  split
  · rfl
  · cases tail with
    | nil => simp
    | cons y ys => simp [List.getLast?_cons]

@[simp] theorem popFrontFromTree_val (t : Tree α) : (popFrontFromTree t).val = t.popFrontFromTree := by
  simp only [popFrontFromTree, Tree.popFrontFromTree]
  split
  · simp only [val_bind, nodePopFront_val]
    cases t.root.popFront <;> simp
  · simp

@[simp] theorem treePopFront_val (t : Tree α) : (treePopFront t).val = t.popFront := by
  obtain ⟨root, tail, head, height, len⟩ := t
  simp only [treePopFront, Tree.popFront]
  split
  · rfl
  · cases head <;> simp

@[simp] theorem createLeftBranch_val (cs : List (Node α)) (i : Nat) (c : Node α) :
    (createLeftBranch cs i c).val = Tree.createLeftBranch cs i c := by
  simp only [createLeftBranch, Tree.createLeftBranch, val_bind, size_val]
  by_cases h : 0 < c.calculateSize
  · simp [h]
  · simp only [h, if_false]; split <;> simp_all

@[simp] theorem createRightBranch_val (cs : List (Node α)) (i : Nat) (c : Node α) :
    (createRightBranch cs i c).val = Tree.createRightBranch cs i c := by
  simp only [createRightBranch, Tree.createRightBranch, val_bind, size_val]
  by_cases h : 0 < c.calculateSize
  · simp [h]
  · simp only [h, if_false]; split <;> simp_all

theorem splitChild_val (cs : List (Node α))
    (ih : ∀ c ∈ cs, ∀ p j h, (splitAlongPath c p j h).val = Tree.splitAlongPath c p j h) :
    ∀ i p j h, (splitChild cs i p j h).val = Tree.splitChild cs i p j h := by
  induction cs with
  | nil => intro i p j h; simp [splitChild, Tree.splitChild]
  | cons c cs ihc =>
    intro i p j h
    cases i with
    | zero => simp [splitChild, Tree.splitChild, ih c (by simp)]
    | succ i => simp [splitChild, Tree.splitChild, ihc (fun c hc => ih c (by simp [hc]))]

@[simp] theorem splitAlongPath_val (n : Node α) :
    ∀ p j h, (splitAlongPath n p j h).val = Tree.splitAlongPath n p j h := by
  induction n using Node.induct with
  | hleaf es => intro p j h; simp [splitAlongPath, Tree.splitAlongPath]
  | hbranch cs s ih =>
    intro p j h
    cases p with
    | nil => simp [splitAlongPath, Tree.splitAlongPath, splitChild_val cs ih]
    | cons i p =>
      simp only [splitAlongPath, Tree.splitAlongPath, val_call, val_bind, splitChild_val cs ih]
      generalize Tree.splitChild cs i p _ (h - 1) = q
      cases q <;> simp

@[simp] theorem treeSplitAt_val (t : Tree α) (i : Nat) : (treeSplitAt t i).val = t.splitAt i := by
  simp only [treeSplitAt, Tree.splitAt]
  split
  · simp
  · split
    · simp
    · split
      · simp [fromHeadAndTreeAndTail, Tree.fromHeadAndTreeAndTail]
      · split
        · simp [fromHeadAndTreeAndTail, Tree.fromHeadAndTreeAndTail]
        · simp [fromHeadAndRoot, fromRootAndTail, Tree.fromHeadAndRoot, Tree.fromRootAndTail, Tree.splitTreeAt]

@[simp] theorem fromIter_val (xs : List α) : (fromIter xs).val = PV.fromIter xs := by
  simp only [fromIter, PV.fromIter]; split <;> simp

@[simp] theorem transitionToTree_val (v : PV α) : (transitionToTree v).val = v.transitionToTree := by
  obtain ⟨inner, len, g⟩ := v; cases inner <;> simp [transitionToTree, PV.transitionToTree]

@[simp] theorem vecTreePushBack_val (v : PV α) (x : α) : (vecTreePushBack v x).val = v.treePushBack x := by
  obtain ⟨inner, len, g⟩ := v; cases inner <;> simp [vecTreePushBack, PV.treePushBack]

@[simp] theorem vecTreePushFront_val (v : PV α) (x : α) : (vecTreePushFront v x).val = v.treePushFront x := by
  obtain ⟨inner, len, g⟩ := v; cases inner <;> simp [vecTreePushFront, PV.treePushFront]

@[simp] theorem pushBack_val (v : PV α) (x : α) : (pushBack v x).val = v.pushBack x := by
  obtain ⟨inner, len, g⟩ := v
  cases inner with
  | inline es => simp only [pushBack, PV.pushBack]; split <;> simp
  | tree t => simp [pushBack, PV.pushBack]

@[simp] theorem pushFront_val (v : PV α) (x : α) : (pushFront v x).val = v.pushFront x := by
  obtain ⟨inner, len, g⟩ := v
  cases inner with
  | inline es => simp only [pushFront, PV.pushFront]; split <;> simp
  | tree t => simp [pushFront, PV.pushFront]

@[simp] theorem extend_val (xs : List α) : ∀ v : PV α, (extend v xs).val = v.extend xs := by
  induction xs with
  | nil => intro v; simp [extend, PV.extend]
  | cons x xs ih => intro v; simp [extend, ih, PV.extend]

@[simp] theorem update_val (v : PV α) (i : Nat) (x : α) : (update v i x).val = v.update i x := by
  obtain ⟨inner, len, g⟩ := v
  simp only [update, PV.update]
  split
  · simp
  · cases inner <;> simp

@[simp] theorem concat_val (v w : PV α) : (concat v w).val = v.concat w := by
  obtain ⟨i1, l1, g1⟩ := v
  obtain ⟨i2, l2, g2⟩ := w
  cases i1 <;> cases i2 <;> simp [concat, PV.concat]

@[simp] theorem popBack_val (v : PV α) : (popBack v).val = v.popBack := by
  obtain ⟨inner, len, g⟩ := v
  simp only [popBack, PV.popBack]
  split
  · rfl
  · cases inner with
    | inline es => cases h : es.getLast? <;> simp [h]
    | tree t => simp

@[simp] theorem popFront_val (v : PV α) : (popFront v).val = v.popFront := by
  obtain ⟨inner, len, g⟩ := v
  simp only [popFront, PV.popFront]
  split
  · rfl
  · cases inner with
    | inline es => cases es <;> simp
    | tree t => simp

@[simp] theorem splitAt_val (v : PV α) (i : Nat) : (splitAt v i).val = v.splitAt i := by
  obtain ⟨inner, len, g⟩ := v
  simp only [splitAt, PV.splitAt]
  split
  · simp
  · split
    · simp
    · cases inner <;> simp

@[simp] theorem take_val (v : PV α) (n : Nat) : (take v n).val = v.take n := by
  simp only [take, PV.take]; split <;> simp

@[simp] theorem skip_val (v : PV α) (n : Nat) : (skip v n).val = v.skip n := by
  simp only [skip, PV.skip]; split <;> simp

@[simp] theorem insert_val (v : PV α) (i : Nat) (x : α) : (insert v i x).val = v.insert i x := by
  simp only [insert, PV.insert]
  split
  · simp
  · split <;> simp

@[simp] theorem remove_val (v : PV α) (i : Nat) : (remove v i).val = v.remove i := by
  simp only [remove, PV.remove]
  split
  · simp
  · split <;> simp

/-! ## How deep the calls nest, from the depth of the nodes -/

open Node Tree

theorem sizeL_depth (cs : List (Node α)) (ih : ∀ c ∈ cs, (size c).depth ≤ 1 + c.depth) :
    (sizeL cs).depth ≤ 1 + depthL cs := by
  induction cs with
  | nil => simp [sizeL]
  | cons c cs ihc =>
    have h1 := ih c (by simp)
    have h2 := ihc (fun c hc => ih c (by simp [hc]))
    simp only [sizeL, depth_bind, depth_pure, depthL]; omega

theorem size_depth (n : Node α) : (size n).depth ≤ 1 + n.depth := by
  induction n using Node.induct with
  | hleaf es => simp [size]
  | hbranch cs s ih =>
    cases s with
    | none => have := sizeL_depth cs ih; simp only [size, depth_call, depth_branch]; omega
    | some s => simp [size]

theorem sizes_depth (cs : List (Node α)) : (sizes cs).depth ≤ 1 + depthL cs := by
  induction cs with
  | nil => simp [sizes]
  | cons c cs ih =>
    have := size_depth c
    simp only [sizes, depth_bind, depth_pure, depthL]; omega

theorem makeRelaxed_depth (cs : List (Node α)) : (makeRelaxed cs).depth ≤ 1 + depthL cs := by
  have := sizes_depth cs
  simp only [makeRelaxed, depth_bind, depth_pure]; omega

theorem getL_depth (cs : List (Node α)) (ih : ∀ c ∈ cs, ∀ i, (get c i).depth ≤ 1 + c.depth) :
    ∀ i j, (getL cs i j).depth ≤ 1 + depthL cs := by
  induction cs with
  | nil => intro i j; simp [getL]
  | cons c cs ihc =>
    intro i j
    cases i with
    | zero => have := ih c (by simp) j; simp only [getL, depthL]; omega
    | succ i => have := ihc (fun c hc => ih c (by simp [hc])) i j; simp only [getL, depthL]; omega

theorem get_depth (n : Node α) : ∀ i, (get n i).depth ≤ 1 + n.depth := by
  induction n using Node.induct with
  | hleaf es => intro i; simp [get]
  | hbranch cs s ih =>
    intro i
    have := getL_depth cs ih
    simp only [get, depth_call, depth_branch]
    split
    · rename_i k j _; have := this k j; omega
    · simp

theorem nodeUpdateL_depth (cs : List (Node α)) (x : α) (ih : ∀ c ∈ cs, ∀ i, (nodeUpdate c i x).depth ≤ 1 + c.depth) :
    ∀ i j, (nodeUpdateL cs i j x).depth ≤ 1 + depthL cs := by
  induction cs with
  | nil => intro i j; simp [nodeUpdateL]
  | cons c cs ihc =>
    intro i j
    cases i with
    | zero =>
      have := ih c (by simp) j
      simp only [nodeUpdateL, depth_bind, depth_pure, depthL]; omega
    | succ i =>
      have := ihc (fun c hc => ih c (by simp [hc])) i j
      simp only [nodeUpdateL, depth_bind, depth_pure, depthL]; omega

theorem nodeUpdate_depth (n : Node α) (x : α) : ∀ i, (nodeUpdate n i x).depth ≤ 1 + n.depth := by
  induction n using Node.induct with
  | hleaf es => intro i; simp [nodeUpdate]
  | hbranch cs s ih =>
    intro i
    have := nodeUpdateL_depth cs x ih
    simp only [nodeUpdate, depth_call, depth_branch]
    split
    · rename_i k j _; have := this k j; simp only [depth_bind, depth_pure]; omega
    · simp

theorem pushLeaf_depth (n : Node α) (es : List α) : (pushLeaf n (.leaf es)).depth ≤ 1 + n.depth := by
  have h1 := size_depth n
  have h2 : (size (.leaf es)).depth = 1 := by simp [size]
  cases n with
  | leaf fs => simp only [pushLeaf, depth_bind, depth_pure, h2]; omega
  | branch cs s =>
    have h3 := sizes_depth cs
    simp only [pushLeaf]
    simp only [depth_branch] at *
    split
    · cases s <;> simp only [depth_bind, depth_pure, h2] <;> omega
    · simp only [depth_bind, depth_pure, h2]; omega

theorem pushFrontLeaf_depth (n : Node α) (es : List α) : (pushFrontLeaf n (.leaf es)).depth ≤ 1 + n.depth := by
  have h1 := size_depth n
  have h2 : (size (.leaf es)).depth = 1 := by simp [size]
  cases n with
  | leaf fs => simp only [pushFrontLeaf, depth_bind, depth_pure, h2]; omega
  | branch cs s =>
    have h3 := sizes_depth cs
    simp only [pushFrontLeaf]
    simp only [depth_branch] at *
    split
    · cases s <;> simp only [depth_bind, depth_pure, h2] <;> omega
    · simp only [depth_bind, depth_pure, h2]; omega

theorem afterPopBack_depth (cs : List (Node α)) (s) (c : Node α) (x : α) :
    (afterPopBack cs s c x).depth ≤ 1 + c.depth := by
  have := size_depth c
  simp only [afterPopBack, depth_bind]
  split
  · split <;> (simp only [depth_pure]; omega)
  · simp only [depth_bind, depth_pure]; omega

theorem afterPopFront_depth (cs : List (Node α)) (s) (c : Node α) (x : α) :
    (afterPopFront cs s c x).depth ≤ 1 + c.depth := by
  have := size_depth c
  simp only [afterPopFront, depth_bind]
  split
  · split <;> (simp only [depth_pure]; omega)
  · simp only [depth_bind, depth_pure]; omega

theorem nodePopBackLast_depth (cs : List (Node α)) (ih : ∀ c ∈ cs, (nodePopBack c).depth ≤ 1 + c.depth) :
    (nodePopBackLast cs).depth ≤ 1 + depthL cs := by
  induction cs with
  | nil => simp [nodePopBackLast]
  | cons c cs ihc =>
    cases cs with
    | nil => have := ih c (by simp); simp only [nodePopBackLast, depthL]; omega
    | cons d ds =>
      have := ihc (fun c hc => ih c (by simp [List.mem_cons.1 hc]))
      simp only [nodePopBackLast]
      simp only [depthL] at *; omega

theorem nodePopBack_depth (n : Node α) : (nodePopBack n).depth ≤ 1 + n.depth := by
  induction n using Node.induct with
  | hleaf es => simp [nodePopBack]
  | hbranch cs s ih =>
    have h1 := nodePopBackLast_depth cs ih
    simp only [nodePopBack, depth_call, depth_bind, depth_branch,
      nodePopBackLast_val cs (fun c _ => nodePopBack_val c)]
    cases e : Node.popBackLast cs with
    | none => simp only [depth_pure]; omega
    | some q =>
      obtain ⟨c', y⟩ := q
      obtain ⟨c, hc, hp⟩ := popBackLast_of cs c' y e
      have h2 := (popBack_shrinks c c' y hp).1
      have h3 := depthL_mem hc
      have h4 := afterPopBack_depth cs s c' y
      simp only; omega

theorem nodePopFront_depth (n : Node α) : (nodePopFront n).depth ≤ 1 + n.depth := by
  induction n using Node.induct with
  | hleaf es => simp [nodePopFront]
  | hbranch cs s ih =>
    cases cs with
    | nil => simp [nodePopFront]
    | cons c cs =>
      have h1 := ih c (by simp)
      simp only [nodePopFront, depth_call, depth_bind, depth_branch, nodePopFront_val, depthL]
      cases e : c.popFront with
      | none => simp only [depth_pure]; omega
      | some q =>
        have h2 := (popFront_shrinks c q.1 q.2 e).1
        have h4 := afterPopFront_depth cs s q.1 q.2
        simp only; omega

theorem nodeDrop_depth_le (n : Node α) : (nodeDrop n).depth ≤ 1 + n.depth := by
  induction n using Node.induct with
  | hleaf es => simp [nodeDrop]
  | hbranch cs s ih =>
    suffices h : (nodeDropL cs).depth ≤ 1 + depthL cs by simp only [nodeDrop, depth_call, depth_branch]; omega
    induction cs with
    | nil => simp [nodeDropL]
    | cons c cs ihc =>
      have h1 := ih c (by simp)
      have h2 := ihc (fun c hc => ih c (by simp [hc]))
      simp only [nodeDropL, depth_bind, depthL]; omega

theorem calculateHeight_depth (n : Node α) : (calculateHeight n).depth = 1 + Tree.calculateHeight n := by
  induction n using Node.induct with
  | hleaf es => simp [calculateHeight, Tree.calculateHeight]
  | hbranch cs s ih =>
    cases cs with
    | nil => simp [calculateHeight, Tree.calculateHeight]
    | cons c cs => simp [calculateHeight, Tree.calculateHeight, ih c (by simp)]; omega

theorem calculateHeight_depth_le (n : Node α) : (calculateHeight n).depth ≤ 1 + n.depth := by
  have := calculateHeight_le n
  rw [calculateHeight_depth]; omega

theorem pushTailToTree_depth (t : Tree α) :
    (pushTailToTree t).depth ≤ 1 + max t.root.depth t.pushTailToTree.root.depth := by
  simp only [pushTailToTree, Tree.pushTailToTree]
  split
  · simp
  · have h1 := pushLeaf_depth t.root t.tail
    have h2 := calculateHeight_depth_le (t.root.pushLeaf (.leaf t.tail))
    simp only [depth_bind, depth_pure, pushLeaf_val]; omega

theorem pushHeadToTree_depth (t : Tree α) :
    (pushHeadToTree t).depth ≤ 1 + max t.root.depth t.pushHeadToTree.root.depth := by
  simp only [pushHeadToTree, Tree.pushHeadToTree]
  split
  · simp
  · have h1 := pushFrontLeaf_depth t.root t.head
    have h2 := calculateHeight_depth_le (t.root.pushFrontLeaf (.leaf t.head))
    simp only [depth_bind, depth_pure, pushFrontLeaf_val]; omega

theorem concatLast_depth (cs : List (Node α)) (r : Node α)
    (ih : ∀ c ∈ cs, (concatNodes c r).depth ≤ 2 + max c.depth r.depth) :
    (concatLast cs r).depth ≤ 2 + max (depthL cs) r.depth := by
  induction cs with
  | nil => simp [concatLast]
  | cons c cs ihc =>
    cases cs with
    | nil =>
      have := ih c (by simp)
      simp only [concatLast, depth_bind, depth_pure, depthL]; omega
    | cons d ds =>
      have := ihc (fun c hc => ih c (by simp [List.mem_cons.1 hc]))
      simp only [concatLast]
      simp only [depthL] at *; omega

theorem concatNodes_nested (l : Node α) : ∀ r, (concatNodes l r).depth ≤ 2 + max l.depth r.depth := by
  induction l using Node.induct with
  | hleaf es =>
    intro r
    cases r with
    | leaf fs =>
      simp only [concatNodes, depth_call]
      split
      · simp
      · have := makeRelaxed_depth [Node.leaf ((es ++ fs).take LEAF_CAPACITY), .leaf ((es ++ fs).drop LEAF_CAPACITY)]
        simp only [depthL, depth_leaf] at *; omega
    | branch ds s =>
      have := makeRelaxed_depth (Node.leaf es :: ds)
      simp only [concatNodes, depth_call, depth_branch, depthL, depth_leaf] at *; omega
  | hbranch cs s ih =>
    intro r
    cases r with
    | leaf fs =>
      have := makeRelaxed_depth (cs ++ [Node.leaf fs])
      simp only [concatNodes, depth_call, depth_branch, depthL_append, depthL, depth_leaf] at *; omega
    | branch ds s' =>
      have hn := concatNodes_depth (Node.branch cs s) (.branch ds s')
      simp only [Tree.concatNodes, Node.makeRelaxed, depth_branch] at hn
      simp only [concatNodes, depth_call, depth_branch]
      cases ds with
      | nil =>
        have := makeRelaxed_depth (cs.dropLast ++ (none : Option (Node α)).toList ++ ([] : List (Node α)).drop 1)
        simp only [depth_bind, depth_pure, val_pure]
        simp only [Option.toList_none, List.append_nil, List.drop_nil] at *; omega
      | cons d ds =>
        have h1 := concatLast_depth cs d (fun c hc => ih c hc d)
        have h2 := makeRelaxed_depth (cs.dropLast ++ (Tree.concatLast cs d).toList ++ (d :: ds).drop 1)
        simp only [depth_bind, concatLast_val cs (fun c _ => concatNodes_val c)]
        simp only [depthL] at *; omega

theorem concatSameHeight_depth (a b : Tree α) :
    (concatSameHeight a b).depth ≤ 3 + max a.root.depth b.root.depth := by
  have h1 := pushTailToTree_depth a
  have h2 := pushHeadToTree_depth b
  have h3 := (pushTail_depth a).1
  have h4 := (pushHead_depth b).1
  simp only [concatSameHeight]
  split <;> split <;> simp only [depth_bind, depth_pure, val_pure, pushTailToTree_val, pushHeadToTree_val]
  · have := concatNodes_nested a.pushTailToTree.root b.pushHeadToTree.root; omega
  · have := concatNodes_nested a.pushTailToTree.root b.root; omega
  · have := concatNodes_nested a.root b.pushHeadToTree.root; omega
  · have := concatNodes_nested a.root b.root; omega

theorem elevateRoot_nested (k : Nat) : ∀ n : Node α, (elevateRoot k n).depth ≤ max (size n).depth 1 := by
  induction k with
  | zero => intro n; simp [elevateRoot]
  | succ k ih =>
    intro n
    have h1 := ih (.branch [n] (some [n.calculateSize]))
    have h2 : (size (.branch [n] (some [n.calculateSize]))).depth = 1 := by simp [size]
    simp only [elevateRoot, depth_bind, size_val]; omega

theorem splitChild_depth (cs : List (Node α)) (ih : ∀ c ∈ cs, ∀ p j h, (splitAlongPath c p j h).depth ≤ 1 + c.depth) :
    ∀ i p j h, (splitChild cs i p j h).depth ≤ 1 + depthL cs := by
  induction cs with
  | nil => intro i p j h; simp [splitChild]
  | cons c cs ihc =>
    intro i p j h
    cases i with
    | zero =>
      have := ih c (by simp) p j h
      simp only [splitChild, depth_bind, depth_pure, depthL]; omega
    | succ i =>
      have := ihc (fun c hc => ih c (by simp [hc])) i p j h
      simp only [splitChild, depthL]; omega

theorem createLeftBranch_depth (cs : List (Node α)) (i : Nat) (c : Node α) :
    (createLeftBranch cs i c).depth ≤ 1 + max (depthL cs) c.depth := by
  have h1 := size_depth c
  have h2 := makeRelaxed_depth (cs.take i ++ (if c.calculateSize > 0 then [c] else []))
  have h3 : depthL (cs.take i ++ (if c.calculateSize > 0 then [c] else [])) ≤ max (depthL cs) c.depth := by
    refine depthL_le.2 fun a ha => ?_
    rcases List.mem_append.1 ha with ha | ha
    · have := depthL_mem (List.mem_of_mem_take ha); omega
    · split at ha
      · simp only [List.mem_singleton] at ha; subst ha; omega
      · cases ha
  simp only [createLeftBranch, depth_bind, size_val]
  generalize (if c.calculateSize > 0 then [c] else []) = l at *
  split
  · simp only [depth_pure]; omega
  · omega

theorem createRightBranch_depth (cs : List (Node α)) (i : Nat) (c : Node α) :
    (createRightBranch cs i c).depth ≤ 1 + max (depthL cs) c.depth := by
  have h1 := size_depth c
  have h2 := makeRelaxed_depth ((if c.calculateSize > 0 then [c] else []) ++ cs.drop (i + 1))
  have h3 : depthL ((if c.calculateSize > 0 then [c] else []) ++ cs.drop (i + 1)) ≤ max (depthL cs) c.depth := by
    refine depthL_le.2 fun a ha => ?_
    rcases List.mem_append.1 ha with ha | ha
    · split at ha
      · simp only [List.mem_singleton] at ha; subst ha; omega
      · cases ha
    · have := depthL_mem (List.mem_of_mem_drop ha); omega
  simp only [createRightBranch, depth_bind, size_val]
  generalize (if c.calculateSize > 0 then [c] else []) = l at *
  split
  · simp only [depth_pure]; omega
  · omega

theorem splitAlongPath_depth (n : Node α) : ∀ p j h, (splitAlongPath n p j h).depth ≤ 1 + n.depth := by
  induction n using Node.induct with
  | hleaf es => intro p j h; simp [splitAlongPath]
  | hbranch cs s ih =>
    intro p j h
    cases p with
    | nil =>
      have := splitChild_depth cs ih 0 [] j (h - 1)
      simp only [splitAlongPath, depth_call, depth_bind, depth_pure, depth_branch]; omega
    | cons i p =>
      simp only [splitAlongPath, depth_call, depth_bind, depth_branch,
        splitChild_val cs (fun c _ => splitAlongPath_val c)]
      have h1 := splitChild_depth cs ih i p (calculateAdjustedIndex j i s (h - 1)) (h - 1)
      cases e : Tree.splitChild cs i p (calculateAdjustedIndex j i s (h - 1)) (h - 1) with
      | none => simp only [depth_pure]; omega
      | some lr =>
        obtain ⟨_, c, hc, rfl⟩ := splitChild_of cs _ _ _ _ _ e
        have h2 := depthL_mem hc
        have h3 := split_shrinks c p (calculateAdjustedIndex j i s (h - 1)) (h - 1)
        generalize Tree.splitAlongPath c p (calculateAdjustedIndex j i s (h - 1)) (h - 1) = lr at h3
        have h4 := createLeftBranch_depth cs i lr.1
        have h5 := createRightBranch_depth cs i lr.2
        simp only [depth_bind, depth_pure]; omega

/-! ## Vectors whose calls have paid for their levels -/

variable {p q : Nat}

theorem treePushBack_depth {t : Tree α} (h : t.Paid p) (x : α) : (treePushBack t x).depth ≤ 1 + p / 1984 := by
  simp only [treePushBack, LEAF_CAPACITY]
  split
  · simp
  · have h1 := pushTailToTree_depth t
    have h2 := (pushTail_paid h (by omega)).1
    have h3 := depth_le_pot t.root
    have h4 := depth_le_pot t.pushTailToTree.root
    unfold Tree.Paid at h h2
    simp only [depth_bind, depth_pure]; omega

theorem treePushFront_depth {t : Tree α} (h : t.Paid p) (x : α) : (treePushFront t x).depth ≤ 1 + p / 1984 := by
  simp only [treePushFront, LEAF_CAPACITY]
  split
  · simp
  · have h1 := pushHeadToTree_depth t
    have h2 := (pushHead_paid h (by omega)).1
    have h3 := depth_le_pot t.root
    have h4 := depth_le_pot t.pushHeadToTree.root
    unfold Tree.Paid at h h2
    simp only [depth_bind, depth_pure]; omega

theorem treeUpdate_depth {t : Tree α} (h : t.Paid p) (i : Nat) (x : α) : (treeUpdate t i x).depth ≤ 1 + p / 1984 := by
  have h1 := nodeUpdate_depth t.root x (i - t.head.length)
  have h2 := depth_le_pot t.root
  unfold Tree.Paid at h
  simp only [treeUpdate]
  split
  · simp
  · split
    · simp
    · split
      · simp only [depth_bind, depth_pure]; omega
      · simp

theorem treeConcat_depth {a b : Tree α} (ha : a.Paid p) (hb : b.Paid q) :
    (treeConcat a b).depth ≤ 3 + (p + q) / 1984 := by
  have da := depth_le_pot a.root
  have db := depth_le_pot b.root
  have sb := size_depth b.root
  unfold Tree.Paid at ha hb
  simp only [treeConcat, concatDifferentHeight]
  split
  · simp
  · split
    · simp
    · split
      · have := concatSameHeight_depth a b; omega
      · have h1 := elevateRoot_nested (a.height - b.height) b.root
        have h2 := elevateRoot_depth (a.height - b.height) b.root
        split
        · have h3 := concatSameHeight_depth (Tree.elevateTree b a.height) a
          simp only [Bool.false_eq_true, if_false, depth_bind, elevateTree_val]
          simp only [elevateTree, Tree.elevateTree, depth_bind, depth_pure] at *; omega
        · have h3 := concatSameHeight_depth a (Tree.elevateTree b a.height)
          simp only [if_true, depth_bind, elevateTree_val]
          simp only [elevateTree, Tree.elevateTree, depth_bind, depth_pure] at *; omega

theorem treePopBack_depth {t : Tree α} (h : t.Paid p) : (treePopBack t).depth ≤ 1 + p / 1984 := by
  have h1 := get_depth t.root (t.len - t.tail.length - 1)
  have h2 := nodePopBack_depth t.root
  have h3 := depth_le_pot t.root
  unfold Tree.Paid at h
  simp only [treePopBack]
  split
  · simp
  · split
    · simp
    · simp only [popFromTree]
      split
      · simp
      · split
        · simp
        · simp only [depth_bind, get_val]
          cases t.root.get (t.len - t.tail.length - 1) with
          | none => simp only [depth_pure]; omega
          | some x =>
            simp only [depth_bind, depth_pure, popRoot]
            split
            · simp only [depth_pure]; omega
            · simp only [depth_bind, nodePopBack_val]
              cases t.root.popBack <;> (simp only [depth_pure]; omega)

theorem treePopFront_depth {t : Tree α} (h : t.Paid p) : (treePopFront t).depth ≤ 1 + p / 1984 := by
  have h2 := nodePopFront_depth t.root
  have h3 := depth_le_pot t.root
  unfold Tree.Paid at h
  simp only [treePopFront]
  split
  · simp
  · split
    · simp
    · simp only [popFrontFromTree]
      split
      · simp only [depth_bind, nodePopFront_val]
        cases t.root.popFront <;> (simp only [depth_pure]; omega)
      · simp

theorem treeSplitAt_depth {t : Tree α} (h : t.Paid p) (i : Nat) : (treeSplitAt t i).depth ≤ 1 + p / 1984 := by
  have h1 := size_depth t.root
  have h2 := splitAlongPath_depth t.root (Tree.findPath t.root t.height (i - t.head.length)) (i - t.head.length) t.height
  have h3 := depth_le_pot t.root
  have h4 := split_shrinks t.root (Tree.findPath t.root t.height (i - t.head.length)) (i - t.head.length) t.height
  unfold Tree.Paid at h
  simp only [treeSplitAt]
  split
  · simp
  · split
    · simp
    · split
      · simp only [fromHeadAndTreeAndTail, depth_bind, depth_pure]; omega
      · split
        · simp only [fromHeadAndTreeAndTail, depth_bind, depth_pure]; omega
        · simp only [fromHeadAndRoot, fromRootAndTail, depth_bind, depth_pure, splitAlongPath_val]
          generalize Tree.splitAlongPath t.root _ _ _ = lr at *
          have h5 := size_depth lr.1
          have h6 := size_depth lr.2
          have h7 := calculateHeight_depth_le lr.1
          have h8 := calculateHeight_depth_le lr.2
          omega

/-- At most 64 elements make a leaf, without any of the counted calls. -/
theorem fromElements_small {es : List α} (h : es.length ≤ 64) : (fromElements es).depth = 0 := by
  simp [fromElements, h]

theorem pushBack_depth {v : PV α} (h : v.Paid p) (x : α) : (pushBack v x).depth ≤ 1 + p / 1984 := by
  obtain ⟨inner, len, g⟩ := v
  cases inner with
  | inline es =>
    have h1 := h.inline rfl
    simp only [pushBack]
    split
    · simp
    · have h2 := treePushBack_depth (PV.small_paid h1.1) x
      simp only [transitionToTree, vecTreePushBack, depth_bind, depth_pure, val_bind, val_pure, fromElements_val,
        fromElements_small h1.1]
      omega
  | tree t =>
    have := treePushBack_depth (h.tree rfl) x
    simp only [pushBack, vecTreePushBack, depth_bind, depth_pure]; omega

theorem pushFront_depth {v : PV α} (h : v.Paid p) (x : α) : (pushFront v x).depth ≤ 1 + p / 1984 := by
  obtain ⟨inner, len, g⟩ := v
  cases inner with
  | inline es =>
    have h1 := h.inline rfl
    simp only [pushFront]
    split
    · simp
    · have h2 := treePushFront_depth (PV.small_paid h1.1) x
      simp only [transitionToTree, vecTreePushFront, depth_bind, depth_pure, val_bind, val_pure, fromElements_val,
        fromElements_small h1.1]
      omega
  | tree t =>
    have := treePushFront_depth (h.tree rfl) x
    simp only [pushFront, vecTreePushFront, depth_bind, depth_pure]; omega

theorem update_depth {v : PV α} (h : v.Paid p) (i : Nat) (x : α) : (update v i x).depth ≤ 1 + p / 1984 := by
  obtain ⟨inner, len, g⟩ := v
  simp only [update]
  split
  · simp
  · cases inner with
    | inline es => simp
    | tree t =>
      have := treeUpdate_depth (h.tree rfl) i x
      simp only [depth_bind, depth_pure]; omega

theorem popBack_depth {v : PV α} (h : v.Paid p) : (popBack v).depth ≤ 1 + p / 1984 := by
  obtain ⟨inner, len, g⟩ := v
  simp only [popBack]
  split
  · simp
  · cases inner with
    | inline es => simp only; split <;> simp
    | tree t =>
      have := treePopBack_depth (h.tree rfl)
      simp only [depth_bind, depth_pure]; omega

theorem popFront_depth {v : PV α} (h : v.Paid p) : (popFront v).depth ≤ 1 + p / 1984 := by
  obtain ⟨inner, len, g⟩ := v
  simp only [popFront]
  split
  · simp
  · cases inner with
    | inline es => cases es <;> simp
    | tree t =>
      have := treePopFront_depth (h.tree rfl)
      simp only [depth_bind, depth_pure]; omega

theorem splitAt_depth {v : PV α} (h : v.Paid p) (i : Nat) : (splitAt v i).depth ≤ 1 + p / 1984 := by
  obtain ⟨inner, len, g⟩ := v
  simp only [splitAt]
  split
  · simp
  · split
    · simp
    · cases inner with
      | inline es => simp
      | tree t =>
        have := treeSplitAt_depth (h.tree rfl) i
        simp only [depth_bind, depth_pure]; omega

theorem take_depth {v : PV α} (h : v.Paid p) (n : Nat) : (take v n).depth ≤ 1 + p / 1984 := by
  have := splitAt_depth h n
  simp only [take]
  split
  · simp
  · simp only [depth_bind, depth_pure]; omega

theorem skip_depth {v : PV α} (h : v.Paid p) (n : Nat) : (skip v n).depth ≤ 1 + p / 1984 := by
  have := splitAt_depth h n
  simp only [skip]
  split
  · simp
  · simp only [depth_bind, depth_pure]; omega

theorem drop_depth {v : PV α} (h : v.Paid p) : (drop v).depth ≤ 1 + p / 1984 := by
  obtain ⟨inner, len, g⟩ := v
  cases inner with
  | inline es => simp [drop]
  | tree t =>
    have h1 := nodeDrop_depth_le t.root
    have h2 := depth_le_pot t.root
    have h3 := h.tree rfl
    unfold Tree.Paid at h3
    simp only [drop]; omega

theorem extend_depth (xs : List α) : ∀ {p : Nat} {v : PV α}, v.Paid p → (extend v xs).depth ≤ 1 + (p + xs.length) / 1984 := by
  induction xs with
  | nil => intro p v _; simp [extend]
  | cons x xs ih =>
    intro p v h
    have h1 := pushBack_depth h x
    have h2 := ih (h.pushBack x)
    simp only [extend, depth_bind, pushBack_val, List.length_cons]; omega

/-! ## Collected vectors -/

theorem nextLevel_depth (cs : List (List (Node α))) (h : ∀ c ∈ cs, ∀ n ∈ c, (size n).depth ≤ 1) :
    (nextLevel cs).depth ≤ 1 := by
  induction cs with
  | nil => simp [nextLevel]
  | cons c cs ih =>
    have h1 := ih (fun c hc => h c (by simp [hc]))
    have h2 : (sizes c).depth ≤ 1 := by
      have hc := h c (by simp)
      clear h h1 ih
      induction c with
      | nil => simp [sizes]
      | cons n c ih =>
        have := ih (fun n hn => hc n (by simp [hn]))
        have := hc n (by simp)
        simp only [sizes, depth_bind, depth_pure]; omega
    simp only [nextLevel, makeRelaxed, depth_bind, depth_pure]; omega

theorem build_depth : ∀ (fuel : Nat) (nodes : List (Node α)), nodes ≠ [] → nodes.length ≤ fuel →
    (∀ n ∈ nodes, (size n).depth ≤ 1) → 1 ≤ (buildTreeRecursive fuel nodes).depth ∧
    ∀ k, (buildTreeRecursive fuel nodes).depth ≤ k + 1 ↔ nodes.length ≤ 32 ^ k := by
  intro fuel
  induction fuel with
  | zero => intro nodes hne hlen; exact absurd (List.length_eq_zero_iff.1 (by omega)) hne
  | succ fuel ih =>
    intro nodes hne hlen hs
    match nodes, hne, hlen, hs with
    | [n], _, _, _ =>
      refine ⟨by simp [buildTreeRecursive], fun k => ?_⟩
      have : 1 ≤ 32 ^ k := Nat.one_le_pow _ _ (by omega)
      simp [buildTreeRecursive]; omega
    | n :: m :: rest, _, hlen, hs =>
      have hcl := chunks_length (n := BRANCHING_FACTOR) (by decide) (n :: m :: rest)
      have hcm : ∀ c ∈ chunks BRANCHING_FACTOR (n :: m :: rest), ∀ x ∈ c, x ∈ n :: m :: rest := by
        intro c hc x hx
        rw [← chunks_flatten (n := BRANCHING_FACTOR) (by decide) (n :: m :: rest)]
        exact List.mem_flatten.2 ⟨c, hc, hx⟩
      have hnl := nextLevel_depth (chunks BRANCHING_FACTOR (n :: m :: rest)) (fun c hc x hx => hs x (hcm c hc x hx))
      simp only [buildTreeRecursive, depth_call, depth_bind, depth_pure, nextLevel_val]
      generalize chunks BRANCHING_FACTOR (n :: m :: rest) = cs at *
      simp only [BRANCHING_FACTOR, List.length_cons] at hcl hlen
      have hne' : cs.map Node.makeRelaxed ≠ [] := by
        intro h
        have : cs = [] := by simpa using h
        subst this; simp at hcl; omega
      obtain ⟨h1, h2⟩ := ih (cs.map Node.makeRelaxed) hne' (by simp only [List.length_map]; omega) (by
        intro x hx
        obtain ⟨c, _, rfl⟩ := List.mem_map.1 hx
        simp [Node.makeRelaxed, size])
      refine ⟨by omega, fun k => ?_⟩
      simp only [List.length_map, List.length_cons] at h2 ⊢
      cases k with
      | zero => simp; omega
      | succ k =>
        have := h2 k
        rw [Nat.pow_succ]; omega

/-- C96 for vectors made in one go: up to 64 elements none of the counted calls is made; above, `from_iter` nests at most
`k + 1` deep exactly when the full leaves fit into `k` levels of branches. -/
theorem c96_from_iter_exact (xs : List α) :
    (xs.length ≤ 64 → (fromIter xs).depth = 0) ∧
    (64 < xs.length → 1 ≤ (fromIter xs).depth ∧ ∀ k, (fromIter xs).depth ≤ k + 1 ↔ xs.length / 64 ≤ 32 ^ k) := by
  refine ⟨fun h => by simp [fromIter, h], fun h => ?_⟩
  have hne : (xs.take (xs.length / 64 * 64)).isEmpty = false := by
    rw [List.isEmpty_eq_false_iff]; intro h0
    have := congrArg List.length h0
    simp only [List.length_take, List.length_nil] at this; omega
  have hcl := chunks_length (n := 64) (by decide) (xs.take (xs.length / 64 * 64))
  simp only [List.length_take] at hcl
  simp only [fromIter, fromElements, ADAPTIVE_INLINE_SIZE, LEAF_CAPACITY, show ¬ xs.length ≤ 64 by omega, if_false, hne,
    Bool.false_eq_true, depth_bind, depth_pure, Nat.max_zero]
  generalize chunks 64 (xs.take (xs.length / 64 * 64)) = cs at *
  obtain ⟨h1, h2⟩ := build_depth (cs.map Node.leaf).length (cs.map Node.leaf) (by
    intro h
    have : cs = [] := by simpa using h
    subst this; simp at hcl; omega) (Nat.le_refl _) (by
    intro n hn
    obtain ⟨c, _, rfl⟩ := List.mem_map.1 hn
    simp [size])
  refine ⟨h1, fun k => ?_⟩
  rw [h2 k, List.length_map, show cs.length = xs.length / 64 by omega]

theorem concat_depth {v w : PV α} (hv : v.Paid p) (hw : w.Paid q) : (concat v w).depth ≤ 3 + (p + q) / 1984 := by
  obtain ⟨i1, l1, g1⟩ := v
  obtain ⟨i2, l2, g2⟩ := w
  have hp := hv.pos
  have hq := hw.pos
  cases i1 with
  | inline es =>
    have h1 := hv.inline rfl
    cases i2 with
    | inline fs =>
      have h2 := hw.inline rfl
      have h3 := c96_from_iter_exact (es ++ fs)
      simp only [concat]
      by_cases hl : (es ++ fs).length ≤ 64
      · rw [h3.1 hl]; omega
      · have := ((h3.2 (by omega)).2 1).2 (by simp only [List.length_append]; omega)
        omega
    | tree t =>
      have := treeConcat_depth (PV.small_paid h1.1) (hw.tree rfl)
      simp only [concat, depth_bind, depth_pure, fromElements_small h1.1, fromElements_val]; omega
  | tree t =>
    cases i2 with
    | inline fs =>
      have h2 := hw.inline rfl
      have := treeConcat_depth (hv.tree rfl) (PV.small_paid h2.1)
      simp only [concat, depth_bind, depth_pure, fromElements_small h2.1, fromElements_val]; omega
    | tree u =>
      have := treeConcat_depth (hv.tree rfl) (hw.tree rfl)
      simp only [concat, depth_bind, depth_pure]; omega

theorem insert_depth {v : PV α} (h : v.Paid p) (i : Nat) (x : α) : (insert v i x).depth ≤ 3 + (2 * p + 1) / 1984 := by
  have h1 := pushBack_depth h x
  have h2 := pushFront_depth h x
  simp only [insert]
  split
  · omega
  · split
    · omega
    · have h3 := splitAt_depth h i
      have h4 := pushBack_depth (h.splitAt i).1 x
      have h5 := concat_depth ((h.splitAt i).1.pushBack x) (h.splitAt i).2
      simp only [depth_bind, splitAt_val, pushBack_val]; omega

theorem remove_depth {v : PV α} (h : v.Paid p) (i : Nat) : (remove v i).depth ≤ 3 + 2 * p / 1984 := by
  simp only [remove]
  split
  · simp
  · split
    · simp
    · have h3 := splitAt_depth h i
      have h4 := skip_depth (h.splitAt i).2 1
      have h5 := concat_depth (h.splitAt i).1 ((h.splitAt i).2.skip 1)
      simp only [depth_bind, depth_pure, splitAt_val, skip_val]; omega

/-! ## Vectors made by `push_back` -/

/-- A spine of `d` branches with size tables, each with one deeper child, its first, and leaves. -/
def Spine : Nat → Node α → Prop
  | 0, .leaf es => es ≠ []
  | d + 1, .branch (c :: ls) (some (sz :: _)) => 0 < sz ∧ Spine d c ∧ ∀ l ∈ ls, l.depth = 0
  | _, _ => False

/-- Number of children. -/
def kids : Node α → Nat
  | .leaf _ => 0
  | .branch cs _ => cs.length

theorem Spine.depth : ∀ {d : Nat} {n : Node α}, Spine d n → n.depth = d
  | 0, .leaf es, _ => by simp
  | d + 1, .branch (c :: ls) (some (sz :: _)), h => by
    have h1 := Spine.depth h.2.1
    have h2 : depthL ls ≤ 0 := depthL_le.2 fun l hl => by have := h.2.2 l hl; omega
    simp only [depth_branch, depthL, h1]; omega

theorem Spine.height : ∀ {d : Nat} {n : Node α}, Spine d n → Tree.calculateHeight n = d
  | 0, .leaf es, _ => by simp [Tree.calculateHeight]
  | d + 1, .branch (c :: ls) (some (sz :: _)), h => by
    simp only [Tree.calculateHeight, Spine.height h.2.1]; omega

theorem Spine.size : ∀ {d : Nat} {n : Node α}, Spine d n → (Frames.size n).depth = 1 ∧ 0 < n.calculateSize
  | 0, .leaf es, h => by
    have : es ≠ [] := h
    simp [Frames.size, calculateSize, List.length_pos_iff, this]
  | d + 1, .branch (c :: ls) (some (sz :: szs)), h => by
    have : 0 < sz := h.1
    exact ⟨by simp [Frames.size], by simp only [calculateSize, List.sum_cons]; omega⟩

theorem Spine.drop : ∀ {d : Nat} {n : Node α}, Spine d n → d + 1 ≤ (nodeDrop n).depth
  | 0, .leaf es, _ => by simp [nodeDrop]
  | d + 1, .branch (c :: ls) (some (sz :: _)), h => by
    have := Spine.drop h.2.1
    simp only [nodeDrop, nodeDropL, depth_call, depth_bind]; omega

theorem Spine.update : ∀ {d : Nat} {n : Node α}, Spine d n → ∀ x, d + 1 ≤ (nodeUpdate n 0 x).depth
  | 0, .leaf es, _, x => by simp [nodeUpdate]
  | d + 1, .branch (c :: ls) (some (sz :: _)), h, x => by
    have := Spine.update h.2.1 x
    simp only [nodeUpdate, findChild, scanSizes, Nat.zero_add, h.1, if_true, nodeUpdateL, depth_call, depth_bind,
      depth_pure, Nat.sub_zero]
    omega

theorem Spine.popFront : ∀ {d : Nat} {n : Node α}, Spine d n → d + 1 ≤ (nodePopFront n).depth
  | 0, .leaf es, _ => by simp [nodePopFront]
  | d + 1, .branch (c :: ls) (some (sz :: _)), h => by
    have := Spine.popFront h.2.1
    simp only [nodePopFront, depth_call, depth_bind]; omega

theorem Spine.pushLeaf {d : Nat} {n : Node α} (h : Spine d n) (es : List α) :
    (d = 0 → Spine 1 (n.pushLeaf (.leaf es)) ∧ kids (n.pushLeaf (.leaf es)) = 2) ∧
    (0 < d → kids n < 32 → Spine d (n.pushLeaf (.leaf es)) ∧ kids (n.pushLeaf (.leaf es)) = kids n + 1) ∧
    (0 < d → ¬ kids n < 32 → Spine (d + 1) (n.pushLeaf (.leaf es)) ∧ kids (n.pushLeaf (.leaf es)) = 2) := by
  have hs := h.size.2
  match d, n, h with
  | 0, .leaf fs, h =>
    exact ⟨fun _ => ⟨⟨hs, h, by simp⟩, rfl⟩, fun h => absurd h (by omega), fun h => absurd h (by omega)⟩
  | d + 1, .branch (c :: ls) (some (sz :: szs)), h =>
    refine ⟨fun h => absurd h (by omega), fun _ hk => ?_, fun _ hk => ?_⟩
    · simp only [kids, List.length_cons] at hk
      simp only [Node.pushLeaf, BRANCHING_FACTOR, List.length_cons]
      rw [if_pos hk]
      refine ⟨⟨h.1, h.2.1, fun l hl => ?_⟩, by simp [kids]⟩
      rcases List.mem_append.1 hl with hl | hl
      · exact h.2.2 l hl
      · simp only [List.mem_singleton] at hl; subst hl; simp
    · simp only [kids, List.length_cons] at hk
      simp only [Node.pushLeaf, BRANCHING_FACTOR, List.length_cons]
      rw [if_neg hk]
      exact ⟨⟨hs, h, by simp⟩, rfl⟩

/-- The shape of a vector built by `n > 64` calls of `push_back`. -/
def Built (n : Nat) (v : PV α) : Prop :=
  ∃ t d, v.inner = .tree t ∧ t.head = [] ∧ t.len = n ∧ v.len = n ∧ 64 < n ∧ t.tail.length = (n - 1) % 64 + 1 ∧
    Spine d t.root ∧ ((n - 1) / 64 = 1 ∧ d = 0 ∨
      1 ≤ d ∧ 2 ≤ kids t.root ∧ kids t.root ≤ 32 ∧ (n - 1) / 64 = 31 * (d - 1) + kids t.root)

theorem Built.push {n : Nat} {v : PV α} (h : Built n v) (x : α) : Built (n + 1) (v.pushBack x) := by
  obtain ⟨t, d, hv, hh, hl, hvl, hn, ht, hr, hd⟩ := h
  have e : v.pushBack x = ⟨.tree (t.pushBack x), v.len + 1, v.generation + 1⟩ := by
    simp only [PV.pushBack, hv, PV.treePushBack]
  rw [e]
  by_cases hlt : t.tail.length < 64
  · have hd' : (n + 1 - 1) / 64 = (n - 1) / 64 := by omega
    refine ⟨t.pushBack x, d, rfl, ?_⟩
    simp only [Tree.pushBack, LEAF_CAPACITY, if_pos hlt, hd', List.length_append, List.length_singleton]
    exact ⟨hh, by omega, by omega, by omega, by omega, hr, hd⟩
  · have hd' : (n + 1 - 1) / 64 = (n - 1) / 64 + 1 := by omega
    have hne : t.tail.isEmpty = false := by
      rw [List.isEmpty_eq_false_iff]; intro h0; rw [h0] at hlt; simp at hlt
    have hp := hr.pushLeaf t.tail
    have hk : ∀ d', Spine d' (t.root.pushLeaf (.leaf t.tail)) →
        (1 ≤ d' ∧ 2 ≤ kids (t.root.pushLeaf (.leaf t.tail)) ∧ kids (t.root.pushLeaf (.leaf t.tail)) ≤ 32 ∧
          (n - 1) / 64 + 1 = 31 * (d' - 1) + kids (t.root.pushLeaf (.leaf t.tail))) →
        Built (n + 1) ⟨.tree (t.pushBack x), v.len + 1, v.generation + 1⟩ := by
      intro d' h1 h2
      refine ⟨t.pushBack x, d', rfl, ?_⟩
      simp only [Tree.pushBack, LEAF_CAPACITY, if_neg hlt, hd', Tree.pushTailToTree, hne, Bool.false_eq_true, if_false,
        List.nil_append, List.length_singleton]
      exact ⟨hh, by omega, by omega, by omega, by omega, h1, Or.inr h2⟩
    rcases hd with ⟨h1, h0⟩ | ⟨hd1, hk2, hk32, hL⟩
    · obtain ⟨h2, h3⟩ := hp.1 h0
      exact hk 1 h2 (by omega)
    · by_cases h32 : kids t.root < 32
      · obtain ⟨h2, h3⟩ := hp.2.1 (by omega) h32
        exact hk d h2 (by omega)
      · obtain ⟨h2, h3⟩ := hp.2.2 (by omega) h32
        exact hk (d + 1) h2 (by omega)

theorem built_extend (v : PV α) (n : Nat) (h : Built n v) (xs : List α) : Built (n + xs.length) (v.extend xs) := by
  induction xs generalizing v n with
  | nil => exact h
  | cons x xs ih =>
    have := ih _ _ (h.push x)
    simp only [PV.extend, List.foldl_cons, List.length_cons] at this ⊢
    rwa [show n + 1 + xs.length = n + (xs.length + 1) by omega] at this

theorem built_new (xs : List α) (h : 64 < xs.length) : Built xs.length (PV.new.extend xs) := by
  have hsplit : xs = xs.take 64 ++ ([xs[64]] ++ xs.drop 65) := by
    conv_lhs => rw [← List.take_append_drop 64 xs]
    rw [List.drop_eq_getElem_cons h]; rfl
  have hlen : (xs.take 64).length = 64 := by simp; omega
  obtain ⟨g, hg⟩ := PV.extend_small (xs.take 64) (by omega)
  have h65 : Built 65 ((PV.new.extend (xs.take 64)).extend [xs[64]] : PV α) := by
    rw [hg]
    simp only [PV.extend, List.foldl_cons, List.foldl_nil, PV.pushBack, ADAPTIVE_INLINE_SIZE]
    rw [if_neg (by omega)]
    simp only [PV.transitionToTree, PV.treePushBack, Tree.fromElements, LEAF_CAPACITY]
    rw [if_pos (by omega)]
    refine ⟨_, 0, rfl, ?_⟩
    simp only [Tree.pushBack, LEAF_CAPACITY, List.length_nil]
    rw [if_pos (by omega)]
    refine ⟨rfl, by simp; omega, by simp; omega, by omega, by simp, ?_, Or.inl (by simp)⟩
    intro h0; rw [h0] at hlen; simp at hlen
  have := built_extend _ _ h65 (xs.drop 65)
  rw [← PV.extend_append, ← PV.extend_append, ← hsplit] at this
  have hd : (xs.drop 65).length = xs.length - 65 := by simp
  rw [hd, show 65 + (xs.length - 65) = xs.length by omega] at this
  exact this

/-- C96, what `push_back` builds: for a vector made by `n > 64` calls of `push_back`, dropping it, updating its first element
and taking its first element off nest exactly `1 + ((n - 1) / 64 + 29) / 31` deep, and so does every 64th `push_back`, from
`calculate_height` of the new root: the depth grows linearly with the length. -/
theorem c96_push_back_exact (xs : List α) (x : α) (h : 64 < xs.length) :
    (drop (PV.new.extend xs)).depth = 1 + ((xs.length - 1) / 64 + 29) / 31 ∧
    (update (PV.new.extend xs) 0 x).depth = 1 + ((xs.length - 1) / 64 + 29) / 31 ∧
    (popFront (PV.new.extend xs)).depth = 1 + ((xs.length - 1) / 64 + 29) / 31 ∧
    (pushBack (PV.new.extend xs) x).depth =
      if xs.length % 64 = 0 then 1 + (xs.length / 64 + 29) / 31 else 0 := by
  obtain ⟨t, d, hv, hh, hl, hvl, hn, ht, hr, hd⟩ := built_new xs h
  obtain ⟨t', d', hv', hh', hl', hvl', hn', ht', hr', hd'⟩ := (built_new xs h).push x
  have ep : (PV.new.extend xs).pushBack x = ⟨.tree (t.pushBack x), (PV.new.extend xs).len + 1,
      (PV.new.extend xs).generation + 1⟩ := by simp only [PV.pushBack, hv, PV.treePushBack]
  have et : t' = t.pushBack x := by rw [ep] at hv'; cases hv'; rfl
  subst et
  generalize PV.new.extend xs = v at *
  have hdd : d = ((xs.length - 1) / 64 + 29) / 31 := by omega
  have hdd' : d' = (xs.length / 64 + 29) / 31 := by omega
  have hts : 0 < t.treeSize := by simp only [Tree.treeSize, hh, hl, ht, List.length_nil]; omega
  have hdep := hr.depth
  refine ⟨?_, ?_, ?_, ?_⟩
  · have h1 := hr.drop
    have h2 := nodeDrop_depth_le t.root
    simp only [drop, hv]; omega
  · have h1 := hr.update x
    have h2 := nodeUpdate_depth t.root x 0
    simp only [update, hv, hvl, show ¬ 0 ≥ xs.length by omega, if_false, treeUpdate, hl, hh, List.length_nil,
      Nat.not_lt_zero, Nat.sub_zero, hts, if_true, depth_bind, depth_pure]
    omega
  · have h1 := hr.popFront
    have h2 := nodePopFront_depth t.root
    have hz : xs.length ≠ 0 := by omega
    simp only [popFront, PV.isEmpty, hv, hvl, hz, beq_iff_eq, if_false, treePopFront, hl, hh, popFrontFromTree, hts,
      if_true, depth_bind, depth_pure, nodePopFront_val]
    cases t.root.popFront <;> (simp only [depth_pure]; omega)
  · simp only [pushBack, hv, vecTreePushBack, treePushBack, LEAF_CAPACITY, depth_bind, depth_pure]
    by_cases hlt : t.tail.length < 64
    · rw [if_pos hlt, if_neg (by omega)]; simp
    · have hne : t.tail.isEmpty = false := by
        rw [List.isEmpty_eq_false_iff]; intro h0; rw [h0] at hlt; simp at hlt
      rw [if_neg hlt, if_pos (by omega)]
      have h3 : (pushLeaf t.root (.leaf t.tail)).depth = 1 := by
        have h4 : (size (.leaf t.tail)).depth = 1 := by simp [size]
        have h5 := hr.size.1
        generalize t.root = r at *
        match d, r, hr with
        | 0, .leaf fs, _ => simp only [pushLeaf, depth_bind, depth_pure, h4, h5]; omega
        | d + 1, .branch (c :: ls) (some (sz :: szs)), _ =>
          simp only [pushLeaf]
          split <;> (simp only [depth_bind, depth_pure, h4, h5]; omega)
      simp only [Tree.pushBack, LEAF_CAPACITY, if_neg hlt, Tree.pushTailToTree, hne, Bool.false_eq_true, if_false] at hr'
      have h6 := hr'.height
      simp only [pushTailToTree, hne, Bool.false_eq_true, if_false, depth_bind, depth_pure, h3, pushLeaf_val,
        calculateHeight_depth, h6]
      omega

/-- Meets the hypothesis; 100000 elements nest 52 deep, where four levels would do. -/
example : (drop (PV.new.extend (List.replicate 100000 ()))).depth = 52 ∧
    (drop (PV.fromIter (List.replicate 2000 ()))).depth = 2 := by
  have h := c96_push_back_exact (List.replicate 100000 ()) () (by rw [List.length_replicate]; omega)
  rw [List.length_replicate] at h
  exact ⟨h.1, by decide +kernel⟩

/-- C96 is false of the code: no bound `a * log2(len) + b` holds for the nesting of dropping a vector, of `update`, of `pop_front`
or of `push_back`. -/
theorem c96_log_false (f : PV Unit → Nat) (hf : f ∈ [fun v => (drop v).depth, fun v => (update v 0 ()).depth,
      fun v => (popFront v).depth, fun v => (pushBack v ()).depth]) :
    ¬ ∃ a b : Nat, ∀ v : PV Unit, Reach v → f v ≤ a * Nat.log2 v.len + b := by
  rintro ⟨a, b, h⟩
  obtain ⟨m, hm⟩ := PV.exp_beats a b
  have hb : 1 ≤ 2 ^ m := Nat.one_le_two_pow
  have hl : (List.replicate (2048 * 2 ^ m) ()).length = 2048 * 2 ^ m := by simp
  have h1 := c96_push_back_exact (List.replicate (2048 * 2 ^ m) ()) () (by rw [hl]; omega)
  have h2 := h _ (Reach.extend (List.replicate (2048 * 2 ^ m) ()) Reach.new)
  have h3 : (PV.new.extend (List.replicate (2048 * 2 ^ m) ()) : PV Unit).len = 2048 * 2 ^ m := by
    obtain ⟨t, _, _, _, _, h, _⟩ := built_new (List.replicate (2048 * 2 ^ m) ()) (by rw [hl]; omega)
    rw [h, hl]
  have h4 : Nat.log2 (2048 * 2 ^ m) = m + 11 := by
    rw [show 2048 * 2 ^ m = 2 ^ (m + 11) by rw [pow_add]; ring]
    exact Nat.log2_two_pow
  rw [h3, h4] at h2
  rw [hl, if_pos (by omega)] at h1
  simp only [List.mem_cons, List.not_mem_nil, or_false] at hf
  rcases hf with rfl | rfl | rfl | rfl <;> simp only at h2 <;> omega

/-- Meets the hypothesis: dropping. -/
example : (fun v : PV Unit => (drop v).depth) ∈ [fun v : PV Unit => (drop v).depth, fun v => (update v 0 ()).depth,
    fun v => (popFront v).depth, fun v => (pushBack v ()).depth] := List.mem_cons_self

/-- C96 with every call: no call nests deeper than one more than the levels that the calls that made the vector have paid for
(`Costs`), `concat`, `insert` and `remove` three more.  Missing from C96: a logarithmic bound, which is false
(`c96_log_false`). -/
theorem c96_calls_partial {v w : PV α} (hv : PV.Costs p v) (hw : PV.Costs q w) (xs : List α) (i : Nat) (x : α) :
    (drop v).depth ≤ 1 + p / 1984 ∧ (update v i x).depth ≤ 1 + p / 1984 ∧
    (pushBack v x).depth ≤ 1 + p / 1984 ∧ (pushFront v x).depth ≤ 1 + p / 1984 ∧
    (extend v xs).depth ≤ 1 + (p + xs.length) / 1984 ∧
    (popBack v).depth ≤ 1 + p / 1984 ∧ (popFront v).depth ≤ 1 + p / 1984 ∧
    (splitAt v i).depth ≤ 1 + p / 1984 ∧ (take v i).depth ≤ 1 + p / 1984 ∧ (skip v i).depth ≤ 1 + p / 1984 ∧
    (concat v w).depth ≤ 3 + (p + q) / 1984 ∧ (insert v i x).depth ≤ 3 + (2 * p + 1) / 1984 ∧
    (remove v i).depth ≤ 3 + 2 * p / 1984 :=
  ⟨drop_depth hv.paid, update_depth hv.paid i x, pushBack_depth hv.paid x, pushFront_depth hv.paid x,
    extend_depth xs hv.paid, popBack_depth hv.paid, popFront_depth hv.paid, splitAt_depth hv.paid i, take_depth hv.paid i,
    skip_depth hv.paid i, concat_depth hv.paid hw.paid, insert_depth hv.paid i x, remove_depth hv.paid i⟩

/-- Meets the hypotheses. -/
example : PV.Costs (1984 * 2 + 64) (PV.fromIter (List.range 2000)) ∧
    PV.Costs (1984 * 2 + 64 + 1) ((PV.fromIter (List.range 2000)).pushFront 7) :=
  ⟨.fromIter _ 1 (by simp), .pushFront 7 (.fromIter _ 1 (by simp))⟩

/-- C96: counting changes nothing that the calls return. -/
theorem c96_returns (v w : PV α) (xs : List α) (i : Nat) (x : α) :
    (fromIter xs).val = PV.fromIter xs ∧ (extend v xs).val = v.extend xs ∧ (update v i x).val = v.update i x ∧
    (pushBack v x).val = v.pushBack x ∧ (pushFront v x).val = v.pushFront x ∧ (popBack v).val = v.popBack ∧
    (popFront v).val = v.popFront ∧ (splitAt v i).val = v.splitAt i ∧ (take v i).val = v.take i ∧
    (skip v i).val = v.skip i ∧ (concat v w).val = v.concat w ∧ (insert v i x).val = v.insert i x ∧
    (remove v i).val = v.remove i := by
  simp

end Rustica.PVec.Frames
