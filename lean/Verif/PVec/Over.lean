import Verif.PVec.Inv

/-!
# Replacing elements in place

`over f` applies `f` to every stored element and keeps everything else: layout, size tables, height, recorded lengths,
version counter.  It is a specification tool, not part of the Rust code (`PersistentVector::map` builds a new vector).
The lemmas say that every function of `node.rs`, `tree.rs` and `core.rs` commutes with it, i.e. that none of them looks
at an element.
-/

namespace Rustica.PVec

variable {α β γ : Type}

namespace Node

mutual
/-- Apply `f` to the elements of a node. -/
def over (f : α → β) : Node α → Node β
  | .leaf es => .leaf (es.map f)
  | .branch cs s => .branch (overL f cs) s
/-- The same on a list of nodes. -/
def overL (f : α → β) : List (Node α) → List (Node β)
  | [] => []
  | c :: cs => c.over f :: overL f cs
end

theorem overL_eq (f : α → β) (cs : List (Node α)) : overL f cs = cs.map (over f) := by
  induction cs with
  | nil => rfl
  | cons c cs ih => simp [overL, ih]

@[simp] theorem over_leaf (f : α → β) (es : List α) : (leaf es).over f = .leaf (es.map f) := rfl
@[simp] theorem over_branch (f : α → β) (cs : List (Node α)) (s : Option (List Nat)) :
    (branch cs s).over f = .branch (cs.map (over f)) s := by rw [over, overL_eq]

@[simp] theorem size_over (f : α → β) (n : Node α) : (n.over f).calculateSize = n.calculateSize := by
  induction n using induct with
  | hleaf es => simp [calculateSize]
  | hbranch cs s ih =>
    cases s with
    | some s => simp [calculateSize]
    | none =>
      simp only [over_branch, calculateSize]
      induction cs with
      | nil => rfl
      | cons c cs ih' =>
        simp only [List.map_cons, calculateSizeL]
        rw [ih c (by simp), ih' fun d hd => ih d (by simp [hd])]

@[simp] theorem map_size_over (f : α → β) (cs : List (Node α)) :
    (cs.map (over f)).map calculateSize = cs.map calculateSize := by simp

theorem flat_over (f : α → β) (n : Node α) : (n.over f).flat = n.flat.map f := by
  induction n using induct with
  | hleaf es => simp [flat]
  | hbranch cs s ih =>
    simp only [over_branch, flat]
    induction cs with
    | nil => rfl
    | cons c cs ih' =>
      simp only [List.map_cons, flatL, List.map_append]
      rw [ih c (by simp), ih' fun d hd => ih d (by simp [hd])]

@[simp] theorem makeRelaxed_over (f : α → β) (cs : List (Node α)) :
    makeRelaxed (cs.map (over f)) = (makeRelaxed cs).over f := by
  simp [makeRelaxed]

@[simp] theorem findChildRegular_over (f : α → β) (cs : List (Node α)) (i h : Nat) :
    findChildRegular (cs.map (over f)) i h = findChildRegular cs i h := by
  simp [findChildRegular]

@[simp] theorem findChildRelaxed_over (f : α → β) (cs : List (Node α)) (s : Option (List Nat)) (i : Nat) :
    findChildRelaxed (cs.map (over f)) s i = findChildRelaxed cs s i := by
  cases s <;> simp [findChildRelaxed]

theorem get_over (f : α → β) (n : Node α) : ∀ i, (n.over f).get i = (n.get i).map f := by
  induction n using induct with
  | hleaf es => intro i; simp [get]
  | hbranch cs s ih =>
    intro i
    have hL : ∀ j k, getL (cs.map (over f)) j k = (getL cs j k).map f := by
      clear i
      induction cs with
      | nil => intro j k; simp [getL]
      | cons c cs ih' =>
        intro j k
        cases j with
        | zero => simp only [List.map_cons, getL]; exact ih c (by simp) k
        | succ j => simp only [List.map_cons, getL]; exact ih' (fun d hd => ih d (by simp [hd])) j k
    simp only [over_branch, get, findChildRegular_over]
    cases s with
    | some s =>
      simp only
      cases scanSizes s 0 0 i with
      | none => rfl
      | some p => exact hL p.1 p.2
    | none =>
      simp only
      cases findChildRegular cs i 1 with
      | none => rfl
      | some p => exact hL p.1 p.2

theorem update_over (f : α → β) (n : Node α) (x : α) :
    ∀ i, (n.over f).update i (f x) = (n.update i x).over f := by
  induction n using induct with
  | hleaf es =>
    intro i; simp only [over_leaf, update, List.length_map]
    split <;> simp [List.map_set]
  | hbranch cs s ih =>
    intro i
    have hL : ∀ j k, updateL (cs.map (over f)) j k (f x) = (updateL cs j k x).map (over f) := by
      clear i
      induction cs with
      | nil => intro j k; simp [updateL]
      | cons c cs ih' =>
        intro j k
        cases j with
        | zero => simp only [List.map_cons, updateL, List.cons.injEq, and_true]; exact ih c (by simp) k
        | succ j =>
          simp only [List.map_cons, updateL, List.cons.injEq, true_and]
          exact ih' (fun d hd => ih d (by simp [hd])) j k
    simp only [over_branch, update]
    cases findChild s i with
    | none => simp
    | some p => simp only [hL, over_branch]

theorem pushLeaf_over (f : α → β) (n l : Node α) : (n.over f).pushLeaf (l.over f) = (n.pushLeaf l).over f := by
  cases n with
  | leaf es => simp [pushLeaf, calculateSize]
  | branch cs s =>
    simp only [over_branch, pushLeaf, List.length_map, size_over]
    split
    · cases s <;> simp
    · have := size_over f (.branch cs s)
      simp only [over_branch] at this
      simp [this]

theorem pushFrontLeaf_over (f : α → β) (n l : Node α) :
    (n.over f).pushFrontLeaf (l.over f) = (n.pushFrontLeaf l).over f := by
  cases n with
  | leaf es => simp [pushFrontLeaf, calculateSize]
  | branch cs s =>
    simp only [over_branch, pushFrontLeaf, List.length_map, size_over]
    split
    · cases s <;> simp
    · have := size_over f (.branch cs s)
      simp only [over_branch] at this
      simp [this]

/-- A node and an element, both replaced. -/
def both (f : α → β) (p : Node α × α) : Node β × β := (p.1.over f, f p.2)

theorem popBack_over (f : α → β) (n : Node α) : (n.over f).popBack = n.popBack.map (both f) := by
  induction n using induct with
  | hleaf es =>
    simp only [over_leaf, popBack, List.getLast?_map]
    cases es.getLast? <;> simp [both, List.map_dropLast]
  | hbranch cs s ih =>
    have hL : popBackLast (cs.map (over f)) = (popBackLast cs).map (both f) := by
      induction cs with
      | nil => simp [popBackLast]
      | cons c cs ih' =>
        cases cs with
        | nil => simp only [List.map_cons, List.map_nil, popBackLast]; exact ih c (by simp)
        | cons d ds =>
          have := ih' fun e he => ih e (by simp only [List.mem_cons] at he ⊢; exact .inr he)
          simpa only [List.map_cons, popBackLast] using this
    simp only [over_branch, popBack, hL]
    cases popBackLast cs with
    | none => rfl
    | some p =>
      simp only [Option.map_some, both, size_over, List.length_map]
      split
      · simp only [← List.map_dropLast, List.isEmpty_map]
        split <;> simp [both]
      · simp [both, List.map_set]

theorem popFront_over (f : α → β) (n : Node α) : (n.over f).popFront = n.popFront.map (both f) := by
  induction n using induct with
  | hleaf es => cases es <;> simp [popFront, both]
  | hbranch cs s ih =>
    cases cs with
    | nil => simp [popFront]
    | cons c cs =>
      simp only [over_branch, List.map_cons, popFront, ih c (by simp)]
      cases c.popFront with
      | none => rfl
      | some p =>
        simp only [Option.map_some, both, size_over]
        split
        · simp only [List.isEmpty_map]
          split <;> simp [both]
        · simp [both]

end Node

theorem chunksAux_map (f : α → β) (n : Nat) : ∀ k (xs : List α),
    chunksAux n k (xs.map f) = (chunksAux n k xs).map (List.map f)
  | 0, _ => rfl
  | k + 1, xs => by
    simp only [chunksAux, List.isEmpty_map, ← List.map_take, ← List.map_drop, chunksAux_map f n k]
    split <;> simp

theorem chunks_map (f : α → β) (n : Nat) (xs : List α) :
    chunks n (xs.map f) = (chunks n xs).map (List.map f) := by
  simp [chunks, chunksAux_map]

namespace Tree

/-- Apply `f` to the elements of a tree. -/
def over (f : α → β) (t : Tree α) : Tree β := ⟨t.root.over f, t.tail.map f, t.head.map f, t.height, t.len⟩

@[simp] theorem root_over (f : α → β) (t : Tree α) : (t.over f).root = t.root.over f := rfl
@[simp] theorem tail_over (f : α → β) (t : Tree α) : (t.over f).tail = t.tail.map f := rfl
@[simp] theorem head_over (f : α → β) (t : Tree α) : (t.over f).head = t.head.map f := rfl
@[simp] theorem height_over (f : α → β) (t : Tree α) : (t.over f).height = t.height := rfl
@[simp] theorem len_over (f : α → β) (t : Tree α) : (t.over f).len = t.len := rfl
@[simp] theorem treeSize_over (f : α → β) (t : Tree α) : (t.over f).treeSize = t.treeSize := by
  simp [treeSize]

theorem buildTreeRecursive_over (f : α → β) : ∀ k (ns : List (Node α)),
    buildTreeRecursive k (ns.map (Node.over f)) =
      ((buildTreeRecursive k ns).1.over f, (buildTreeRecursive k ns).2)
  | 0, _ => by simp [buildTreeRecursive]
  | k + 1, ns => by
    match ns with
    | [n] => simp [buildTreeRecursive]
    | [] =>
      have := buildTreeRecursive_over f k []
      simp only [List.map_nil] at this
      simp only [buildTreeRecursive, List.map_nil, chunks, chunksAux, List.length_nil, this]
    | n :: m :: ns =>
      have := buildTreeRecursive_over f k ((chunks BRANCHING_FACTOR (n :: m :: ns)).map Node.makeRelaxed)
      have hc := chunks_map (Node.over f) BRANCHING_FACTOR (n :: m :: ns)
      simp only [List.map_cons] at hc
      simp only [buildTreeRecursive, List.map_cons, hc]
      rw [List.map_map, show Node.makeRelaxed ∘ List.map (Node.over f) = Node.over f ∘ Node.makeRelaxed from
        funext fun cs => by simp, ← List.map_map, this]

theorem buildTreeWithTail_over (f : α → β) (es : List α) :
    buildTreeWithTail (es.map f) = (buildTreeWithTail es).over f := by
  simp only [buildTreeWithTail, List.length_map, ← List.map_take, ← List.map_drop, List.isEmpty_map, chunks_map]
  split
  · simp [over]
  · simp only [List.map_map]
    rw [show Node.leaf ∘ List.map f = Node.over f ∘ Node.leaf from funext fun cs => by simp, ← List.map_map,
      buildTreeRecursive_over]
    simp [over]

theorem fromElements_over (f : α → β) (es : List α) : fromElements (es.map f) = (fromElements es).over f := by
  simp only [fromElements, List.length_map, buildTreeWithTail_over]
  split <;> simp [over]

theorem getFromNode_over (f : α → β) (n : Node α) :
    ∀ i h, getFromNode (n.over f) i h = (getFromNode n i h).map f := by
  induction n using Node.induct with
  | hleaf es => intro i h; simp [getFromNode]
  | hbranch cs s ih =>
    intro i h
    have hL : ∀ j k h, getFromNodeL (cs.map (Node.over f)) j k h = (getFromNodeL cs j k h).map f := by
      clear i h
      induction cs with
      | nil => intro j k h; simp [getFromNodeL]
      | cons c cs ih' =>
        intro j k h
        cases j with
        | zero => simp only [List.map_cons, getFromNodeL]; exact ih c (by simp) k h
        | succ j => simp only [List.map_cons, getFromNodeL]; exact ih' (fun d hd => ih d (by simp [hd])) j k h
    simp only [Node.over_branch, getFromNode, Node.findChildRegular_over]
    cases s with
    | some s =>
      simp only
      cases Node.scanSizes s 0 0 i with
      | none => rfl
      | some p => exact hL p.1 p.2 _
    | none =>
      simp only
      cases Node.findChildRegular cs i (h - 1) with
      | none => rfl
      | some p => exact hL p.1 p.2 _

theorem get_over (f : α → β) (t : Tree α) (i : Nat) : (t.over f).get i = (t.get i).map f := by
  simp only [get, len_over, head_over, List.length_map, treeSize_over, tail_over, getFromTree, root_over,
    height_over, getFromNode_over, List.getElem?_map]
  split
  · rfl
  · split
    · rfl
    · split <;> rfl

theorem update_over (f : α → β) (t : Tree α) (i : Nat) (x : α) :
    (t.over f).update i (f x) = (t.update i x).over f := by
  simp only [update, len_over, head_over, List.length_map, treeSize_over, tail_over, root_over, Node.update_over]
  split
  · rfl
  · split
    · simp [over, List.map_set]
    · split
      · simp [over]
      · simp only [over, Tree.mk.injEq, true_and, and_true]
        split <;> simp [List.map_set]

@[simp] theorem calculateHeight_over (f : α → β) (n : Node α) : calculateHeight (n.over f) = calculateHeight n := by
  induction n using Node.induct with
  | hleaf es => simp [calculateHeight]
  | hbranch cs s ih =>
    cases cs with
    | nil => simp [calculateHeight]
    | cons c cs => simp [calculateHeight, ih c]

theorem pushTailToTree_over (f : α → β) (t : Tree α) : (t.over f).pushTailToTree = t.pushTailToTree.over f := by
  simp only [pushTailToTree, tail_over, List.isEmpty_map, root_over, head_over, len_over]
  split
  · rfl
  · rw [← Node.over_leaf, Node.pushLeaf_over]; simp [over]

theorem pushHeadToTree_over (f : α → β) (t : Tree α) : (t.over f).pushHeadToTree = t.pushHeadToTree.over f := by
  simp only [pushHeadToTree, tail_over, List.isEmpty_map, root_over, head_over, len_over]
  split
  · rfl
  · rw [← Node.over_leaf, Node.pushFrontLeaf_over]; simp [over]

theorem pushBack_over (f : α → β) (t : Tree α) (x : α) : (t.over f).pushBack (f x) = (t.pushBack x).over f := by
  simp only [pushBack, tail_over, List.length_map, pushTailToTree_over]
  split <;> simp [over]

theorem pushFront_over (f : α → β) (t : Tree α) (x : α) : (t.over f).pushFront (f x) = (t.pushFront x).over f := by
  simp only [pushFront, head_over, List.length_map, pushHeadToTree_over]
  split <;> simp [over]

theorem concatNodes_over (f : α → β) (n : Node α) :
    ∀ m, concatNodes (n.over f) (m.over f) = (concatNodes n m).over f := by
  induction n using Node.induct with
  | hleaf es =>
    intro m
    cases m with
    | leaf fs =>
      simp only [Node.over_leaf, concatNodes, ← List.map_append, List.length_map, ← List.map_take, ← List.map_drop]
      split
      · simp
      · rw [← Node.makeRelaxed_over]; simp
    | branch ds t =>
      simp only [Node.over_leaf, Node.over_branch, concatNodes]
      rw [← Node.makeRelaxed_over]; simp
  | hbranch cs s ih =>
    intro m
    have hL : ∀ d, concatLast (cs.map (Node.over f)) (d.over f) = (concatLast cs d).map (Node.over f) := by
      intro d
      induction cs with
      | nil => simp [concatLast]
      | cons c cs ih' =>
        cases cs with
        | nil => simp only [List.map_cons, List.map_nil, concatLast, Option.map_some]; rw [ih c (by simp)]
        | cons e es =>
          have := ih' fun e he => ih e (by simp only [List.mem_cons] at he ⊢; exact .inr he)
          simpa only [List.map_cons, concatLast] using this
    cases m with
    | leaf fs =>
      simp only [Node.over_leaf, Node.over_branch, concatNodes]
      rw [← Node.makeRelaxed_over]; simp
    | branch ds t =>
      simp only [Node.over_branch, concatNodes]
      rw [← Node.makeRelaxed_over]
      cases ds with
      | nil => simp [List.map_dropLast]
      | cons d ds =>
        simp only [List.map_cons, hL]
        cases concatLast cs d <;> simp [List.map_dropLast]

theorem concatSameHeight_over (f : α → β) (t u : Tree α) :
    (t.over f).concatSameHeight (u.over f) = (t.concatSameHeight u).over f := by
  simp only [concatSameHeight, tail_over, head_over, List.isEmpty_map, pushTailToTree_over, pushHeadToTree_over,
    height_over, len_over]
  split <;> split <;> simp [over, concatNodes_over]

theorem elevateRoot_over (f : α → β) : ∀ k (n : Node α), elevateRoot k (n.over f) = (elevateRoot k n).over f
  | 0, _ => rfl
  | k + 1, n => by
    simp only [elevateRoot, Node.size_over]
    rw [← elevateRoot_over f k]; simp

theorem elevateTree_over (f : α → β) (t : Tree α) (h : Nat) :
    elevateTree (t.over f) h = (elevateTree t h).over f := by
  simp [elevateTree, over, elevateRoot_over]

theorem concat_over (f : α → β) (t u : Tree α) : (t.over f).concat (u.over f) = (t.concat u).over f := by
  simp only [concat, concatDifferentHeight, len_over, height_over, elevateTree_over, concatSameHeight_over]
  split
  · rfl
  · split
    · rfl
    · split
      · rfl
      · split <;> rfl

/-- A tree and an element, both replaced. -/
def both (f : α → β) (p : Tree α × α) : Tree β × β := (p.1.over f, f p.2)

theorem popFromTree_over (f : α → β) (t : Tree α) : (t.over f).popFromTree = t.popFromTree.map (both f) := by
  simp only [popFromTree, len_over, tail_over, List.length_map, root_over, Node.get_over, Node.popBack_over,
    height_over, head_over]
  split
  · rfl
  · split
    · rfl
    · cases t.root.get (t.len - t.tail.length - 1) with
      | none => rfl
      | some x =>
        simp only [Option.map_some]
        split
        · simp [both, over]
        · cases t.root.popBack <;> simp [both, over, Node.both]

theorem popBack_over (f : α → β) (t : Tree α) : (t.over f).popBack = t.popBack.map (both f) := by
  simp only [popBack, len_over, tail_over, List.getLast?_map, popFromTree_over]
  split
  · rfl
  · cases t.tail.getLast? <;> simp [both, over, List.map_dropLast]

theorem popFrontFromTail_over (f : α → β) (t : Tree α) :
    (t.over f).popFrontFromTail = t.popFrontFromTail.map (both f) := by
  simp only [popFrontFromTail, tail_over, ← List.map_reverse, List.getLast?_map, len_over]
  cases t.tail.reverse.getLast? <;> simp [both, over]

theorem popFrontFromTree_over (f : α → β) (t : Tree α) :
    (t.over f).popFrontFromTree = t.popFrontFromTree.map (both f) := by
  simp only [popFrontFromTree, treeSize_over, root_over, Node.popFront_over, popFrontFromTail_over, len_over]
  split
  · cases t.root.popFront <;> simp [both, over, Node.both]
  · rfl

theorem popFront_over (f : α → β) (t : Tree α) : (t.over f).popFront = t.popFront.map (both f) := by
  simp only [popFront, len_over, head_over, popFrontFromTree_over]
  split
  · rfl
  · cases t.head <;> simp [both, over]

theorem findPath_over (f : α → β) (n : Node α) : ∀ h i, findPath (n.over f) h i = findPath n h i := by
  induction n using Node.induct with
  | hleaf es => intro h i; simp [findPath]
  | hbranch cs s ih =>
    intro h i
    have hL : ∀ j h k, findPathL (cs.map (Node.over f)) j h k = findPathL cs j h k := by
      clear i h
      induction cs with
      | nil => intro j h k; simp [findPathL]
      | cons c cs ih' =>
        intro j h k
        cases j with
        | zero => simp only [List.map_cons, findPathL]; exact ih c (by simp) h k
        | succ j => simp only [List.map_cons, findPathL]; exact ih' (fun d hd => ih d (by simp [hd])) j h k
    simp only [Node.over_branch, findPath, Node.findChildRegular_over, hL]

theorem createLeftBranch_over (f : α → β) (cs : List (Node α)) (i : Nat) (n : Node α) :
    createLeftBranch (cs.map (Node.over f)) i (n.over f) = (createLeftBranch cs i n).over f := by
  have : (if n.calculateSize > 0 then [n.over f] else []) = (if n.calculateSize > 0 then [n] else []).map (Node.over f) := by
    split <;> rfl
  simp only [createLeftBranch, Node.size_over, this, ← List.map_take, ← List.map_append, List.isEmpty_map]
  generalize cs.take i ++ _ = ds
  split <;> simp

theorem createRightBranch_over (f : α → β) (cs : List (Node α)) (i : Nat) (n : Node α) :
    createRightBranch (cs.map (Node.over f)) i (n.over f) = (createRightBranch cs i n).over f := by
  have : (if n.calculateSize > 0 then [n.over f] else []) = (if n.calculateSize > 0 then [n] else []).map (Node.over f) := by
    split <;> rfl
  simp only [createRightBranch, Node.size_over, this, ← List.map_drop, ← List.map_append, List.isEmpty_map]
  generalize _ ++ cs.drop (i + 1) = ds
  split <;> simp

theorem splitAlongPath_over (f : α → β) (n : Node α) : ∀ p i h,
    splitAlongPath (n.over f) p i h = ((splitAlongPath n p i h).1.over f, (splitAlongPath n p i h).2.over f) := by
  induction n using Node.induct with
  | hleaf es => intro p i h; simp [splitAlongPath]
  | hbranch cs s ih =>
    intro p i h
    have hL : ∀ j p i h, splitChild (cs.map (Node.over f)) j p i h =
        (splitChild cs j p i h).map fun q => (q.1.over f, q.2.over f) := by
      clear p i h
      induction cs with
      | nil => intro j p i h; simp [splitChild]
      | cons c cs ih' =>
        intro j p i h
        cases j with
        | zero => simp only [List.map_cons, splitChild, Option.map_some]; rw [ih c (by simp)]
        | succ j => simp only [List.map_cons, splitChild]; exact ih' (fun d hd => ih d (by simp [hd])) j p i h
    cases p with
    | nil =>
      simp only [Node.over_branch, splitAlongPath, hL]
      cases splitChild cs 0 [] i (h - 1) <;> simp
    | cons j p =>
      simp only [Node.over_branch, splitAlongPath, hL]
      cases splitChild cs j p (calculateAdjustedIndex i j s (h - 1)) (h - 1) with
      | none => simp
      | some q => simp only [Option.map_some, createLeftBranch_over, createRightBranch_over]

theorem splitAt_over (f : α → β) (t : Tree α) (i : Nat) :
    (t.over f).splitAt i = ((t.splitAt i).1.over f, (t.splitAt i).2.over f) := by
  simp only [splitAt, len_over, head_over, List.length_map, treeSize_over, splitTreeAt, root_over, height_over,
    findPath_over, splitAlongPath_over, tail_over, ← List.map_take, ← List.map_drop]
  split
  · simp [empty, over]
  · split
    · simp [empty, over]
    · split
      · simp [fromHead, fromHeadAndTreeAndTail, over]
      · split
        · simp [fromTail, fromHeadAndTreeAndTail, over]
        · simp [fromHeadAndRoot, fromRootAndTail, over]

end Tree

namespace PV

/-- Apply `f` to the elements of a vector where they are stored. -/
def over (f : α → β) (v : PV α) : PV β :=
  ⟨match v.inner with
    | .inline es => .inline (es.map f)
    | .tree t => .tree (t.over f), v.len, v.generation⟩

@[simp] theorem len_over (f : α → β) (v : PV α) : (v.over f).len = v.len := rfl
@[simp] theorem generation_over (f : α → β) (v : PV α) : (v.over f).generation = v.generation := rfl

theorem abs_over (f : α → β) (v : PV α) : (v.over f).abs = v.abs.map f := by
  rcases v with ⟨inner, len, gen⟩
  cases inner <;> simp [over, abs, Tree.toList, Node.flat_over]

theorem over_id (v : PV α) : v.over id = v := by
  have hn : ∀ n : Node α, n.over id = n := by
    intro n
    induction n using Node.induct with
    | hleaf es => simp
    | hbranch cs s ih =>
      simp only [Node.over_branch, Node.branch.injEq, and_true]
      conv => rhs; rw [← List.map_id cs]
      exact List.map_congr_left ih
  rcases v with ⟨inner, len, gen⟩
  cases inner <;> simp [over, Tree.over, hn]

theorem over_over (f : α → β) (g : β → γ) (v : PV α) : (v.over f).over g = v.over (g ∘ f) := by
  have hn : ∀ n : Node α, (n.over f).over g = n.over (g ∘ f) := by
    intro n
    induction n using Node.induct with
    | hleaf es => simp
    | hbranch cs s ih =>
      simp only [Node.over_branch, Node.branch.injEq, and_true, List.map_map]
      exact List.map_congr_left ih
  rcases v with ⟨inner, len, gen⟩
  cases inner <;> simp [over, Tree.over, hn]

end PV
end Rustica.PVec
