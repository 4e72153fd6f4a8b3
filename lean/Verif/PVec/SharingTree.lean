import Verif.PVec.Sharing
import Verif.PVec.TreeLemmas

/-!
# Trees and vectors in memory

`Sharing.lean`, continued: the functions of `tree.rs` and `core.rs` in memory do the same as on values.
-/

namespace Rustica.PVec.Heap

variable {α : Type}

/-- The tree in memory is the given tree. -/
def TreeAt (h : Mem α) (P : Nat → Prop) (t : Tree α) (m : TreeM α) : Prop :=
  ∃ a, m = ⟨a, t.tail, t.head, t.height, t.len⟩ ∧ At h P t.root a

theorem TreeAt.mono {h h' : Mem α} {P : Nat → Prop} {t : Tree α} {m : TreeM α} (w : TreeAt h P t m) (hp : h <+: h') :
    TreeAt h' P t m := by
  obtain ⟨a, rfl, w⟩ := w
  exact ⟨a, rfl, w.mono hp⟩

theorem leaf_at {h : Mem α} {P : Nat → Prop} (hP : Above P h) (es : List α) :
    At (h ++ [.leaf es]) P (.leaf es) h.length := At.new (b := 0) rfl (Nat.zero_le _) hP

/-- A function made a tree from memory `h`, with at most `k` new cells. -/
structure Built (h : Mem α) (P : Nat → Prop) (k : Nat) (t : Tree α) (r : Mem α × TreeM α) : Prop where
  grows : h <+: r.1
  tree : TreeAt r.1 P t r.2
  cells : r.1.length ≤ h.length + k

/-! ## Building a tree from its elements -/

theorem chunksAux_at {h : Mem α} {P : Nat → Prop} (k : Nat) : ∀ (f : Nat) {ns : List (Node α)} {as : List Nat},
    AtL h P ns as → List.Forall₂ (AtL h P) (chunksAux k f ns) (chunksAux k f as) := by
  intro f
  induction f with
  | zero => intro ns as _; exact .nil
  | succ f ih =>
    intro ns as w
    simp only [chunksAux, w.isEmpty]
    split
    · exact .nil
    · exact .cons (w.take k) (ih (w.drop k))

theorem chunks_at {h : Mem α} {P : Nat → Prop} (k : Nat) {ns : List (Node α)} {as : List Nat} (w : AtL h P ns as) :
    List.Forall₂ (AtL h P) (chunks k ns) (chunks k as) := by
  simp only [chunks, w.length]
  exact chunksAux_at k _ w

theorem buildLevel_at {P : Nat → Prop} {css : List (List (Node α))} {ass : List (List Nat)} :
    ∀ {h : Mem α}, Above P h → List.Forall₂ (AtL h P) css ass →
      h <+: (buildLevel h ass).1 ∧ AtL (buildLevel h ass).1 P (css.map Node.makeRelaxed) (buildLevel h ass).2 ∧
        (buildLevel h ass).1.length = h.length + css.length := by
  induction css generalizing ass with
  | nil =>
    intro h _ w
    cases w
    exact ⟨List.prefix_refl _, .nil, rfl⟩
  | cons cs css ih =>
    intro h hP w
    cases w with
    | @cons _ as _ ass w1 w2 =>
      have hg : h <+: h ++ [makeRelaxed h as] := List.prefix_append _ _
      obtain ⟨i1, i2, i3⟩ := ih (hP.mono hg) (w2.imp fun _ _ (hh : AtL h P _ _) => hh.mono hg)
      have hn : At (h ++ [makeRelaxed h as]) P (Node.makeRelaxed cs) h.length :=
        At.new w1.makeRelaxed (Nat.le_refl _) hP
      refine ⟨hg.trans i1, .cons (hn.mono i1) i2, ?_⟩
      simp only [buildLevel]
      rw [i3]
      simp; omega

theorem buildTreeRecursive_at {P : Nat → Prop} : ∀ (f : Nat) {h : Mem α} {ns : List (Node α)} {as : List Nat},
    Above P h → AtL h P ns as →
      h <+: (buildTreeRecursive f h as).1 ∧
      At (buildTreeRecursive f h as).1 P (Tree.buildTreeRecursive f ns).1 (buildTreeRecursive f h as).2.1 ∧
      (buildTreeRecursive f h as).2.2 = (Tree.buildTreeRecursive f ns).2 ∧
      (0 < ns.length → ns.length ≤ f → (buildTreeRecursive f h as).1.length + 1 ≤ h.length + ns.length) := by
  intro f
  induction f with
  | zero =>
    intro h ns as hP w
    exact ⟨List.prefix_append _ _, leaf_at hP [], rfl, fun h1 h2 => by omega⟩
  | succ f ih =>
    intro h ns as hP w
    by_cases h1 : ∃ n, ns = [n]
    · obtain ⟨n, rfl⟩ := h1
      cases w with
      | cons w1 w2 =>
        cases w2
        exact ⟨List.prefix_refl _, w1, rfl, fun _ _ => by simp [buildTreeRecursive]⟩
    · have e1 : Tree.buildTreeRecursive (f + 1) ns =
          ((Tree.buildTreeRecursive f ((chunks BRANCHING_FACTOR ns).map Node.makeRelaxed)).1,
           (Tree.buildTreeRecursive f ((chunks BRANCHING_FACTOR ns).map Node.makeRelaxed)).2 + 1) := by
        match ns, h1 with
        | [], _ => rfl
        | [n], h1 => exact absurd ⟨n, rfl⟩ h1
        | _ :: _ :: _, _ => rfl
      have e2 : buildTreeRecursive (f + 1) h as =
          ((buildTreeRecursive f (buildLevel h (chunks BRANCHING_FACTOR as)).1
              (buildLevel h (chunks BRANCHING_FACTOR as)).2).1,
           (buildTreeRecursive f (buildLevel h (chunks BRANCHING_FACTOR as)).1
              (buildLevel h (chunks BRANCHING_FACTOR as)).2).2.1,
           (buildTreeRecursive f (buildLevel h (chunks BRANCHING_FACTOR as)).1
              (buildLevel h (chunks BRANCHING_FACTOR as)).2).2.2 + 1) := by
        match as, ns, w, h1 with
        | [], _, _, _ => rfl
        | [a], _, .cons (a := n) _ .nil, h1 => exact absurd ⟨n, rfl⟩ h1
        | _ :: _ :: _, _, _, _ => rfl
      rw [e1, e2]
      obtain ⟨l1, l2, l3⟩ := buildLevel_at hP (chunks_at BRANCHING_FACTOR w)
      obtain ⟨i1, i2, i3, i4⟩ := ih (hP.mono l1) l2
      refine ⟨l1.trans i1, i2, by dsimp only; rw [i3], fun h2 h3 => ?_⟩
      have hl : (chunks BRANCHING_FACTOR ns).length = (ns.length + 32 - 1) / 32 := chunks_length (n := 32) (by omega) ns
      have h4 : ns.length ≠ 1 := fun h4 => h1 (List.length_eq_one_iff.mp h4)
      rw [List.length_map, hl] at i4
      have := i4 (by omega) (by omega)
      rw [l3, hl] at this
      dsimp only
      omega

theorem leaves_at {P : Nat → Prop} (ess : List (List α)) : ∀ {h : Mem α}, Above P h →
    AtL (h ++ ess.map Cell.leaf) P (ess.map Node.leaf) ((List.range ess.length).map (h.length + ·)) := by
  induction ess with
  | nil => intro h _; exact .nil
  | cons es ess ih =>
    intro h hP
    have hg : h <+: h ++ [Cell.leaf es] := List.prefix_append _ _
    have i := ih (hP.mono hg)
    have el : h ++ (es :: ess).map Cell.leaf = (h ++ [Cell.leaf es]) ++ ess.map Cell.leaf := by simp
    rw [el, List.length_cons, List.range_succ_eq_map, List.map_cons, List.map_cons, List.map_map]
    refine .cons ?_ ?_
    · exact (leaf_at hP es).mono (List.prefix_append _ _)
    · have : (fun x => h.length + x) ∘ Nat.succ = fun x => (h ++ [Cell.leaf es]).length + x := by
        funext x; simp; omega
      rw [this]
      exact i

theorem fromElements_built {h : Mem α} {P : Nat → Prop} (hP : Above P h) (xs : List α) :
    Built h P (xs.length / 32 + 1) (Tree.fromElements xs) (fromElements h xs) := by
  simp only [fromElements, Tree.fromElements]
  split
  · exact ⟨List.prefix_append _ _, ⟨_, rfl, leaf_at hP xs⟩, by simp⟩
  · rename_i hx
    simp only [buildTreeWithTail, Tree.buildTreeWithTail]
    split
    · exact ⟨List.prefix_append _ _, ⟨_, rfl, leaf_at hP []⟩, by simp⟩
    · rename_i he
      simp only [LEAF_CAPACITY] at hx he ⊢
      generalize hte : List.take (xs.length / 64 * 64) xs = te at he ⊢
      have hlen : te.length = xs.length / 64 * 64 := by
        rw [← hte, List.length_take]; omega
      have hc : (chunks 64 te).length = xs.length / 64 := by
        rw [chunks_length (n := 64) (by omega), hlen]; omega
      have hg : h <+: h ++ (chunks 64 te).map Cell.leaf := List.prefix_append _ _
      obtain ⟨i1, i2, i3, i4⟩ := buildTreeRecursive_at ((chunks 64 te).map Cell.leaf).length (hP.mono hg)
        (leaves_at (chunks 64 te) hP)
      simp only [List.length_map] at i1 i2 i3 i4 ⊢
      refine ⟨hg.trans i1, ⟨_, by rw [i3], i2⟩, ?_⟩
      have := i4 (by omega) (by omega)
      simp only [List.length_append, List.length_map] at this
      dsimp only
      omega

/-! ## The functions of `tree.rs` -/

theorem getFromNode_eq {h : Mem α} {P : Nat → Prop} (n : Node α) :
    ∀ {b f : Nat} {c : Cell α}, Shows h P b n c → b ≤ f → ∀ i ht, getFromNode h f c i ht = Tree.getFromNode n i ht := by
  induction n using Node.induct with
  | hleaf es => intro b f c hs _ i ht; cases hs; cases f <;> rfl
  | hbranch cs s ih =>
    intro b f c hs hb i ht
    obtain ⟨as, rfl, hl⟩ := hs
    have hat := hl.at
    simp only [Tree.getFromNode, getFromNodeL_get]
    cases f with
    | zero =>
      simp only [getFromNode]
      split
      · rename_i k j _
        rcases hl.get k with ⟨n, a, e1, e2, e3, e4⟩ | ⟨e1, e2⟩
        · omega
        · simp only [e1, Option.bind_none]
      · rfl
    | succ f =>
      simp only [getFromNode, hat.length, findChildRegular_eq]
      have key : ∀ o : Option (Nat × Nat),
          (match o with
            | some (k, j) => (match as[k]? with
              | some a => getFromNode h f (cell h a) j (ht - 1)
              | none => none)
            | none => none) =
          (match o with
            | some (k, j) => cs[k]?.bind fun n => Tree.getFromNode n j (ht - 1)
            | none => none) := by
        rintro (_ | ⟨k, j⟩)
        · rfl
        · dsimp only
          rcases hl.get k with ⟨n, a, e1, e2, e3, e4⟩ | ⟨e1, e2⟩
          · simp only [e1, e2, Option.bind_some]
            exact ih n (List.mem_of_getElem? e1) e4.cell (by omega) j _
          · simp only [e1, e2, Option.bind_none]
      cases s <;> exact key _

theorem TreeAt.get {h : Mem α} {P : Nat → Prop} {t : Tree α} {m : TreeM α} (w : TreeAt h P t m) (i : Nat) :
    m.get h i = t.get i := by
  obtain ⟨a, rfl, w⟩ := w
  simp only [TreeM.get, Tree.get, TreeM.treeSize, Tree.treeSize, Tree.getFromTree]
  rw [getFromNode_eq t.root w.cell (Nat.le_refl _)]
  rfl

theorem calculateHeight_eq {h : Mem α} {P : Nat → Prop} (n : Node α) :
    ∀ {b f : Nat} {c : Cell α}, Shows h P b n c → b ≤ f → calculateHeight h f c = Tree.calculateHeight n := by
  induction n using Node.induct with
  | hleaf es => intro b f c hs _; cases hs; cases f <;> simp [calculateHeight, Tree.calculateHeight]
  | hbranch cs s ih =>
    intro b f c hs hb
    obtain ⟨as, rfl, hl⟩ := hs
    cases cs with
    | nil => cases hl; cases f <;> simp [calculateHeight, Tree.calculateHeight]
    | cons n ns =>
      obtain ⟨a, rest, c', rfl, e2, e3, e4, e5, e6⟩ := hl
      obtain ⟨f, rfl⟩ : ∃ f', f = f' + 1 := ⟨f - 1, by omega⟩
      simp only [calculateHeight, Tree.calculateHeight]
      have : At h P n a := ⟨e3, c', e4, e5⟩
      rw [ih n (by simp) this.cell (by omega)]

theorem At.height {h : Mem α} {P : Nat → Prop} {n : Node α} {a : Nat} (w : At h P n a) :
    heightAt h a = Tree.calculateHeight n := calculateHeight_eq n w.cell (Nat.le_refl _)

/-- The number of cells that `update` of a tree takes (tree.rs:160-203): none in the head and the tail. -/
def treeCopies (t : Tree α) (index : Nat) : Nat :=
  if index < t.len ∧ t.head.length ≤ index ∧ index - t.head.length < t.treeSize then
    copies t.root (index - t.head.length) + 1
  else 0

theorem update_built {h : Mem α} {P : Nat → Prop} (hP : Above P h) {t : Tree α} {m : TreeM α} (w : TreeAt h P t m)
    (i : Nat) (x : α) :
    Built h P (treeCopies t i) (t.update i x) (m.update h i x) ∧
      (m.update h i x).1.length = h.length + treeCopies t i := by
  suffices hh : (h <+: (m.update h i x).1 ∧ TreeAt (m.update h i x).1 P (t.update i x) (m.update h i x).2) ∧
      (m.update h i x).1.length = h.length + treeCopies t i from ⟨⟨hh.1.1, hh.1.2, Nat.le_of_eq hh.2⟩, hh.2⟩
  obtain ⟨a, rfl, w⟩ := w
  have ts : TreeM.treeSize (⟨a, t.tail, t.head, t.height, t.len⟩ : TreeM α) = t.treeSize := rfl
  simp only [TreeM.update, Tree.update, ts]
  by_cases h1 : i ≥ t.len
  · have tc : treeCopies t i = 0 := if_neg (by omega)
    rw [if_pos h1, if_pos h1, tc]
    exact ⟨⟨List.prefix_refl _, a, rfl, w⟩, rfl⟩
  rw [if_neg h1, if_neg h1]
  by_cases h2 : i < t.head.length
  · have tc : treeCopies t i = 0 := if_neg (by omega)
    rw [if_pos h2, if_pos h2, tc]
    exact ⟨⟨List.prefix_refl _, a, rfl, w⟩, rfl⟩
  rw [if_neg h2, if_neg h2]
  by_cases h3 : i - t.head.length < t.treeSize
  · have tc : treeCopies t i = copies t.root (i - t.head.length) + 1 := if_pos (by omega)
    rw [if_pos h3, if_pos h3, tc]
    obtain ⟨m, hl⟩ := update_made hP t.root w.cell (Nat.le_refl _) (Nat.le_of_lt w.lt) (i - t.head.length) x
    refine ⟨⟨m.grows.trans (List.prefix_append _ _), _, rfl, m.at hP⟩, ?_⟩
    dsimp only
    rw [List.length_append, hl, List.length_singleton]
    omega
  · have tc : treeCopies t i = 0 := if_neg (by omega)
    rw [if_neg h3, if_neg h3, tc]
    exact ⟨⟨List.prefix_refl _, a, rfl, w⟩, rfl⟩

theorem pushTailToTree_built {h : Mem α} {P : Nat → Prop} (hP : Above P h) {t : Tree α} {m : TreeM α}
    (w : TreeAt h P t m) : Built h P 4 t.pushTailToTree (m.pushTailToTree h) := by
  obtain ⟨a, rfl, w⟩ := w
  simp only [TreeM.pushTailToTree, Tree.pushTailToTree]
  split
  · exact ⟨List.prefix_refl _, ⟨a, rfl, w⟩, by simp⟩
  · have hg : h <+: h ++ [Cell.leaf t.tail] := List.prefix_append _ _
    obtain ⟨m, hl⟩ := pushLeaf_made (hP.mono hg) (w.mono hg) (leaf_at hP t.tail)
    have h1 := m.at (hP.mono hg)
    have h2 : At ((pushLeaf (h ++ [Cell.leaf t.tail]) a h.length).1 ++
        [(pushLeaf (h ++ [Cell.leaf t.tail]) a h.length).2] ++
        [(pushLeaf (h ++ [Cell.leaf t.tail]) a h.length).2]) P (t.root.pushLeaf (.leaf t.tail)) _ :=
      At.new (m.shows.mono _ (List.prefix_append _ _) (Nat.le_refl _)) (by simp)
        ((hP.mono hg).mono (m.grows.trans (List.prefix_append _ _)))
    refine ⟨?_, ⟨_, by rw [h1.height], h2⟩, ?_⟩
    · exact hg.trans (m.grows.trans ((List.prefix_append _ _).trans (List.prefix_append _ _)))
    · simp only [List.length_append, List.length_singleton] at hl ⊢; omega

theorem pushHeadToTree_built {h : Mem α} {P : Nat → Prop} (hP : Above P h) {t : Tree α} {m : TreeM α}
    (w : TreeAt h P t m) : Built h P 4 t.pushHeadToTree (m.pushHeadToTree h) := by
  obtain ⟨a, rfl, w⟩ := w
  simp only [TreeM.pushHeadToTree, Tree.pushHeadToTree]
  split
  · exact ⟨List.prefix_refl _, ⟨a, rfl, w⟩, by simp⟩
  · have hg : h <+: h ++ [Cell.leaf t.head] := List.prefix_append _ _
    obtain ⟨m, hl⟩ := pushFrontLeaf_made (hP.mono hg) (w.mono hg) (leaf_at hP t.head)
    have h1 := m.at (hP.mono hg)
    have h2 : At ((pushFrontLeaf (h ++ [Cell.leaf t.head]) a h.length).1 ++
        [(pushFrontLeaf (h ++ [Cell.leaf t.head]) a h.length).2] ++
        [(pushFrontLeaf (h ++ [Cell.leaf t.head]) a h.length).2]) P (t.root.pushFrontLeaf (.leaf t.head)) _ :=
      At.new (m.shows.mono _ (List.prefix_append _ _) (Nat.le_refl _)) (by simp)
        ((hP.mono hg).mono (m.grows.trans (List.prefix_append _ _)))
    refine ⟨?_, ⟨_, by rw [h1.height], h2⟩, ?_⟩
    · exact hg.trans (m.grows.trans ((List.prefix_append _ _).trans (List.prefix_append _ _)))
    · simp only [List.length_append, List.length_singleton] at hl ⊢; omega

theorem pushBack_built {h : Mem α} {P : Nat → Prop} (hP : Above P h) {t : Tree α} {m : TreeM α}
    (w : TreeAt h P t m) (x : α) :
    Built h P (if t.tail.length < 64 then 0 else 4) (t.pushBack x) (m.pushBack h x) := by
  obtain ⟨g, tr, cl⟩ := pushTailToTree_built hP w
  obtain ⟨b, hb, tr⟩ := tr
  obtain ⟨a, rfl, w⟩ := w
  simp only [TreeM.pushBack, Tree.pushBack, LEAF_CAPACITY] at *
  split
  · exact ⟨List.prefix_refl _, ⟨a, rfl, w⟩, by simp⟩
  · refine ⟨g, ⟨b, ?_, tr⟩, cl⟩
    rw [hb]

theorem pushFront_built {h : Mem α} {P : Nat → Prop} (hP : Above P h) {t : Tree α} {m : TreeM α}
    (w : TreeAt h P t m) (x : α) :
    Built h P (if t.head.length < 64 then 0 else 4) (t.pushFront x) (m.pushFront h x) := by
  obtain ⟨g, tr, cl⟩ := pushHeadToTree_built hP w
  obtain ⟨b, hb, tr⟩ := tr
  obtain ⟨a, rfl, w⟩ := w
  simp only [TreeM.pushFront, Tree.pushFront, LEAF_CAPACITY] at *
  split
  · exact ⟨List.prefix_refl _, ⟨a, rfl, w⟩, by simp⟩
  · refine ⟨g, ⟨b, ?_, tr⟩, cl⟩
    rw [hb]

theorem concatNodes_made {P : Nat → Prop} (l : Node α) :
    ∀ {h : Mem α} {r : Node α} {f a b : Nat}, Above P h → At h P l a → At h P r b → a < f →
      Made h P (Tree.concatNodes l r) (concatNodes f h a b) ∧ (concatNodes f h a b).1.length ≤ h.length + (l.depth + 2) := by
  induction l using Node.induct with
  | hleaf es =>
    intro h r f a b hP hl hr hf
    obtain ⟨f, rfl⟩ : ∃ f', f = f' + 1 := ⟨f - 1, by omega⟩
    have e1 : cell h a = .leaf es := hl.cell
    match r, hr with
    | .leaf rs, hr =>
      have e2 : cell h b = .leaf rs := hr.cell
      simp only [concatNodes, e1, e2, Tree.concatNodes]
      split
      · exact ⟨⟨List.prefix_refl _, rfl⟩, by simp⟩
      · refine ⟨⟨List.prefix_append _ _, ?_⟩, by simp⟩
        have g1 : h <+: h ++ [Cell.leaf (List.take LEAF_CAPACITY (es ++ rs))] := List.prefix_append _ _
        have w1 := leaf_at hP (List.take LEAF_CAPACITY (es ++ rs))
        have w2 := leaf_at (hP.mono g1) (List.drop LEAF_CAPACITY (es ++ rs))
        have w1 := w1.mono (List.prefix_append _ [Cell.leaf (List.drop LEAF_CAPACITY (es ++ rs))])
        simp only [List.length_append, List.length_singleton, List.append_assoc, List.singleton_append] at w1 w2
        exact AtL.makeRelaxed (.cons w1 (.cons w2 .nil))
    | .branch cs s, hr =>
      obtain ⟨as, e2, hcs⟩ := hr.cell
      simp only [concatNodes, e1, e2, Tree.concatNodes]
      exact ⟨⟨List.prefix_refl _, AtL.makeRelaxed (.cons hl hcs.at)⟩, by simp⟩
  | hbranch ls ss ih =>
    intro h r f a b hP hl hr hf
    obtain ⟨f, rfl⟩ : ∃ f', f = f' + 1 := ⟨f - 1, by omega⟩
    obtain ⟨las, e1, hls⟩ := hl.cell
    match r, hr with
    | .leaf rs, hr =>
      have e2 : cell h b = .leaf rs := hr.cell
      simp only [concatNodes, e1, e2, Tree.concatNodes]
      exact ⟨⟨List.prefix_refl _, AtL.makeRelaxed (hls.at.append (.one hr))⟩, by simp⟩
    | .branch cs s, hr =>
      obtain ⟨as, e2, hcs⟩ := hr.cell
      simp only [concatNodes, e1, e2, Tree.concatNodes]
      have hlat := hls.at
      have hrat := hcs.at
      rcases hls.getLast with ⟨n, c, g1, g2, g3, g4, g5⟩ | ⟨rfl, rfl⟩
      · cases hrat with
        | nil =>
          simp only [g2, List.head?_nil, List.append_nil]
          exact ⟨⟨List.prefix_refl _, (hlat.dropLast.append .nil).makeRelaxed⟩, by simp⟩
        | @cons m d _ _ hm hms =>
          simp only [g2, List.head?_cons, concatLast_getLast, g1, Option.map_some, Option.toList_some]
          obtain ⟨i, il⟩ := ih n g3 hP g5 hm (f := f) (by omega)
          have hd := le_depthL g3
          have gg := i.grows.trans (List.prefix_append _ [(concatNodes f h c d).2])
          refine ⟨⟨gg, ?_⟩, ?_⟩
          · exact (((hlat.dropLast.mono gg).append (.one (i.at hP))).append ((AtL.drop (.cons hm hms) 1).mono gg)).makeRelaxed
          · simp only [List.length_append, List.length_singleton, Node.depth]; omega
      · simp only [List.getLast?_nil, concatLast_getLast, Option.map_none, Option.toList_none]
        refine ⟨⟨List.prefix_refl _, ?_⟩, by simp⟩
        have d := (hrat.drop 1).makeRelaxed
        cases cs <;> exact d

theorem pushLeaf_depth (n : Node α) (es : List α) : (n.pushLeaf (.leaf es)).depth ≤ n.depth + 1 := by
  cases n with
  | leaf _ => simp [Node.pushLeaf, Node.depth, Node.depthL]
  | branch cs s =>
    simp only [Node.pushLeaf]
    split
    · have : Node.depthL (cs ++ [Node.leaf es]) = Node.depthL cs := by
        clear * -
        induction cs with
        | nil => rfl
        | cons c cs ih => simp only [List.cons_append, Node.depthL, ih]
      simp only [Node.depth, this]; omega
    · simp only [Node.depth, Node.depthL]; omega

theorem pushTailToTree_depth (t : Tree α) : t.pushTailToTree.root.depth ≤ t.root.depth + 1 := by
  simp only [Tree.pushTailToTree]
  split
  · omega
  · exact pushLeaf_depth _ _

theorem concatSameHeight_built {h : Mem α} {P : Nat → Prop} (hP : Above P h) {t u : Tree α} {m k : TreeM α}
    (w : TreeAt h P t m) (v : TreeAt h P u k) :
    Built h P (t.root.depth + 12) (t.concatSameHeight u) (m.concatSameHeight h k) := by
  have hl : Built h P 4 (if !t.tail.isEmpty then t.pushTailToTree else t)
      (if !m.tail.isEmpty then m.pushTailToTree h else (h, m)) ∧
      (if !t.tail.isEmpty then t.pushTailToTree else t).root.depth ≤ t.root.depth + 1 := by
    have e : m.tail = t.tail := by obtain ⟨a, rfl, _⟩ := w; rfl
    rw [e]
    cases t.tail.isEmpty with
    | true => exact ⟨⟨List.prefix_refl _, w, by simp⟩, by simp⟩
    | false => exact ⟨pushTailToTree_built hP w, pushTailToTree_depth t⟩
  have e : m.height = t.height ∧ m.len = t.len := by obtain ⟨a, rfl, _⟩ := w; exact ⟨rfl, rfl⟩
  have e' : k.height = u.height ∧ k.len = u.len ∧ k.head = u.head := by obtain ⟨a, rfl, _⟩ := v; exact ⟨rfl, rfl, rfl⟩
  simp only [TreeM.concatSameHeight, Tree.concatSameHeight, e, e']
  revert hl
  generalize (if !m.tail.isEmpty then m.pushTailToTree h else (h, m)) = L
  generalize (if !t.tail.isEmpty then t.pushTailToTree else t) = T
  rintro ⟨hl, hd⟩
  have hr : Built L.1 P 4 (if !u.head.isEmpty then u.pushHeadToTree else u)
      (if !u.head.isEmpty then k.pushHeadToTree L.1 else (L.1, k)) := by
    have v' := v.mono hl.grows
    cases u.head.isEmpty with
    | true => exact ⟨List.prefix_refl _, v', by simp⟩
    | false => exact pushHeadToTree_built (hP.mono hl.grows) v'
  revert hr
  generalize (if !u.head.isEmpty then k.pushHeadToTree L.1 else (L.1, k)) = R
  generalize (if !u.head.isEmpty then u.pushHeadToTree else u) = U
  intro hr
  obtain ⟨lg, ⟨a, la, lt⟩, lc⟩ := hl
  obtain ⟨rg, ⟨b, rb, rt⟩, rc⟩ := hr
  have hP' := (hP.mono lg).mono rg
  obtain ⟨i, il⟩ := concatNodes_made T.root hP' (lt.mono rg) rt (Nat.lt_succ_self a)
  have il : _ ≤ R.1.length + (T.root.depth + 2) := il
  rw [la, rb]
  refine ⟨lg.trans (rg.trans (i.grows.trans (List.prefix_append _ _))), ⟨_, rfl, i.at hP'⟩, ?_⟩
  simp only [List.length_append, List.length_singleton, Nat.succ_eq_add_one] at il ⊢
  omega

theorem elevateRoot_at {P : Nat → Prop} : ∀ (k : Nat) {h : Mem α} {n : Node α} {a : Nat}, Above P h → At h P n a →
    h <+: (elevateRoot k h a).1 ∧ At (elevateRoot k h a).1 P (Tree.elevateRoot k n) (elevateRoot k h a).2 ∧
      (elevateRoot k h a).1.length = h.length + k := by
  intro k
  induction k with
  | zero => intro h n a _ w; exact ⟨List.prefix_refl _, w, rfl⟩
  | succ k ih =>
    intro h n a hP w
    simp only [elevateRoot, Tree.elevateRoot, w.size]
    have g : h <+: h ++ [Cell.branch [a] (some [n.calculateSize])] := List.prefix_append _ _
    obtain ⟨i1, i2, i3⟩ := ih (hP.mono g) (At.new ((AtL.one w).branch (some [n.calculateSize])) (Nat.le_refl _) hP)
    exact ⟨g.trans i1, i2, by rw [i3]; simp; omega⟩

theorem elevateTree_built {h : Mem α} {P : Nat → Prop} (hP : Above P h) {t : Tree α} {m : TreeM α}
    (w : TreeAt h P t m) (target : Nat) :
    Built h P (target - t.height) (t.elevateTree target) (m.elevateTree h target) := by
  obtain ⟨a, rfl, w⟩ := w
  obtain ⟨i1, i2, i3⟩ := elevateRoot_at (target - t.height) hP w
  exact ⟨i1, ⟨_, rfl, i2⟩, Nat.le_of_eq i3⟩

theorem concat_built {h : Mem α} {P : Nat → Prop} (hP : Above P h) {t u : Tree α} {m k : TreeM α}
    (w : TreeAt h P t m) (v : TreeAt h P u k) :
    Built h P (max t.root.depth u.root.depth + (t.height - u.height) + 12) (t.concat u) (m.concat h k) := by
  have e : m.height = t.height ∧ m.len = t.len := by obtain ⟨a, rfl, _⟩ := w; exact ⟨rfl, rfl⟩
  have e' : k.height = u.height ∧ k.len = u.len := by obtain ⟨a, rfl, _⟩ := v; exact ⟨rfl, rfl⟩
  simp only [TreeM.concat, Tree.concat, e, e']
  split
  · exact ⟨List.prefix_refl _, v, by simp⟩
  split
  · exact ⟨List.prefix_refl _, w, by simp⟩
  split
  · obtain ⟨g, tr, c⟩ := concatSameHeight_built hP w v
    exact ⟨g, tr, by omega⟩
  split
  · rename_i h1
    simp only [TreeM.concatDifferentHeight, Tree.concatDifferentHeight, Bool.false_eq_true, if_false, e]
    obtain ⟨g, tr, c⟩ := elevateTree_built hP v t.height
    obtain ⟨g', tr', c'⟩ := concatSameHeight_built (hP.mono g) tr (w.mono g)
    have z : t.height - u.height = 0 := by omega
    have hd : (u.elevateTree t.height).root.depth = u.root.depth := by
      simp only [Tree.elevateTree, z, Tree.elevateRoot]
    exact ⟨g.trans g', tr', by omega⟩
  · simp only [TreeM.concatDifferentHeight, Tree.concatDifferentHeight, if_true, e']
    rw [e.1]
    obtain ⟨g, tr, c⟩ := elevateTree_built hP v t.height
    obtain ⟨g', tr', c'⟩ := concatSameHeight_built (hP.mono g) (w.mono g) tr
    exact ⟨g.trans g', tr', by omega⟩

/-- What `pop_back` or `pop_front` of a tree does in memory. -/
def PoppedT (h : Mem α) (P : Nat → Prop) (d : Nat) : Option (Tree α × α) → Option (Mem α × TreeM α × α) → Prop
  | none, r => r = none
  | some (t, x), r => ∃ h1 m, r = some (h1, m, x) ∧ Built h P d t (h1, m)

theorem popRoot_at {h : Mem α} {P : Nat → Prop} (hP : Above P h) {t : Tree α} {m : TreeM α} (w : TreeAt h P t m)
    (k : Nat) (q : Node α × Nat)
    (hq : q = (if k = 1 then (Node.leaf [], 0)
      else match t.root.popBack with
        | some (newRoot, _) => (newRoot, t.height)
        | none => (t.root, t.height))) :
    h <+: (popRoot h m k).1 ∧ At (popRoot h m k).1 P q.1 (popRoot h m k).2.1 ∧ (popRoot h m k).2.2 = q.2 ∧
      (popRoot h m k).1.length ≤ h.length + (t.root.depth + 1) := by
  subst hq
  obtain ⟨a, rfl, w⟩ := w
  simp only [popRoot]
  split
  · exact ⟨List.prefix_append _ _, leaf_at hP [], rfl, by simp⟩
  · have hp := popBack_made hP t.root w.cell (Nat.le_refl _) (Nat.le_of_lt w.lt)
    cases e : t.root.popBack with
    | none =>
      rw [e] at hp
      simp only [Popped] at hp
      rw [hp]
      exact ⟨List.prefix_refl _, w, rfl, by simp⟩
    | some r =>
      obtain ⟨n, x⟩ := r
      rw [e] at hp
      obtain ⟨h1, c, hr, hm, hl⟩ := hp
      rw [hr]
      exact ⟨hm.grows.trans (List.prefix_append _ _), hm.at hP, rfl, by simp; omega⟩

theorem popFromTree_built {h : Mem α} {P : Nat → Prop} (hP : Above P h) {t : Tree α} {m : TreeM α}
    (w : TreeAt h P t m) : PoppedT h P (t.root.depth + 1) t.popFromTree (m.popFromTree h) := by
  have hr := popRoot_at hP w (t.len - t.tail.length) _ rfl
  obtain ⟨a, rfl, w⟩ := w
  simp only [TreeM.popFromTree, Tree.popFromTree, get_eq t.root w.cell (Nat.le_refl _)]
  by_cases h1 : t.len = 0
  · rw [if_pos h1, if_pos h1]; rfl
  rw [if_neg h1, if_neg h1]
  by_cases h2 : t.len - t.tail.length = 0
  · rw [if_pos h2, if_pos h2]; rfl
  rw [if_neg h2, if_neg h2]
  cases t.root.get (t.len - t.tail.length - 1) with
  | none => rfl
  | some x =>
    obtain ⟨g, tr, he, hl⟩ := hr
    refine ⟨_, _, rfl, g, ⟨_, ?_, tr⟩, hl⟩
    rw [he]
    rfl

theorem popBack_built {h : Mem α} {P : Nat → Prop} (hP : Above P h) {t : Tree α} {m : TreeM α}
    (w : TreeAt h P t m) : PoppedT h P (t.root.depth + 1) t.popBack (m.popBack h) := by
  have hf := popFromTree_built hP w
  obtain ⟨a, rfl, w⟩ := w
  simp only [TreeM.popBack, Tree.popBack]
  by_cases h1 : t.len = 0
  · rw [if_pos h1, if_pos h1]; rfl
  rw [if_neg h1, if_neg h1]
  cases t.tail.getLast? with
  | none => exact hf
  | some x => exact ⟨_, _, rfl, List.prefix_refl _, ⟨a, rfl, w⟩, by simp⟩

theorem popFrontFromTail_built {h : Mem α} {P : Nat → Prop} (hP : Above P h) {t : Tree α} {m : TreeM α}
    (w : TreeAt h P t m) : PoppedT h P (t.root.depth + 1) t.popFrontFromTail (m.popFrontFromTail h) := by
  obtain ⟨a, rfl, w⟩ := w
  simp only [TreeM.popFrontFromTail, Tree.popFrontFromTail]
  cases t.tail.reverse.getLast? with
  | none => rfl
  | some x => exact ⟨_, _, rfl, List.prefix_append _ _, ⟨_, rfl, leaf_at hP []⟩, by simp⟩

theorem popFrontFromTree_built {h : Mem α} {P : Nat → Prop} (hP : Above P h) {t : Tree α} {m : TreeM α}
    (w : TreeAt h P t m) : PoppedT h P (t.root.depth + 1) t.popFrontFromTree (m.popFrontFromTree h) := by
  have hf := popFrontFromTail_built hP w
  obtain ⟨a, rfl, w⟩ := w
  have ts : TreeM.treeSize (⟨a, t.tail, t.head, t.height, t.len⟩ : TreeM α) = t.treeSize := rfl
  simp only [TreeM.popFrontFromTree, Tree.popFrontFromTree, ts]
  split
  · have hp := popFront_made hP t.root w.cell (Nat.le_refl _) (Nat.le_of_lt w.lt)
    cases e : t.root.popFront with
    | none =>
      rw [e] at hp
      simp only [Popped] at hp
      rw [hp]
      exact hf
    | some r =>
      obtain ⟨n, x⟩ := r
      rw [e] at hp
      obtain ⟨h1, c, hr, hm, hl⟩ := hp
      rw [hr]
      exact ⟨_, _, rfl, hm.grows.trans (List.prefix_append _ _), ⟨_, rfl, hm.at hP⟩, by simp; omega⟩
  · exact hf

theorem popFront_built {h : Mem α} {P : Nat → Prop} (hP : Above P h) {t : Tree α} {m : TreeM α}
    (w : TreeAt h P t m) : PoppedT h P (t.root.depth + 1) t.popFront (m.popFront h) := by
  have hf := popFrontFromTree_built hP w
  obtain ⟨a, rfl, w⟩ := w
  simp only [TreeM.popFront, Tree.popFront]
  by_cases h1 : t.len = 0
  · rw [if_pos h1, if_pos h1]; rfl
  rw [if_neg h1, if_neg h1]
  cases e : t.head with
  | nil => rw [e] at hf; exact hf
  | cons x xs => exact ⟨_, _, rfl, List.prefix_refl _, ⟨a, rfl, w⟩, by simp⟩

theorem findPath_eq {h : Mem α} {P : Nat → Prop} (n : Node α) :
    ∀ {b f : Nat} {c : Cell α}, Shows h P b n c → b < f → ∀ ht i, findPath h f c ht i = Tree.findPath n ht i := by
  induction n using Node.induct with
  | hleaf es => intro b f c hs _ i ht; cases hs; cases f <;> simp [findPath, Tree.findPath]
  | hbranch cs s ih =>
    intro b f c hs hb ht i
    obtain ⟨as, rfl, hl⟩ := hs
    have hat := hl.at
    simp only [Tree.findPath, findPathL_get]
    cases f with
    | zero => omega
    | succ f =>
      simp only [findPath, hat.length, findChildRegular_eq]
      have key : ∀ o : Option (Nat × Nat),
          ((o.getD (0, 0)).1 :: (match as[(o.getD (0, 0)).1]? with
            | some a => findPath h f (cell h a) (ht - 1) (o.getD (0, 0)).2
            | none => [])) =
          (o.getD (0, 0)).1 :: (cs[(o.getD (0, 0)).1]?.map fun n => Tree.findPath n (ht - 1) (o.getD (0, 0)).2).getD [] := by
        intro o
        generalize o.getD (0, 0) = p
        rcases hl.get p.1 with ⟨n, a, e1, e2, e3, e4⟩ | ⟨e1, e2⟩
        · simp only [e1, e2, Option.map_some, Option.getD_some]
          rw [ih n (List.mem_of_getElem? e1) e4.cell (by omega)]
        · simp only [e1, e2, Option.map_none, Option.getD_none]
      split
      · rfl
      · cases s <;> exact key _

theorem createLeftBranch_at {h : Mem α} {P : Nat → Prop} {cs : List (Node α)} {as : List Nat} (w : AtL h P cs as)
    {n : Node α} {a : Nat} (v : At h P n a) (k : Nat) :
    Shows h P h.length (Tree.createLeftBranch cs k n) (createLeftBranch h as k a) := by
  have hc : AtL h P (cs.take k ++ if n.calculateSize > 0 then [n] else [])
      (as.take k ++ if sizeAt h a > 0 then [a] else []) := by
    rw [v.size]
    refine (w.take k).append ?_
    split
    · exact .one v
    · exact .nil
  simp only [Tree.createLeftBranch, createLeftBranch]
  revert hc
  generalize (cs.take k ++ if n.calculateSize > 0 then [n] else []) = ns
  generalize (as.take k ++ if sizeAt h a > 0 then [a] else []) = bs
  intro hc
  rw [hc.isEmpty]
  split
  · rfl
  · exact hc.makeRelaxed

theorem createRightBranch_at {h : Mem α} {P : Nat → Prop} {cs : List (Node α)} {as : List Nat} (w : AtL h P cs as)
    {n : Node α} {a : Nat} (v : At h P n a) (k : Nat) :
    Shows h P h.length (Tree.createRightBranch cs k n) (createRightBranch h as k a) := by
  have hc : AtL h P ((if n.calculateSize > 0 then [n] else []) ++ cs.drop (k + 1))
      ((if sizeAt h a > 0 then [a] else []) ++ as.drop (k + 1)) := by
    rw [v.size]
    refine AtL.append ?_ (w.drop (k + 1))
    split
    · exact .one v
    · exact .nil
  simp only [Tree.createRightBranch, createRightBranch]
  revert hc
  generalize ((if n.calculateSize > 0 then [n] else []) ++ cs.drop (k + 1)) = ns
  generalize ((if sizeAt h a > 0 then [a] else []) ++ as.drop (k + 1)) = bs
  intro hc
  rw [hc.isEmpty]
  split
  · rfl
  · exact hc.makeRelaxed

/-- Two nodes made one after the other. -/
theorem two_at {h : Mem α} {P : Nat → Prop} (hP : Above P h) {n m : Node α} {c d : Cell α}
    (hc : Shows h P h.length n c) (hd : Shows h P h.length m d) :
    At (h ++ [c, d]) P n h.length ∧ At (h ++ [c, d]) P m (h.length + 1) := by
  have g : h <+: h ++ [c] := List.prefix_append _ _
  have e : h ++ [c, d] = h ++ [c] ++ [d] := by simp
  rw [e]
  refine ⟨(At.new hc (Nat.le_refl _) hP).mono (List.prefix_append _ _), ?_⟩
  have := At.new (hd.mono m g (Nat.le_refl _)) (by simp) (hP.mono g)
  simpa using this

theorem splitAlongPath_at {P : Nat → Prop} (n : Node α) :
    ∀ {h : Mem α} {f a : Nat}, Above P h → At h P n a → a < f → ∀ (path : List Nat) (i ht : Nat),
      h <+: (splitAlongPath f h a path i ht).1 ∧
      At (splitAlongPath f h a path i ht).1 P (Tree.splitAlongPath n path i ht).1 (splitAlongPath f h a path i ht).2.1 ∧
      At (splitAlongPath f h a path i ht).1 P (Tree.splitAlongPath n path i ht).2 (splitAlongPath f h a path i ht).2.2 ∧
      (splitAlongPath f h a path i ht).1.length ≤ h.length + 2 * (n.depth + 1) := by
  induction n using Node.induct with
  | hleaf es =>
    intro h f a hP w hf path i ht
    obtain ⟨f, rfl⟩ : ∃ f', f = f' + 1 := ⟨f - 1, by omega⟩
    have e : cell h a = .leaf es := w.cell
    simp only [splitAlongPath, e, Tree.splitAlongPath]
    obtain ⟨h1, h2⟩ := two_at hP (n := .leaf (es.take i)) (m := .leaf (es.drop i)) (c := .leaf (es.take i))
      (d := .leaf (es.drop i)) rfl rfl
    exact ⟨List.prefix_append _ _, h1, h2, by simp [Node.depth]⟩
  | hbranch cs s ih =>
    intro h f a hP w hf path i ht
    obtain ⟨f, rfl⟩ : ∃ f', f = f' + 1 := ⟨f - 1, by omega⟩
    obtain ⟨as, e, hl⟩ := w.cell
    have none_at := leaf_at hP ([] : List α)
    cases path with
    | nil =>
      simp only [splitAlongPath, e, Tree.splitAlongPath, splitChild_get]
      rcases hl.get 0 with ⟨n, c, e1, e2, e3, e4⟩ | ⟨e1, e2⟩
      · simp only [e1, e2, Option.map_some, Option.getD_some]
        have hm := List.mem_of_getElem? e1
        have hd := le_depthL hm
        obtain ⟨i1, i2, i3, i4⟩ := ih n hm hP e4 (f := f) (by omega) [] i (ht - 1)
        exact ⟨i1, i2, i3, by simp only [Node.depth]; omega⟩
      · simp only [e1, e2, Option.map_none, Option.getD_none]
        exact ⟨List.prefix_append _ _, none_at, none_at, by simp; omega⟩
    | cons k path =>
      simp only [splitAlongPath, e, Tree.splitAlongPath, splitChild_get]
      rcases hl.get k with ⟨n, c, e1, e2, e3, e4⟩ | ⟨e1, e2⟩
      · simp only [e1, e2, Option.map_some]
        have hm := List.mem_of_getElem? e1
        have hd := le_depthL hm
        obtain ⟨i1, i2, i3, i4⟩ := ih n hm hP e4 (f := f) (by omega) path
          (Tree.calculateAdjustedIndex i k s (ht - 1)) (ht - 1)
        have hat := hl.at.mono i1
        obtain ⟨h1, h2⟩ := two_at (hP.mono i1) (createLeftBranch_at hat i2 k) (createRightBranch_at hat i3 k)
        exact ⟨i1.trans (List.prefix_append _ _), h1, h2, by simp [Node.depth]; omega⟩
      · simp only [e1, e2, Option.map_none]
        exact ⟨List.prefix_append _ _, none_at, none_at, by simp; omega⟩

theorem splitAt_built {h : Mem α} {P : Nat → Prop} (hP : Above P h) {t : Tree α} {m : TreeM α} (w : TreeAt h P t m)
    (i : Nat) :
    h <+: (m.splitAt h i).1 ∧ TreeAt (m.splitAt h i).1 P (t.splitAt i).1 (m.splitAt h i).2.1 ∧
      TreeAt (m.splitAt h i).1 P (t.splitAt i).2 (m.splitAt h i).2.2 ∧
      (m.splitAt h i).1.length ≤ h.length + 2 * (t.root.depth + 1) := by
  obtain ⟨a, rfl, w⟩ := w
  have ts : TreeM.treeSize (⟨a, t.tail, t.head, t.height, t.len⟩ : TreeM α) = t.treeSize := rfl
  have g : h <+: h ++ [Cell.leaf []] := List.prefix_append _ _
  have none_at := leaf_at hP ([] : List α)
  have whole : TreeAt (h ++ [Cell.leaf []]) P t ⟨a, t.tail, t.head, t.height, t.len⟩ := ⟨a, rfl, w.mono g⟩
  simp only [TreeM.splitAt, Tree.splitAt, ts, w.size]
  split
  · exact ⟨g, ⟨_, rfl, none_at⟩, whole, by simp; omega⟩
  split
  · exact ⟨g, whole, ⟨_, rfl, none_at⟩, by simp; omega⟩
  split
  · exact ⟨g, ⟨_, rfl, none_at⟩, ⟨a, rfl, w.mono g⟩, by simp; omega⟩
  split
  · exact ⟨g, ⟨a, rfl, w.mono g⟩, ⟨_, rfl, none_at⟩, by simp; omega⟩
  · rw [findPath_eq t.root w.cell (Nat.lt_succ_self _)]
    obtain ⟨i1, i2, i3, i4⟩ := splitAlongPath_at t.root hP w (Nat.lt_succ_self a)
      (Tree.findPath t.root t.height (i - t.head.length)) (i - t.head.length) t.height
    refine ⟨i1, ⟨_, ?_, i2⟩, ⟨_, ?_, i3⟩, i4⟩
    · rw [i2.height, i2.size]; rfl
    · rw [i3.height, i3.size]; rfl

/-! ## The functions of `core.rs` -/

/-- The vector in memory is the given vector. -/
def VecAt (h : Mem α) (P : Nat → Prop) (v : PV α) (m : VecM α) : Prop :=
  match v.inner with
  | .inline elements => m = ⟨.inl elements, v.len, v.generation⟩
  | .tree tree => ∃ t, m = ⟨.inr t, v.len, v.generation⟩ ∧ TreeAt h P tree t

theorem VecAt.mono {h h' : Mem α} {P : Nat → Prop} {v : PV α} {m : VecM α} (w : VecAt h P v m) (hp : h <+: h') :
    VecAt h' P v m := by
  obtain ⟨inner, len, gen⟩ := v
  cases inner with
  | inline es => exact w
  | tree t =>
    obtain ⟨u, rfl, w⟩ := w
    exact ⟨u, rfl, w.mono hp⟩

theorem VecAt.len {h : Mem α} {P : Nat → Prop} {v : PV α} {m : VecM α} (w : VecAt h P v m) :
    m.len = v.len ∧ m.generation = v.generation := by
  obtain ⟨inner, len, gen⟩ := v
  cases inner with
  | inline es => cases w; exact ⟨rfl, rfl⟩
  | tree t => obtain ⟨u, rfl, w⟩ := w; exact ⟨rfl, rfl⟩

theorem VecAt.new (h : Mem α) (P : Nat → Prop) : VecAt h P PV.new VecM.new := rfl

/-- `get` reads the same element. -/
theorem VecAt.get {h : Mem α} {P : Nat → Prop} {v : PV α} {m : VecM α} (w : VecAt h P v m) (i : Nat) :
    m.get h i = v.get i := by
  obtain ⟨inner, len, gen⟩ := v
  cases inner with
  | inline es => cases w; rfl
  | tree t =>
    obtain ⟨u, rfl, w⟩ := w
    simp only [VecM.get, PV.get, w.get]

/-- A function made a vector from memory `h`, with at most `k` new cells. -/
structure BuiltV (h : Mem α) (P : Nat → Prop) (k : Nat) (v : PV α) (r : Mem α × VecM α) : Prop where
  grows : h <+: r.1
  vec : VecAt r.1 P v r.2
  cells : r.1.length ≤ h.length + k

theorem BuiltV.le {h : Mem α} {P : Nat → Prop} {k l : Nat} {v : PV α} {r : Mem α × VecM α} (w : BuiltV h P k v r)
    (hk : k ≤ l) : BuiltV h P l v r := ⟨w.grows, w.vec, Nat.le_trans w.cells (by omega)⟩

theorem BuiltV.same {h : Mem α} {P : Nat → Prop} {v : PV α} {m : VecM α} (w : VecAt h P v m) (k : Nat) :
    BuiltV h P k v (h, m) := ⟨List.prefix_refl _, w, by simp⟩

/-- Cells for the tree of an inline vector, a bound (tree.rs:31-112). -/
def treeCells (xs : List α) : Nat := xs.length / 32 + 1

theorem fromIterV {h : Mem α} {P : Nat → Prop} (hP : Above P h) (xs : List α) :
    BuiltV h P (treeCells xs) (PV.fromIter xs) (VecM.fromIter h xs) := by
  simp only [VecM.fromIter, PV.fromIter]
  split
  · exact ⟨List.prefix_refl _, rfl, by simp⟩
  · obtain ⟨g, t, c⟩ := fromElements_built hP xs
    exact ⟨g, ⟨_, rfl, t⟩, c⟩

/-- A bound for the cells that `push_back` takes: 4 when the tail is full, and those of the tree if the vector is inline. -/
def pushBackCells (v : PV α) : Nat :=
  match v.inner with
  | .inline es => if es.length < 64 then 0 else treeCells es + (if (Tree.fromElements es).tail.length < 64 then 0 else 4)
  | .tree t => if t.tail.length < 64 then 0 else 4

/-- The same for `push_front`. -/
def pushFrontCells (v : PV α) : Nat :=
  match v.inner with
  | .inline es => if es.length < 64 then 0 else treeCells es + (if (Tree.fromElements es).head.length < 64 then 0 else 4)
  | .tree t => if t.head.length < 64 then 0 else 4

theorem pushBackV {h : Mem α} {P : Nat → Prop} (hP : Above P h) {v : PV α} {m : VecM α} (w : VecAt h P v m) (x : α) :
    BuiltV h P (pushBackCells v) (v.pushBack x) (m.pushBack h x) := by
  obtain ⟨inner, len, gen⟩ := v
  cases inner with
  | inline es =>
    cases w
    simp only [VecM.pushBack, PV.pushBack, PV.transitionToTree, PV.treePushBack, pushBackCells]
    split
    · exact ⟨List.prefix_refl _, rfl, by simp⟩
    · obtain ⟨g, t, c⟩ := fromElements_built hP es
      obtain ⟨g', t', c'⟩ := pushBack_built (hP.mono g) t x
      exact ⟨g.trans g', ⟨_, rfl, t'⟩, by simp only [treeCells]; omega⟩
  | tree t =>
    obtain ⟨u, rfl, w⟩ := w
    obtain ⟨g, t', c⟩ := pushBack_built hP w x
    exact ⟨g, ⟨_, rfl, t'⟩, c⟩

theorem pushFrontV {h : Mem α} {P : Nat → Prop} (hP : Above P h) {v : PV α} {m : VecM α} (w : VecAt h P v m) (x : α) :
    BuiltV h P (pushFrontCells v) (v.pushFront x) (m.pushFront h x) := by
  obtain ⟨inner, len, gen⟩ := v
  cases inner with
  | inline es =>
    cases w
    simp only [VecM.pushFront, PV.pushFront, PV.transitionToTree, PV.treePushFront, pushFrontCells]
    split
    · exact ⟨List.prefix_refl _, rfl, by simp⟩
    · obtain ⟨g, t, c⟩ := fromElements_built hP es
      obtain ⟨g', t', c'⟩ := pushFront_built (hP.mono g) t x
      exact ⟨g.trans g', ⟨_, rfl, t'⟩, by simp only [treeCells]; omega⟩
  | tree t =>
    obtain ⟨u, rfl, w⟩ := w
    obtain ⟨g, t', c⟩ := pushFront_built hP w x
    exact ⟨g, ⟨_, rfl, t'⟩, c⟩

theorem extendV {P : Nat → Prop} (xs : List α) : ∀ {h : Mem α}, Above P h → ∀ {v : PV α} {m : VecM α}, VecAt h P v m →
    ∃ k, BuiltV h P k (v.extend xs) (m.extend h xs) := by
  induction xs with
  | nil => intro h _ v m w; exact ⟨0, .same w 0⟩
  | cons x xs ih =>
    intro h hP v m w
    obtain ⟨g, t, c⟩ := pushBackV hP w x
    obtain ⟨k, g', t', c'⟩ := ih (hP.mono g) t
    exact ⟨pushBackCells v + k, g.trans g', t', by simp only [VecM.extend]; omega⟩

/-- The cells that `update` takes: one for every node on the way to the element. -/
def updateCells (v : PV α) (index : Nat) : Nat :=
  match v.inner with
  | .inline _ => 0
  | .tree t => if index < v.len then treeCopies t index else 0

theorem updateV {h : Mem α} {P : Nat → Prop} (hP : Above P h) {v : PV α} {m : VecM α} (w : VecAt h P v m) (i : Nat)
    (x : α) :
    BuiltV h P (updateCells v i) (v.update i x) (m.update h i x) ∧
      (m.update h i x).1.length = h.length + updateCells v i := by
  have w' := w
  obtain ⟨inner, len, gen⟩ := v
  cases inner with
  | inline es =>
    cases w
    simp only [VecM.update, PV.update, updateCells]
    split
    · exact ⟨⟨List.prefix_refl _, rfl, by simp⟩, rfl⟩
    · exact ⟨⟨List.prefix_refl _, rfl, by simp⟩, rfl⟩
  | tree t =>
    obtain ⟨u, rfl, w⟩ := w
    obtain ⟨⟨g, t', c⟩, e⟩ := update_built hP w i x
    simp only [VecM.update, PV.update, updateCells]
    by_cases h1 : i ≥ len
    · rw [if_pos h1, if_pos h1, if_neg (by omega)]
      exact ⟨.same w' _, rfl⟩
    · rw [if_neg h1, if_neg h1, if_pos (by omega)]
      exact ⟨⟨g, ⟨_, rfl, t'⟩, c⟩, e⟩

/-- The depth of the tree, 0 if there is none. -/
def rootDepth (v : PV α) : Nat :=
  match v.inner with
  | .inline _ => 0
  | .tree t => t.root.depth

/-- The recorded height of the tree, 0 if there is none. -/
def rootHeight (v : PV α) : Nat :=
  match v.inner with
  | .inline _ => 0
  | .tree t => t.height

/-- A bound for the cells that `concat` takes. -/
def concatCells (v w : PV α) : Nat :=
  match v.inner, w.inner with
  | .inline left, .inline right => treeCells (left ++ right)
  | .inline es, .tree t =>
    treeCells es + (max (Tree.fromElements es).root.depth t.root.depth + ((Tree.fromElements es).height - t.height) + 12)
  | .tree t, .inline es =>
    treeCells es + (max t.root.depth (Tree.fromElements es).root.depth + (t.height - (Tree.fromElements es).height) + 12)
  | .tree t, .tree u => max t.root.depth u.root.depth + (t.height - u.height) + 12

theorem concatV {h : Mem α} {P : Nat → Prop} (hP : Above P h) {v u : PV α} {m k : VecM α} (w : VecAt h P v m)
    (w' : VecAt h P u k) : BuiltV h P (concatCells v u) (v.concat u) (m.concat h k) := by
  obtain ⟨vi, vl, vg⟩ := v
  obtain ⟨ui, ul, ug⟩ := u
  cases vi with
  | inline left =>
    cases w
    cases ui with
    | inline right => cases w'; exact fromIterV hP _
    | tree t =>
      obtain ⟨b, rfl, w'⟩ := w'
      obtain ⟨g, t1, c⟩ := fromElements_built hP left
      obtain ⟨g', t', c'⟩ := concat_built (hP.mono g) t1 (w'.mono g)
      exact ⟨g.trans g', ⟨_, rfl, t'⟩, by simp only [VecM.concat, concatCells, treeCells]; omega⟩
  | tree t =>
    obtain ⟨a, rfl, w⟩ := w
    cases ui with
    | inline right =>
      cases w'
      obtain ⟨g, t1, c⟩ := fromElements_built hP right
      obtain ⟨g', t', c'⟩ := concat_built (hP.mono g) (w.mono g) t1
      exact ⟨g.trans g', ⟨_, rfl, t'⟩, by simp only [VecM.concat, concatCells, treeCells]; omega⟩
    | tree u =>
      obtain ⟨b, rfl, w'⟩ := w'
      obtain ⟨g, t', c⟩ := concat_built hP w w'
      exact ⟨g, ⟨_, rfl, t'⟩, c⟩

/-- What `pop_back` or `pop_front` of a vector does in memory. -/
def PoppedV (h : Mem α) (P : Nat → Prop) (d : Nat) : Option (PV α × α) → Option (Mem α × VecM α × α) → Prop
  | none, r => r = none
  | some (v, x), r => ∃ h1 m, r = some (h1, m, x) ∧ BuiltV h P d v (h1, m)

theorem isEmpty_mk (i : VectorImpl α) (len gen : Nat) : (PV.mk i len gen).isEmpty = (len == 0) := rfl

theorem popBackV {h : Mem α} {P : Nat → Prop} (hP : Above P h) {v : PV α} {m : VecM α} (w : VecAt h P v m) :
    PoppedV h P (rootDepth v + 1) v.popBack (m.popBack h) := by
  obtain ⟨inner, len, gen⟩ := v
  cases inner with
  | inline es =>
    cases w
    cases h1 : (len == 0) with
    | true => simp only [VecM.popBack, PV.popBack, isEmpty_mk, h1, if_true]; rfl
    | false =>
    simp only [VecM.popBack, PV.popBack, isEmpty_mk, h1, Bool.false_eq_true, if_false]
    cases es.getLast? with
    | none => rfl
    | some x => exact ⟨_, _, rfl, ⟨List.prefix_refl _, rfl, by simp⟩⟩
  | tree t =>
    obtain ⟨u, rfl, w⟩ := w
    have hp := popBack_built hP w
    cases h1 : (len == 0) with
    | true => simp only [VecM.popBack, PV.popBack, isEmpty_mk, h1, if_true]; rfl
    | false =>
    simp only [VecM.popBack, PV.popBack, isEmpty_mk, h1, Bool.false_eq_true, if_false]
    cases e : t.popBack with
    | none => rw [e] at hp; simp only [PoppedT] at hp; rw [hp]; rfl
    | some r =>
      obtain ⟨t', x⟩ := r
      rw [e] at hp
      obtain ⟨h1, m, hr, g, tr, c⟩ := hp
      rw [hr]
      exact ⟨_, _, rfl, g, ⟨_, rfl, tr⟩, c⟩

theorem popFrontV {h : Mem α} {P : Nat → Prop} (hP : Above P h) {v : PV α} {m : VecM α} (w : VecAt h P v m) :
    PoppedV h P (rootDepth v + 1) v.popFront (m.popFront h) := by
  obtain ⟨inner, len, gen⟩ := v
  cases inner with
  | inline es =>
    cases w
    cases h1 : (len == 0) with
    | true => simp only [VecM.popFront, PV.popFront, isEmpty_mk, h1, if_true]; rfl
    | false =>
    simp only [VecM.popFront, PV.popFront, isEmpty_mk, h1, Bool.false_eq_true, if_false]
    cases es with
    | nil => rfl
    | cons x es => exact ⟨_, _, rfl, ⟨List.prefix_refl _, rfl, by simp⟩⟩
  | tree t =>
    obtain ⟨u, rfl, w⟩ := w
    have hp := popFront_built hP w
    cases h1 : (len == 0) with
    | true => simp only [VecM.popFront, PV.popFront, isEmpty_mk, h1, if_true]; rfl
    | false =>
    simp only [VecM.popFront, PV.popFront, isEmpty_mk, h1, Bool.false_eq_true, if_false]
    cases e : t.popFront with
    | none => rw [e] at hp; simp only [PoppedT] at hp; rw [hp]; rfl
    | some r =>
      obtain ⟨t', x⟩ := r
      rw [e] at hp
      obtain ⟨h1, m, hr, g, tr, c⟩ := hp
      rw [hr]
      exact ⟨_, _, rfl, g, ⟨_, rfl, tr⟩, c⟩

theorem splitAtV {h : Mem α} {P : Nat → Prop} (hP : Above P h) {v : PV α} {m : VecM α} (w : VecAt h P v m) (i : Nat) :
    h <+: (m.splitAt h i).1 ∧ VecAt (m.splitAt h i).1 P (v.splitAt i).1 (m.splitAt h i).2.1 ∧
      VecAt (m.splitAt h i).1 P (v.splitAt i).2 (m.splitAt h i).2.2 ∧
      (m.splitAt h i).1.length ≤ h.length + 2 * (rootDepth v + 1) := by
  have w' := w
  obtain ⟨inner, len, gen⟩ := v
  cases inner with
  | inline es =>
    cases w
    simp only [VecM.splitAt, PV.splitAt]
    split
    · exact ⟨List.prefix_refl _, rfl, rfl, by simp⟩
    split
    · exact ⟨List.prefix_refl _, rfl, rfl, by simp⟩
    · exact ⟨List.prefix_refl _, rfl, rfl, by simp⟩
  | tree t =>
    obtain ⟨u, rfl, w⟩ := w
    simp only [VecM.splitAt, PV.splitAt]
    split
    · exact ⟨List.prefix_refl _, w', rfl, by simp⟩
    split
    · exact ⟨List.prefix_refl _, rfl, w', by simp⟩
    · obtain ⟨g, l, r, c⟩ := splitAt_built hP w i
      exact ⟨g, ⟨_, rfl, l⟩, ⟨_, rfl, r⟩, c⟩

theorem takeV {h : Mem α} {P : Nat → Prop} (hP : Above P h) {v : PV α} {m : VecM α} (w : VecAt h P v m) (n : Nat) :
    BuiltV h P (2 * (rootDepth v + 1)) (v.take n) (m.take h n) := by
  obtain ⟨g, l, r, c⟩ := splitAtV hP w n
  simp only [VecM.take, PV.take, w.len.1]
  split
  · exact .same w _
  · exact ⟨g, l, c⟩

theorem skipV {h : Mem α} {P : Nat → Prop} (hP : Above P h) {v : PV α} {m : VecM α} (w : VecAt h P v m) (n : Nat) :
    BuiltV h P (2 * (rootDepth v + 1)) (v.skip n) (m.skip h n) := by
  obtain ⟨g, l, r, c⟩ := splitAtV hP w n
  simp only [VecM.skip, PV.skip, w.len.1]
  split
  · exact ⟨List.prefix_refl _, rfl, by simp⟩
  · exact ⟨g, r, c⟩

/-- A bound for the cells that `insert` takes. -/
def insertCells (v : PV α) (index : Nat) (value : α) : Nat :=
  if index ≥ v.len then pushBackCells v
  else if index = 0 then pushFrontCells v
  else 2 * (rootDepth v + 1) + pushBackCells (v.splitAt index).1 +
    concatCells ((v.splitAt index).1.pushBack value) (v.splitAt index).2

theorem insertV {h : Mem α} {P : Nat → Prop} (hP : Above P h) {v : PV α} {m : VecM α} (w : VecAt h P v m) (i : Nat)
    (x : α) : BuiltV h P (insertCells v i x) (v.insert i x) (m.insert h i x) := by
  simp only [VecM.insert, PV.insert, insertCells, w.len.1]
  split
  · exact pushBackV hP w x
  split
  · exact pushFrontV hP w x
  · obtain ⟨g, l, r, c⟩ := splitAtV hP w i
    obtain ⟨g', p, c'⟩ := pushBackV (hP.mono g) l x
    obtain ⟨g'', q, c''⟩ := concatV ((hP.mono g).mono g') p (r.mono g')
    exact ⟨g.trans (g'.trans g''), q, by omega⟩

/-- A bound for the cells that `remove` takes. -/
def removeCells (v : PV α) (index : Nat) : Nat :=
  2 * (rootDepth v + 1) + 2 * (rootDepth (v.splitAt index).2 + 1) +
    concatCells (v.splitAt index).1 ((v.splitAt index).2.skip 1)

theorem removeV {h : Mem α} {P : Nat → Prop} (hP : Above P h) {v : PV α} {m : VecM α} (w : VecAt h P v m) (i : Nat) :
    (v.remove i = none ∧ m.remove h i = none) ∨
      ∃ u r, v.remove i = some u ∧ m.remove h i = some r ∧ BuiltV h P (removeCells v i) u r := by
  simp only [VecM.remove, PV.remove, w.len.1]
  split
  · exact .inl ⟨rfl, rfl⟩
  split
  · exact .inr ⟨_, _, rfl, rfl, ⟨List.prefix_refl _, rfl, by simp⟩⟩
  · obtain ⟨g, l, r, c⟩ := splitAtV hP w i
    obtain ⟨g', p, c'⟩ := skipV (hP.mono g) r 1
    obtain ⟨g'', q, c''⟩ := concatV ((hP.mono g).mono g') (l.mono g') p
    exact .inr ⟨_, _, rfl, rfl, g.trans (g'.trans g''), q, by simp only [removeCells]; omega⟩

/-! ## Programs -/

/-- The versions in memory are the given versions. -/
def Pool (h : Mem α) (P : Nat → Prop) (vs : List (PV α)) (ms : List (VecM α)) : Prop :=
  List.Forall₂ (VecAt h P) vs ms

theorem Pool.mono {h h' : Mem α} {P : Nat → Prop} {vs : List (PV α)} {ms : List (VecM α)} (w : Pool h P vs ms)
    (hp : h <+: h') : Pool h' P vs ms := List.Forall₂.imp (fun _ _ hh => VecAt.mono hh hp) w

theorem Pool.ver {h : Mem α} {P : Nat → Prop} {vs : List (PV α)} {ms : List (VecM α)} (w : Pool h P vs ms) (k : Nat) :
    VecAt h P (Instr.ver vs k) (ver ms k) := by
  simp only [Instr.ver, Heap.ver]
  induction w generalizing k with
  | nil => exact VecAt.new h P
  | cons h1 _ ih =>
    cases k with
    | zero => exact h1
    | succ k => simpa using ih k

/-- The versions that a call is given. -/
def operands : Instr α → List Nat
  | .fromIter _ => []
  | .pushBack k _ | .pushFront k _ | .extend k _ | .update k _ _ | .popBack k | .popFront k | .splitLeft k _
  | .splitRight k _ | .take k _ | .skip k _ | .insert k _ _ | .remove k _ => [k]
  | .concat k l => [k, l]

/-- One call in memory makes the same version as on values. -/
theorem stepV {h : Mem α} {P : Nat → Prop} (hP : Above P h) {vs : List (PV α)} {ms : List (VecM α)} (c : Instr α)
    (w : ∀ k ∈ operands c, VecAt h P (Instr.ver vs k) (ver ms k)) :
    ∃ k, BuiltV h P k (c.step vs) (step h ms c) := by
  cases c with
  | fromIter xs => exact ⟨_, fromIterV hP xs⟩
  | pushBack k x => exact ⟨_, pushBackV hP (w k (by simp [operands])) x⟩
  | pushFront k x => exact ⟨_, pushFrontV hP (w k (by simp [operands])) x⟩
  | extend k xs => exact extendV xs hP (w k (by simp [operands]))
  | update k i x => exact ⟨_, (updateV hP (w k (by simp [operands])) i x).1⟩
  | concat k l => exact ⟨_, concatV hP (w k (by simp [operands])) (w l (by simp [operands]))⟩
  | popBack k =>
    have hp := popBackV hP (w k (by simp [operands]))
    refine ⟨rootDepth (Instr.ver vs k) + 1, ?_⟩
    simp only [step, Instr.step]
    cases e : (Instr.ver vs k).popBack with
    | none => rw [e] at hp; simp only [PoppedV] at hp; rw [hp]; exact .same (w k (by simp [operands])) _
    | some r =>
      obtain ⟨v, x⟩ := r
      rw [e] at hp
      obtain ⟨h1, m, hr, b⟩ := hp
      rw [hr]; exact b
  | popFront k =>
    have hp := popFrontV hP (w k (by simp [operands]))
    refine ⟨rootDepth (Instr.ver vs k) + 1, ?_⟩
    simp only [step, Instr.step]
    cases e : (Instr.ver vs k).popFront with
    | none => rw [e] at hp; simp only [PoppedV] at hp; rw [hp]; exact .same (w k (by simp [operands])) _
    | some r =>
      obtain ⟨v, x⟩ := r
      rw [e] at hp
      obtain ⟨h1, m, hr, b⟩ := hp
      rw [hr]; exact b
  | splitLeft k i =>
    obtain ⟨g, l, r, c⟩ := splitAtV hP (w k (by simp [operands])) i
    exact ⟨_, g, l, c⟩
  | splitRight k i =>
    obtain ⟨g, l, r, c⟩ := splitAtV hP (w k (by simp [operands])) i
    exact ⟨_, g, r, c⟩
  | take k n => exact ⟨_, takeV hP (w k (by simp [operands])) n⟩
  | skip k n => exact ⟨_, skipV hP (w k (by simp [operands])) n⟩
  | insert k i x => exact ⟨_, insertV hP (w k (by simp [operands])) i x⟩
  | remove k i =>
    refine ⟨removeCells (Instr.ver vs k) i, ?_⟩
    simp only [step, Instr.step]
    rcases removeV hP (w k (by simp [operands])) i with ⟨e1, e2⟩ | ⟨u, r, e1, e2, b⟩
    · rw [e1, e2]; exact .same (w k (by simp [operands])) _
    · rw [e1, e2]; exact b

theorem runV {P : Nat → Prop} (prog : List (Instr α)) : ∀ {h : Mem α}, Above P h → ∀ {vs : List (PV α)}
    {ms : List (VecM α)}, Pool h P vs ms →
      h <+: (run h ms prog).1 ∧ ms <+: (run h ms prog).2 ∧
        Pool (run h ms prog).1 P (PVec.run vs prog) (run h ms prog).2 := by
  induction prog with
  | nil => intro h _ vs ms w; exact ⟨List.prefix_refl _, List.prefix_refl _, w⟩
  | cons c prog ih =>
    intro h hP vs ms w
    obtain ⟨k, g, v, _⟩ := stepV hP c fun k _ => w.ver k
    have w' : Pool (step h ms c).1 P (vs ++ [c.step vs]) (ms ++ [(step h ms c).2]) :=
      List.rel_append (w.mono g) (.cons v .nil)
    obtain ⟨i1, i2, i3⟩ := ih (hP.mono g) w'
    exact ⟨g.trans i1, (List.prefix_append _ _).trans i2, i3⟩

end Rustica.PVec.Heap
