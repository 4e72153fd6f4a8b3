import Verif.PVec.Heap
import Verif.PVec.NodeLemmas
import Mathlib.Data.List.Forall2

/-!
# Which node an address shows

The relation between the nodes in memory (`Heap.lean`) and the nodes as values (`Node.lean`).  `P` is a set of addresses: the
lemmas follow through every function that the addresses used stay in a given set.
-/

namespace Rustica.PVec.Heap

variable {α : Type}

mutual
/-- The cell shows the node: the same elements, or the same size table and the addresses of the children, each in `P` and
below `b`. -/
def Shows (h : Mem α) (P : Nat → Prop) (b : Nat) : Node α → Cell α → Prop
  | .leaf elements, c => c = .leaf elements
  | .branch children sizes, c => ∃ as, c = .branch as sizes ∧ ShowsL h P b children as
/-- The addresses show the nodes, one by one. -/
def ShowsL (h : Mem α) (P : Nat → Prop) (b : Nat) : List (Node α) → List Nat → Prop
  | [], as => as = []
  | n :: ns, as => ∃ a rest c, as = a :: rest ∧ a < b ∧ P a ∧ h[a]? = some c ∧ Shows h P a n c ∧ ShowsL h P b ns rest
end

/-- The address shows the node. -/
def At (h : Mem α) (P : Nat → Prop) (n : Node α) (a : Nat) : Prop := P a ∧ ∃ c, h[a]? = some c ∧ Shows h P a n c

/-- All addresses not yet in use are in `P`. -/
def Above (P : Nat → Prop) (h : Mem α) : Prop := ∀ x, h.length ≤ x → P x

theorem showsL_iff {h : Mem α} {P : Nat → Prop} {b : Nat} {ns : List (Node α)} {as : List Nat} :
    ShowsL h P b ns as ↔ List.Forall₂ (fun n a => a < b ∧ At h P n a) ns as := by
  induction ns generalizing as with
  | nil =>
    simp only [ShowsL]
    constructor
    · rintro rfl; exact .nil
    · intro h; cases h; rfl
  | cons n ns ih =>
    simp only [ShowsL]
    constructor
    · rintro ⟨a, rest, c, rfl, h1, h2, h3, h4, h5⟩
      exact .cons ⟨h1, h2, c, h3, h4⟩ (ih.mp h5)
    · intro hf
      cases hf with
      | cons h1 h2 =>
        obtain ⟨h1, h3, c, h4, h5⟩ := h1
        exact ⟨_, _, c, rfl, h1, h3, h4, h5, ih.mpr h2⟩

theorem At.lt {h : Mem α} {P : Nat → Prop} {n : Node α} {a : Nat} (w : At h P n a) : a < h.length := by
  obtain ⟨_, c, hc, _⟩ := w
  exact (List.getElem?_eq_some_iff.mp hc).1

theorem At.cell {h : Mem α} {P : Nat → Prop} {n : Node α} {a : Nat} (w : At h P n a) : Shows h P a n (cell h a) := by
  obtain ⟨_, c, hc, hs⟩ := w
  simp only [Heap.cell, hc, Option.getD_some]
  exact hs

theorem Shows.mono {h h' : Mem α} {P : Nat → Prop} (n : Node α) :
    ∀ {b b' : Nat} {c : Cell α}, Shows h P b n c → h <+: h' → b ≤ b' → Shows h' P b' n c := by
  induction n using Node.induct with
  | hleaf es => intro b b' c hs _ _; simpa [Shows] using hs
  | hbranch cs s ih =>
    intro b b' c hs hp hb
    obtain ⟨as, rfl, hl⟩ := hs
    refine ⟨as, rfl, ?_⟩
    rw [showsL_iff] at hl ⊢
    induction hl with
    | nil => exact .nil
    | cons h1 _ ih2 =>
      obtain ⟨h1, h3, c, h4, h5⟩ := h1
      refine .cons ⟨by omega, h3, c, ?_, ih _ (by simp) h5 hp (Nat.le_refl _)⟩ (ih2 fun c hc => ih c (by simp [hc]))
      obtain ⟨t, rfl⟩ := hp
      rw [List.getElem?_append_left (List.getElem?_eq_some_iff.mp h4).1]
      exact h4

theorem At.mono {h h' : Mem α} {P : Nat → Prop} {n : Node α} {a : Nat} (w : At h P n a) (hp : h <+: h') :
    At h' P n a := by
  obtain ⟨h1, c, hc, hs⟩ := w
  refine ⟨h1, c, ?_, hs.mono n hp (Nat.le_refl _)⟩
  obtain ⟨t, rfl⟩ := hp
  rw [List.getElem?_append_left (List.getElem?_eq_some_iff.mp hc).1]
  exact hc

theorem Above.mono {h h' : Mem α} {P : Nat → Prop} (w : Above P h) (hp : h <+: h') : Above P h' :=
  fun x hx => w x (Nat.le_trans hp.length_le hx)

theorem At.new {h : Mem α} {P : Nat → Prop} {n : Node α} {b : Nat} {c : Cell α} (hs : Shows h P b n c)
    (hb : b ≤ h.length) (hP : Above P h) : At (h ++ [c]) P n h.length :=
  ⟨hP _ (Nat.le_refl _), c, by simp, hs.mono n (List.prefix_append _ _) hb⟩

/-- A list of addresses that show a list of nodes. -/
abbrev AtL (h : Mem α) (P : Nat → Prop) (ns : List (Node α)) (as : List Nat) : Prop :=
  List.Forall₂ (fun n a => At h P n a) ns as

theorem AtL.mono {h h' : Mem α} {P : Nat → Prop} {ns : List (Node α)} {as : List Nat} (w : AtL h P ns as)
    (hp : h <+: h') : AtL h' P ns as := by
  induction w with
  | nil => exact .nil
  | cons h1 _ ih => exact .cons (h1.mono hp) ih

theorem ShowsL.at {h : Mem α} {P : Nat → Prop} {b : Nat} {ns : List (Node α)} {as : List Nat}
    (w : ShowsL h P b ns as) : AtL h P ns as := by
  rw [showsL_iff] at w
  exact w.imp fun _ _ h => h.2

theorem AtL.shows {h : Mem α} {P : Nat → Prop} {ns : List (Node α)} {as : List Nat}
    (w : AtL h P ns as) : ShowsL h P h.length ns as := by
  rw [showsL_iff]
  exact w.imp fun _ _ h => ⟨h.lt, h⟩

/-- A branch whose children are in memory. -/
theorem AtL.branch {h : Mem α} {P : Nat → Prop} {ns : List (Node α)} {as : List Nat}
    (w : AtL h P ns as) (s : Option (List Nat)) : Shows h P h.length (.branch ns s) (.branch as s) :=
  ⟨as, rfl, w.shows⟩

theorem AtL.length {h : Mem α} {P : Nat → Prop} {ns : List (Node α)} {as : List Nat} (w : AtL h P ns as) :
    as.length = ns.length := (List.Forall₂.length_eq w).symm

theorem AtL.append {h : Mem α} {P : Nat → Prop} {ns ms : List (Node α)} {as bs : List Nat}
    (w : AtL h P ns as) (v : AtL h P ms bs) : AtL h P (ns ++ ms) (as ++ bs) := by
  induction w with
  | nil => exact v
  | cons h1 _ ih => exact .cons h1 ih

theorem AtL.one {h : Mem α} {P : Nat → Prop} {n : Node α} {a : Nat} (w : At h P n a) : AtL h P [n] [a] :=
  .cons w .nil

theorem AtL.take {h : Mem α} {P : Nat → Prop} {ns : List (Node α)} {as : List Nat} (w : AtL h P ns as) (k : Nat) :
    AtL h P (ns.take k) (as.take k) := by
  induction w generalizing k with
  | nil => simp only [List.take_nil]; exact .nil
  | cons h1 _ ih =>
    cases k with
    | zero => exact .nil
    | succ k => exact .cons h1 (ih k)

theorem AtL.drop {h : Mem α} {P : Nat → Prop} {ns : List (Node α)} {as : List Nat} (w : AtL h P ns as) (k : Nat) :
    AtL h P (ns.drop k) (as.drop k) := by
  induction w generalizing k with
  | nil => simp only [List.drop_nil]; exact .nil
  | cons h1 h2 ih =>
    cases k with
    | zero => exact .cons h1 h2
    | succ k => exact ih k

theorem AtL.dropLast {h : Mem α} {P : Nat → Prop} {ns : List (Node α)} {as : List Nat} (w : AtL h P ns as) :
    AtL h P ns.dropLast as.dropLast := by
  rw [List.dropLast_eq_take, List.dropLast_eq_take, w.length]
  exact w.take _

theorem AtL.set {h : Mem α} {P : Nat → Prop} {ns : List (Node α)} {as : List Nat} {n : Node α} {a : Nat}
    (w : AtL h P ns as) (v : At h P n a) (k : Nat) : AtL h P (ns.set k n) (as.set k a) := by
  induction w generalizing k with
  | nil => simp only [List.set_nil]; exact .nil
  | cons h1 h2 ih =>
    cases k with
    | zero => exact .cons v h2
    | succ k => exact .cons h1 (ih k)

theorem AtL.isEmpty {h : Mem α} {P : Nat → Prop} {ns : List (Node α)} {as : List Nat} (w : AtL h P ns as) :
    as.isEmpty = ns.isEmpty := by cases w <;> rfl

/-- `calculate_size` reads the same number. -/
theorem calculateSize_eq {h : Mem α} {P : Nat → Prop} (n : Node α) :
    ∀ {b f : Nat} {c : Cell α}, Shows h P b n c → b ≤ f → calculateSize h f c = n.calculateSize := by
  induction n using Node.induct with
  | hleaf es => intro b f c hs _; cases hs; cases f <;> rfl
  | hbranch cs s ih =>
    intro b f c hs hb
    obtain ⟨as, rfl, hl⟩ := hs
    cases s with
    | some s => cases f <;> rfl
    | none =>
      rw [showsL_iff] at hl
      cases f with
      | zero =>
        cases hl with
        | nil => rfl
        | cons h1 _ => omega
      | succ f =>
        simp only [calculateSize, Node.calculateSize]
        induction hl with
        | nil => rfl
        | cons h1 _ ih2 =>
          obtain ⟨h1, h2⟩ := h1
          simp only [List.map_cons, List.sum_cons, Node.calculateSizeL]
          rw [ih _ (by simp) h2.cell (by omega), ih2 fun c hc => ih c (by simp [hc])]

theorem At.size {h : Mem α} {P : Nat → Prop} {n : Node α} {a : Nat} (w : At h P n a) :
    sizeAt h a = n.calculateSize := calculateSize_eq n w.cell (Nat.le_refl _)

theorem AtL.sizes {h : Mem α} {P : Nat → Prop} {ns : List (Node α)} {as : List Nat} (w : AtL h P ns as) :
    as.map (sizeAt h) = ns.map Node.calculateSize := by
  induction w with
  | nil => rfl
  | cons h1 _ ih => rw [List.map_cons, List.map_cons, h1.size, ih]

theorem AtL.makeRelaxed {h : Mem α} {P : Nat → Prop} {ns : List (Node α)} {as : List Nat} (w : AtL h P ns as) :
    Shows h P h.length (Node.makeRelaxed ns) (makeRelaxed h as) := by
  simp only [Node.makeRelaxed, Heap.makeRelaxed, w.sizes]
  exact w.branch _

theorem findChildRegular_eq (ns : List (Node α)) (i ht : Nat) :
    findChildRegular ns.length i ht = Node.findChildRegular ns i ht := rfl

/-- The child that a list of addresses holds at a position. -/
theorem AtL.get {h : Mem α} {P : Nat → Prop} {ns : List (Node α)} {as : List Nat} (w : AtL h P ns as) (k : Nat) :
    (∃ n a, ns[k]? = some n ∧ as[k]? = some a ∧ At h P n a) ∨ (ns[k]? = none ∧ as[k]? = none) := by
  induction w generalizing k with
  | nil => right; simp
  | @cons n a _ _ h1 _ ih =>
    cases k with
    | zero => exact .inl ⟨n, a, rfl, rfl, h1⟩
    | succ k => simpa using ih k

theorem getL_get (ns : List (Node α)) (k j : Nat) : Node.getL ns k j = ns[k]?.bind fun n => n.get j := by
  induction ns generalizing k with
  | nil => simp [Node.getL]
  | cons n ns ih => cases k <;> simp [Node.getL, ih]

theorem updateL_set (ns : List (Node α)) (k j : Nat) (x : α) :
    Node.updateL ns k j x = (ns[k]?.map fun n => ns.set k (n.update j x)).getD ns := by
  induction ns generalizing k with
  | nil => simp [Node.updateL]
  | cons n ns ih =>
    cases k with
    | zero => simp [Node.updateL]
    | succ k =>
      simp only [Node.updateL, ih, List.getElem?_cons_succ, List.set_cons_succ]
      cases ns[k]? <;> simp

theorem popBackLast_getLast (ns : List (Node α)) : Node.popBackLast ns = ns.getLast?.bind Node.popBack := by
  induction ns with
  | nil => rfl
  | cons n ns ih =>
    cases ns with
    | nil => rfl
    | cons m ms => simp only [Node.popBackLast, ih, List.getLast?_cons_cons]

theorem getFromNodeL_get (ns : List (Node α)) (k j ht : Nat) :
    Tree.getFromNodeL ns k j ht = ns[k]?.bind fun n => Tree.getFromNode n j ht := by
  induction ns generalizing k with
  | nil => simp [Tree.getFromNodeL]
  | cons n ns ih => cases k <;> simp [Tree.getFromNodeL, ih]

theorem findPathL_get (ns : List (Node α)) (k ht j : Nat) :
    Tree.findPathL ns k ht j = (ns[k]?.map fun n => Tree.findPath n ht j).getD [] := by
  induction ns generalizing k with
  | nil => simp [Tree.findPathL]
  | cons n ns ih => cases k <;> simp [Tree.findPathL, ih]

theorem splitChild_get (ns : List (Node α)) (k : Nat) (path : List Nat) (j ht : Nat) :
    Tree.splitChild ns k path j ht = ns[k]?.map fun n => Tree.splitAlongPath n path j ht := by
  induction ns generalizing k with
  | nil => simp [Tree.splitChild]
  | cons n ns ih => cases k <;> simp [Tree.splitChild, ih]

theorem concatLast_getLast (ns : List (Node α)) (r : Node α) :
    Tree.concatLast ns r = ns.getLast?.map fun n => Tree.concatNodes n r := by
  induction ns with
  | nil => rfl
  | cons n ns ih =>
    cases ns with
    | nil => rfl
    | cons m ms => simp only [Tree.concatLast, ih, List.getLast?_cons_cons]

/-- The same with the bound on the address. -/
theorem ShowsL.get {h : Mem α} {P : Nat → Prop} {b : Nat} {ns : List (Node α)} {as : List Nat}
    (w : ShowsL h P b ns as) (k : Nat) :
    (∃ n a, ns[k]? = some n ∧ as[k]? = some a ∧ a < b ∧ At h P n a) ∨ (ns[k]? = none ∧ as[k]? = none) := by
  rw [showsL_iff] at w
  induction w generalizing k with
  | nil => right; simp
  | @cons n a _ _ h1 _ ih =>
    cases k with
    | zero => exact .inl ⟨n, a, rfl, rfl, h1⟩
    | succ k => simpa using ih k

theorem ShowsL.getLast {h : Mem α} {P : Nat → Prop} {b : Nat} {ns : List (Node α)} {as : List Nat}
    (w : ShowsL h P b ns as) :
    (∃ n a, ns.getLast? = some n ∧ as.getLast? = some a ∧ n ∈ ns ∧ a < b ∧ At h P n a) ∨
      (ns = [] ∧ as = []) := by
  rcases w.get (ns.length - 1) with ⟨n, a, e1, e2, e3, e4⟩ | ⟨e1, e2⟩
  · refine .inl ⟨n, a, by rw [List.getLast?_eq_getElem?]; exact e1, ?_, List.mem_of_getElem? e1, e3, e4⟩
    rw [List.getLast?_eq_getElem?, w.at.length]; exact e2
  · have : ns = [] := by
      cases ns with
      | nil => rfl
      | cons n ns => simp at e1
    subst this
    exact .inr ⟨rfl, w⟩

/-! ## The functions of `node.rs` -/

theorem get_eq {h : Mem α} {P : Nat → Prop} (n : Node α) :
    ∀ {b f : Nat} {c : Cell α}, Shows h P b n c → b ≤ f → ∀ i, get h f c i = n.get i := by
  induction n using Node.induct with
  | hleaf es => intro b f c hs _ i; cases hs; cases f <;> rfl
  | hbranch cs s ih =>
    intro b f c hs hb i
    obtain ⟨as, rfl, hl⟩ := hs
    have hat := hl.at
    simp only [Node.get, getL_get]
    cases f with
    | zero =>
      simp only [get]
      split
      · rename_i k j _
        rcases hl.get k with ⟨n, a, e1, e2, e3, e4⟩ | ⟨e1, e2⟩
        · omega
        · simp only [e1, Option.bind_none]
      · rfl
    | succ f =>
      simp only [get, hat.length, findChildRegular_eq]
      have key : ∀ o : Option (Nat × Nat),
          (match o with
            | some (k, j) => (match as[k]? with
              | some a => get h f (cell h a) j
              | none => none)
            | none => none) =
          (match o with
            | some (k, j) => cs[k]?.bind fun n => n.get j
            | none => none) := by
        rintro (_ | ⟨k, j⟩)
        · rfl
        · dsimp only
          rcases hl.get k with ⟨n, a, e1, e2, e3, e4⟩ | ⟨e1, e2⟩
          · simp only [e1, e2, Option.bind_some]
            exact ih n (List.mem_of_getElem? e1) e4.cell (by omega) j
          · simp only [e1, e2, Option.bind_none]
      cases s <;> exact key _

/-- A function made a node from memory `h`: memory was extended and the cell shows the node. -/
structure Made (h : Mem α) (P : Nat → Prop) (n : Node α) (r : Mem α × Cell α) : Prop where
  grows : h <+: r.1
  shows : Shows r.1 P r.1.length n r.2

theorem Made.at {h : Mem α} {P : Nat → Prop} {n : Node α} {r : Mem α × Cell α} (w : Made h P n r) (hP : Above P h) :
    At (r.1 ++ [r.2]) P n r.1.length := At.new w.shows (Nat.le_refl _) (hP.mono w.grows)

mutual
/-- The number of nodes below the root that `update` copies (node.rs:183-212). -/
def copies : Node α → Nat → Nat
  | .leaf _, _ => 0
  | .branch children sizes, index =>
    match Node.findChild sizes index with
    | some (childIndex, subIndex) => copiesL children childIndex subIndex
    | none => 0
/-- The child at the position, and the nodes copied below it. -/
def copiesL : List (Node α) → Nat → Nat → Nat
  | [], _, _ => 0
  | c :: _, 0, j => copies c j + 1
  | _ :: cs, i + 1, j => copiesL cs i j
end

theorem copiesL_get (ns : List (Node α)) (k j : Nat) :
    copiesL ns k j = (ns[k]?.map fun n => copies n j + 1).getD 0 := by
  induction ns generalizing k with
  | nil => simp [copiesL]
  | cons n ns ih => cases k <;> simp [copiesL, ih]

theorem le_depthL {n : Node α} {ns : List (Node α)} (hn : n ∈ ns) : n.depth ≤ Node.depthL ns := by
  induction ns with
  | nil => cases hn
  | cons m ms ih =>
    simp only [Node.depthL]
    cases hn with
    | head => omega
    | tail _ hn => have := ih hn; omega

theorem copies_le (n : Node α) : ∀ i, copies n i ≤ n.depth := by
  induction n using Node.induct with
  | hleaf es => intro i; simp [copies]
  | hbranch cs s ih =>
    intro i
    simp only [copies, Node.depth]
    split
    · rename_i k j _
      rw [copiesL_get]
      cases e : cs[k]? with
      | none => simp
      | some n =>
        have hm := List.mem_of_getElem? e
        have := ih n hm j
        have := le_depthL hm
        simp; omega
    · omega

theorem update_made {h : Mem α} {P : Nat → Prop} (hP : Above P h) (n : Node α) :
    ∀ {b f : Nat} {c : Cell α}, Shows h P b n c → b ≤ f → b ≤ h.length → ∀ (i : Nat) (x : α),
      Made h P (n.update i x) (update h f c i x) ∧ (update h f c i x).1.length = h.length + copies n i := by
  induction n using Node.induct with
  | hleaf es =>
    intro b f c hs _ _ i x
    cases hs
    have e : update h f (.leaf es) i x = (h, .leaf (if i < es.length then es.set i x else es)) := by
      cases f <;> rfl
    rw [e]
    exact ⟨⟨List.prefix_refl _, rfl⟩, rfl⟩
  | hbranch cs s ih =>
    intro b f c hs hb hbl i x
    obtain ⟨as, rfl, hl⟩ := hs
    have same : Made h P (.branch cs s) (h, .branch as s) := ⟨List.prefix_refl _, hl.at.branch s⟩
    simp only [Node.update, copies, updateL_set, copiesL_get]
    cases f with
    | zero =>
      have hcs : cs = [] := by
        cases cs with
        | nil => rfl
        | cons n ns => obtain ⟨a, rest, c, _, h2, _⟩ := hl; omega
      subst hcs
      simp only [update]
      cases Node.findChild s i with
      | none => exact ⟨same, rfl⟩
      | some kj => simp only [List.getElem?_nil, Option.map_none, Option.getD_none]; exact ⟨same, rfl⟩
    | succ f =>
      simp only [update]
      cases Node.findChild s i with
      | none => exact ⟨same, rfl⟩
      | some kj =>
        obtain ⟨k, j⟩ := kj
        dsimp only
        rcases hl.get k with ⟨n, a, e1, e2, e3, e4⟩ | ⟨e1, e2⟩
        · simp only [e1, e2, Option.map_some, Option.getD_some]
          obtain ⟨m, hlen⟩ := ih n (List.mem_of_getElem? e1) e4.cell (f := f) (by omega) (by omega) j x
          refine ⟨⟨m.grows.trans (List.prefix_append _ _), ?_⟩, ?_⟩
          · exact ((hl.at.mono (m.grows.trans (List.prefix_append _ _))).set (m.at hP) k).branch s
          · rw [List.length_append, hlen]; simp; omega
        · simp only [e1, e2, Option.map_none, Option.getD_none]
          exact ⟨same, rfl⟩

theorem pushLeaf_made {h : Mem α} {P : Nat → Prop} (hP : Above P h) {n l : Node α} {a b : Nat} (hn : At h P n a)
    (hl : At h P l b) :
    Made h P (n.pushLeaf l) (pushLeaf h a b) ∧ (pushLeaf h a b).1.length ≤ h.length + 1 := by
  have copy : ∀ c, cell h a = c → Made h P (.branch [n, l] (some [n.calculateSize, l.calculateSize]))
      (h ++ [c], .branch [h.length, b] (some [sizeAt h a, sizeAt h b])) := by
    rintro c rfl
    have hn' : At (h ++ [cell h a]) P n h.length := At.new hn.cell (Nat.le_of_lt hn.lt) hP
    refine ⟨List.prefix_append _ _, ?_⟩
    rw [hn.size, hl.size]
    exact AtL.branch (.cons hn' (.cons (hl.mono (List.prefix_append _ _)) .nil)) _
  have hs := hn.cell
  match n, hs with
  | .leaf es, hs =>
    have e : cell h a = .leaf es := hs
    simp only [pushLeaf, e, Node.pushLeaf]
    exact ⟨copy _ e, by simp⟩
  | .branch cs s, hs =>
    obtain ⟨as, e, hcs⟩ := hs
    have hat := hcs.at
    simp only [pushLeaf, e, Node.pushLeaf, hat.length]
    split
    · refine ⟨⟨List.prefix_refl _, ?_⟩, by simp⟩
      dsimp only
      rw [hat.sizes, hl.size]
      exact (hat.append (.one hl)).branch _
    · exact ⟨copy _ e, by simp⟩

theorem pushFrontLeaf_made {h : Mem α} {P : Nat → Prop} (hP : Above P h) {n l : Node α} {a b : Nat} (hn : At h P n a)
    (hl : At h P l b) :
    Made h P (n.pushFrontLeaf l) (pushFrontLeaf h a b) ∧ (pushFrontLeaf h a b).1.length ≤ h.length + 1 := by
  have copy : ∀ c, cell h a = c → Made h P (.branch [l, n] (some [l.calculateSize, n.calculateSize]))
      (h ++ [c], .branch [b, h.length] (some [sizeAt h b, sizeAt h a])) := by
    rintro c rfl
    have hn' : At (h ++ [cell h a]) P n h.length := At.new hn.cell (Nat.le_of_lt hn.lt) hP
    refine ⟨List.prefix_append _ _, ?_⟩
    rw [hn.size, hl.size]
    exact AtL.branch (.cons (hl.mono (List.prefix_append _ _)) (.cons hn' .nil)) _
  have hs := hn.cell
  match n, hs with
  | .leaf es, hs =>
    have e : cell h a = .leaf es := hs
    simp only [pushFrontLeaf, e, Node.pushFrontLeaf]
    exact ⟨copy _ e, by simp⟩
  | .branch cs s, hs =>
    obtain ⟨as, e, hcs⟩ := hs
    have hat := hcs.at
    simp only [pushFrontLeaf, e, Node.pushFrontLeaf, hat.length]
    split
    · refine ⟨⟨List.prefix_refl _, ?_⟩, by simp⟩
      dsimp only
      rw [hat.sizes, hl.size]
      exact AtL.branch (List.Forall₂.cons hl hat : AtL h P (l :: cs) (b :: as)) _
    · exact ⟨copy _ e, by simp⟩

/-- What `pop_back` or `pop_front` of a node does in memory: nothing if the node is empty; otherwise a node was made from at
most `d` new cells, and the element is the same. -/
def Popped (h : Mem α) (P : Nat → Prop) (d : Nat) : Option (Node α × α) → Option (Mem α × Cell α × α) → Prop
  | none, r => r = none
  | some (n, x), r => ∃ h1 c, r = some (h1, c, x) ∧ Made h P n (h1, c) ∧ h1.length ≤ h.length + d

theorem popBack_made {h : Mem α} {P : Nat → Prop} (hP : Above P h) (n : Node α) :
    ∀ {b f : Nat} {c : Cell α}, Shows h P b n c → b ≤ f → b ≤ h.length →
      Popped h P n.depth n.popBack (popBack h f c) := by
  induction n using Node.induct with
  | hleaf es =>
    intro b f c hs _ _
    cases hs
    have e : popBack h f (.leaf es) = (match es.getLast? with
      | none => none
      | some x => some (h, .leaf es.dropLast, x)) := by cases f <;> rfl
    rw [e]
    simp only [Node.popBack]
    cases es.getLast? with
    | none => rfl
    | some x => exact ⟨h, _, rfl, ⟨List.prefix_refl _, rfl⟩, by simp⟩
  | hbranch cs s ih =>
    intro b f c hs hb hbl
    obtain ⟨as, rfl, hl⟩ := hs
    have hat := hl.at
    simp only [Node.popBack, popBackLast_getLast]
    rcases hl.getLast with ⟨n, a, e1, e2, e3, e4, e5⟩ | ⟨rfl, rfl⟩
    · obtain ⟨f, rfl⟩ : ∃ f', f = f' + 1 := ⟨f - 1, by omega⟩
      simp only [popBack, e1, e2, Option.bind_some]
      have hi := ih n e3 e5.cell (f := f) (by omega) (by omega)
      have hd := le_depthL e3
      cases hp : n.popBack with
      | none =>
        rw [hp] at hi
        simp only [Popped] at hi ⊢
        rw [hi]
      | some r =>
        obtain ⟨m, x⟩ := r
        rw [hp] at hi
        obtain ⟨h1, c1, hr, hm, hlen⟩ := hi
        have hsz : calculateSize h1 h1.length c1 = m.calculateSize := calculateSize_eq m hm.shows (Nat.le_refl _)
        simp only [hr, hsz]
        by_cases h0 : m.calculateSize = 0
        · simp only [h0, if_true]
          have hd' := hat.dropLast.mono hm.grows
          rw [hd'.isEmpty]
          cases hem : cs.dropLast.isEmpty with
          | true => exact ⟨h1, _, rfl, ⟨hm.grows, rfl⟩, by simp only [Node.depth]; omega⟩
          | false =>
            refine ⟨h1, _, rfl, ⟨hm.grows, ?_⟩, by simp only [Node.depth]; omega⟩
            rw [hat.length]
            exact hd'.branch _
        · simp only [h0, if_false]
          refine ⟨_, _, rfl, ⟨hm.grows.trans (List.prefix_append _ _), ?_⟩, ?_⟩
          · rw [hat.length]
            exact ((hat.mono (hm.grows.trans (List.prefix_append _ _))).set (hm.at hP) _).branch _
          · simp only [List.length_append, List.length_singleton, Node.depth]; omega
    · simp only [List.getLast?_nil, Option.bind_none]
      cases f <;> rfl

theorem popFront_made {h : Mem α} {P : Nat → Prop} (hP : Above P h) (n : Node α) :
    ∀ {b f : Nat} {c : Cell α}, Shows h P b n c → b ≤ f → b ≤ h.length →
      Popped h P n.depth n.popFront (popFront h f c) := by
  induction n using Node.induct with
  | hleaf es =>
    intro b f c hs _ _
    cases hs
    have e : popFront h f (.leaf es) = (match es with
      | [] => none
      | x :: rest => some (h, .leaf rest, x)) := by cases f <;> rfl
    rw [e]
    simp only [Node.popFront]
    cases es with
    | nil => rfl
    | cons x es => exact ⟨h, _, rfl, ⟨List.prefix_refl _, rfl⟩, by simp⟩
  | hbranch cs s ih =>
    intro b f c hs hb hbl
    obtain ⟨as, rfl, hl⟩ := hs
    have hat := hl.at
    match cs, as, hat, hl, ih with
    | [], [], _, _, _ => cases f <;> rfl
    | n :: ns, a :: as, hat, hl, ih =>
      obtain ⟨a', rest', c', e1, e2, e3, e4, e5, e6⟩ := hl
      simp only [List.cons.injEq] at e1
      obtain ⟨rfl, rfl⟩ := e1
      have e5 : At h P n a := ⟨e3, c', e4, e5⟩
      obtain ⟨f, rfl⟩ : ∃ f', f = f' + 1 := ⟨f - 1, by omega⟩
      simp only [popFront, Node.popFront]
      have hi := ih n (by simp) e5.cell (f := f) (by omega) (by omega)
      have hd : n.depth ≤ Node.depthL (n :: ns) := le_depthL (by simp)
      have hat' := e6.at
      cases hp : n.popFront with
      | none =>
        rw [hp] at hi
        simp only [Popped] at hi ⊢
        rw [hi]
      | some r =>
        obtain ⟨m, x⟩ := r
        rw [hp] at hi
        obtain ⟨h1, c1, hr, hm, hlen⟩ := hi
        have hsz : calculateSize h1 h1.length c1 = m.calculateSize := calculateSize_eq m hm.shows (Nat.le_refl _)
        simp only [hr, hsz]
        by_cases h0 : m.calculateSize = 0
        · simp only [h0, if_true]
          have hd' := hat'.mono hm.grows
          rw [hd'.isEmpty]
          cases hem : ns.isEmpty with
          | true => exact ⟨h1, _, rfl, ⟨hm.grows, rfl⟩, by simp only [Node.depth]; omega⟩
          | false => exact ⟨h1, _, rfl, ⟨hm.grows, hd'.branch _⟩, by simp only [Node.depth]; omega⟩
        · simp only [h0, if_false]
          refine ⟨_, _, rfl, ⟨hm.grows.trans (List.prefix_append _ _), ?_⟩, ?_⟩
          · exact AtL.branch (List.Forall₂.cons (hm.at hP)
              (hat'.mono (hm.grows.trans (List.prefix_append _ _))) : AtL _ P (m :: ns) _) _
          · simp only [List.length_append, List.length_singleton, Node.depth]; omega

end Rustica.PVec.Heap
