import Verif.PVec.SharingTree
import Verif.PVec.Theorems.Cost
import Verif.PVec.Theorems.Levels
import Verif.PVec.Theorems.Overflow

/-!
# Versions share their nodes in memory (C89)

The documentation promises that operations return new vectors that share structure with the original.  The theorems are
about programs run on the memory of `Heap.lean`.
-/

namespace Rustica.PVec.Heap

variable {α : Type}

/-- The node at the second address is the node at the first one or below it. -/
inductive Below (h : Mem α) : Nat → Nat → Prop where
  | self (a : Nat) : Below h a a
  | child {a b c : Nat} {children : List Nat} {sizes : Option (List Nat)} :
    h[a]? = some (.branch children sizes) → c ∈ children → Below h c b → Below h a b

/-- The address of the root, if the vector is a tree. -/
def rootOf (m : VecM α) : Option Nat :=
  match m.inner with
  | .inl _ => none
  | .inr t => some t.root

/-- The vector uses the node at the address. -/
def Uses (h : Mem α) (m : VecM α) (b : Nat) : Prop := ∃ a, rootOf m = some a ∧ Below h a b

theorem forall₂_right {β γ : Type} {R : β → γ → Prop} {xs : List β} {ys : List γ} (h : List.Forall₂ R xs ys) {y : γ}
    (hy : y ∈ ys) : ∃ x ∈ xs, R x y := by
  induction h with
  | nil => cases hy
  | cons h1 _ ih =>
    cases hy with
    | head => exact ⟨_, by simp, h1⟩
    | tail _ hy => obtain ⟨x, hx, hr⟩ := ih hy; exact ⟨x, by simp [hx], hr⟩

theorem At.below {h : Mem α} {P : Nat → Prop} {a b : Nat} (hb : Below h a b) :
    ∀ {n : Node α}, At h P n a → P b := by
  induction hb with
  | self a => intro n w; exact w.1
  | child hc hm _ ih =>
    intro n w
    obtain ⟨_, c, hc', hs⟩ := w
    rw [hc] at hc'
    cases hc'
    cases n with
    | leaf es => simp [Shows] at hs
    | branch ns s =>
      obtain ⟨as, e, hl⟩ := hs
      cases e
      obtain ⟨m, _, _, hm'⟩ := forall₂_right (showsL_iff.mp hl) hm
      exact ih hm'

theorem At.widen {h : Mem α} {P Q : Nat → Prop} (n : Node α) :
    ∀ {a : Nat}, At h Q n a → (∀ b, Below h a b → P b) → At h P n a := by
  induction n using Node.induct with
  | hleaf es =>
    intro a w hb
    obtain ⟨_, c, hc, hs⟩ := w
    exact ⟨hb a (.self a), c, hc, by simpa [Shows] using hs⟩
  | hbranch cs s ih =>
    intro a w hb
    obtain ⟨_, c, hc, as, rfl, hl⟩ := w
    refine ⟨hb a (.self a), _, hc, as, rfl, ?_⟩
    rw [showsL_iff] at hl ⊢
    have hb' : ∀ x ∈ as, ∀ b, Below h x b → P b := fun x hx b hxb => hb b (.child hc hx hxb)
    clear hc hb
    induction hl with
    | nil => exact .nil
    | cons h1 _ ih2 =>
      exact .cons ⟨h1.1, ih _ (by simp) h1.2 (hb' _ (by simp))⟩
        (ih2 (fun c hc => ih c (by simp [hc])) fun x hx => hb' x (by simp [hx]))

theorem VecAt.uses {h : Mem α} {P : Nat → Prop} {v : PV α} {m : VecM α} (w : VecAt h P v m) {b : Nat}
    (hb : Uses h m b) : P b := by
  obtain ⟨inner, len, gen⟩ := v
  cases inner with
  | inline es => cases w; obtain ⟨a, e, _⟩ := hb; cases e
  | tree t =>
    obtain ⟨u, rfl, a, rfl, w⟩ := w
    obtain ⟨_, e, hb⟩ := hb
    cases e
    exact At.below hb w

theorem VecAt.widen {h : Mem α} {P Q : Nat → Prop} {v : PV α} {m : VecM α} (w : VecAt h Q v m)
    (hb : ∀ b, Uses h m b → P b) : VecAt h P v m := by
  obtain ⟨inner, len, gen⟩ := v
  cases inner with
  | inline es => exact w
  | tree t =>
    obtain ⟨u, rfl, a, rfl, w⟩ := w
    exact ⟨_, rfl, a, rfl, At.widen t.root w fun b hab => hb b ⟨a, rfl, hab⟩⟩

theorem run_append (h : Mem α) (ms : List (VecM α)) (p q : List (Instr α)) :
    run h ms (p ++ q) = run (run h ms p).1 (run h ms p).2 q := by
  induction p generalizing h ms with
  | nil => rfl
  | cons c p ih => exact ih _ _

theorem run_length (h : Mem α) (ms : List (VecM α)) (p : List (Instr α)) :
    (run h ms p).2.length = ms.length + p.length := by
  induction p generalizing h ms with
  | nil => rfl
  | cons c p ih => simp only [run, ih, List.length_append, List.length_cons, List.length_nil]; omega

theorem pool_run (prog : List (Instr α)) :
    Pool (run [] [] prog).1 (fun _ => True) (PVec.run [] prog) (run [] [] prog).2 :=
  (runV (P := fun _ => True) prog (fun _ _ => trivial) .nil).2.2

theorem run_reach (prog : List (Instr α)) (k : Nat) : Reach (Instr.ver (PVec.run [] prog) k) := by
  suffices hh : ∀ (prog : List (Instr α)) (pool : List (PV α)), (∀ k, Reach (Instr.ver pool k)) →
      ∀ k, Reach (Instr.ver (PVec.run pool prog) k) from hh prog [] (fun k => .new) k
  intro prog
  induction prog with
  | nil => intro pool h; exact h
  | cons c prog ih =>
    intro pool h
    refine ih _ fun k => ?_
    rw [Instr.ver_snoc]
    split
    · exact Instr.step_reach h c
    · exact h k

/-! ## Values and persistence -/

/-- C89: after any program, every version in memory has the length and the elements that it has when vectors are values. -/
theorem c89_values (prog : List (Instr α)) (k i : Nat) :
    (ver (run [] [] prog).2 k).len = (Instr.ver (PVec.run [] prog) k).len ∧
      (ver (run [] [] prog).2 k).get (run [] [] prog).1 i = (Instr.ver (PVec.run [] prog) k).get i :=
  ⟨((pool_run prog).ver k).len.1, ((pool_run prog).ver k).get i⟩

/-- C89: whatever a program does next, it leaves the memory in use as it is, and every version made so far keeps its root and
reads the same at every index. -/
theorem c89_persistent (prog more : List (Instr α)) (k i : Nat) (hk : k < prog.length) :
    (run [] [] prog).1 <+: (run [] [] (prog ++ more)).1 ∧
      ver (run [] [] (prog ++ more)).2 k = ver (run [] [] prog).2 k ∧
      (ver (run [] [] (prog ++ more)).2 k).get (run [] [] (prog ++ more)).1 i =
        (ver (run [] [] prog).2 k).get (run [] [] prog).1 i := by
  obtain ⟨g1, g2, g3⟩ := runV (P := fun _ => True) more (fun _ _ => trivial) (pool_run prog)
  rw [← run_append] at g1 g2 g3
  have e : ver (run [] [] (prog ++ more)).2 k = ver (run [] [] prog).2 k := by
    obtain ⟨t, ht⟩ := g2
    simp only [ver, ← ht]
    rw [List.getElem?_append_left (by rw [run_length]; simpa using hk)]
  refine ⟨g1, e, ?_⟩
  have w := (pool_run prog).ver k
  rw [e, (w.mono g1).get i, w.get i]

/-- Two hundred elements, one of them then replaced: the first version still reads the old one. -/
example : (ver (run [] [] ([.fromIter (List.range 200)] ++ [.update 0 5 7])).2 0).get
      (run [] [] ([.fromIter (List.range 200)] ++ [.update 0 5 7])).1 5 = some 5 ∧
    (ver (run [] [] ([.fromIter (List.range 200)] ++ [.update 0 5 7])).2 1).get
      (run [] [] ([.fromIter (List.range 200)] ++ [.update 0 5 7])).1 5 = some 7 :=
  ⟨((c89_persistent [.fromIter (List.range 200)] [.update 0 5 7] 0 5 (by decide)).2.2).trans (by decide +kernel),
    by decide +kernel⟩

/-! ## Sharing -/

/-- C89: every node that the result of a call uses is new or is a node that a vector given to the call uses. -/
theorem c89_shared (prog : List (Instr α)) (c : Instr α) (b : Nat)
    (hb : Uses (step (run [] [] prog).1 (run [] [] prog).2 c).1 (step (run [] [] prog).1 (run [] [] prog).2 c).2 b) :
    (run [] [] prog).1.length ≤ b ∨
      ∃ k ∈ operands c, Uses (run [] [] prog).1 (ver (run [] [] prog).2 k) b := by
  obtain ⟨k, w⟩ := stepV (h := (run [] [] prog).1) (vs := PVec.run [] prog) (ms := (run [] [] prog).2)
    (P := fun b => (run [] [] prog).1.length ≤ b ∨
      ∃ k ∈ operands c, Uses (run [] [] prog).1 (ver (run [] [] prog).2 k) b)
    (fun x hx => .inl hx) c
    (fun k hk => ((pool_run prog).ver k).widen fun b hb => .inr ⟨k, hk, hb⟩)
  exact w.vec.uses hb

/-- A version of three leaves below a root, in cells 0 to 3.  After the update of an element of the first leaf, in cells 4
and 5, the new version uses the second leaf of the old one. -/
example : Uses (run [] [] [.fromIter (List.range 200)]).1 (ver (run [] [] [.fromIter (List.range 200)]).2 0) 1 ∧
    Uses (run [] [] [.fromIter (List.range 200), .update 0 5 7]).1
      (ver (run [] [] [.fromIter (List.range 200), .update 0 5 7]).2 1) 1 ∧
    (run [] [] [.fromIter (List.range 200), .update 0 5 7]).1.length = 6 := by
  refine ⟨⟨3, ?_, .child (c := 1) (children := [0, 1, 2]) (sizes := some [64, 64, 64]) ?_ (by decide) (.self 1)⟩,
    ⟨5, ?_, .child (c := 1) (children := [4, 1, 2]) (sizes := some [64, 64, 64]) ?_ (by decide) (.self 1)⟩, ?_⟩ <;>
    decide +kernel

/-! ## The number of new nodes -/

theorem copies_visits (n : Node α) : n.Sized → ∀ i ht, n.visits i ht = copies n i + 1 := by
  induction n using Node.induct with
  | hleaf es => intro _ i ht; simp [Node.visits, copies]
  | hbranch cs s ih =>
    intro hs i ht
    obtain ⟨hn, rfl, hc⟩ := (Node.sized_branch _ _).mp hs
    simp only [Node.visits, copies, Node.findChild]
    cases Node.scanSizes _ 0 0 i with
    | none => rfl
    | some r =>
      obtain ⟨k, j⟩ := r
      simp only
      congr 1
      clear hs hn
      induction cs generalizing k with
      | nil => rfl
      | cons c cs ih2 =>
        cases k with
        | zero => exact ih c (by simp) (hc c (by simp)) j _
        | succ k => exact ih2 (fun c h => ih c (by simp [h])) (fun c h => hc c (by simp [h])) k

/-- C89: `update` takes one new node for every node that `get` reads at the index, and no other. -/
theorem c89_update_cells (prog : List (Instr α)) (k i : Nat) (x : α)
    (hi : i < (Instr.ver (PVec.run [] prog) k).len) :
    (step (run [] [] prog).1 (run [] [] prog).2 (.update k i x)).1.length =
      (run [] [] prog).1.length + (Instr.ver (PVec.run [] prog) k).visits i := by
  have hl := (run_reach prog k).lax
  have e := (updateV (P := fun _ => True) (fun _ _ => trivial) ((pool_run prog).ver k) i x).2
  refine e.trans ?_
  congr 1
  generalize Instr.ver (PVec.run [] prog) k = v at hi hl
  obtain ⟨inner, len, gen⟩ := v
  cases inner with
  | inline es => rfl
  | tree t =>
    simp only [updateCells, PV.visits, treeCopies]
    rw [if_pos hi]
    split
    · exact (copies_visits _ hl _ _).symm
    · rfl

/-- Replacing element 5 of 200 takes two nodes: the leaf and the root. -/
example : (step (run [] [] [.fromIter (List.range 200)]).1 (run [] [] [.fromIter (List.range 200)]).2
      (.update 0 5 7)).1.length =
    (run [] [] [.fromIter (List.range 200)]).1.length + 2 :=
  (c89_update_cells [.fromIter (List.range 200)] 0 5 7 (by decide +kernel)).trans (by
    rw [show (Instr.ver (PVec.run [] [.fromIter (List.range 200)]) 0).visits 5 = 2 by decide +kernel])

/-- What happens on `push_back` to the last elements: an inline vector of fewer than 64 elements and a tail of fewer than 64
elements have room for one more. -/
def RoomBack (v : PV α) : Prop :=
  match v.inner with
  | .inline es => es.length < 64
  | .tree t => t.tail.length < 64

/-- The same for `push_front`. -/
def RoomFront (v : PV α) : Prop :=
  match v.inner with
  | .inline es => es.length < 64
  | .tree t => t.head.length < 64

theorem fromElements_small (es : List α) (h : es.length ≤ 64) :
    (Tree.fromElements es).tail = [] ∧ (Tree.fromElements es).head = [] ∧ (Tree.fromElements es).root.depth = 0 ∧
      (Tree.fromElements es).height = 0 := by
  simp only [Tree.fromElements, LEAF_CAPACITY]
  rw [if_pos h]
  exact ⟨rfl, rfl, rfl, rfl⟩

theorem pushBackCells_le {v : PV α} (h : v.Lax) : pushBackCells v ≤ 4 := by
  obtain ⟨inner, len, gen⟩ := v
  cases inner with
  | inline es =>
    have h2 : es.length ≤ 64 := h.2
    simp only [pushBackCells, treeCells, (fromElements_small es h2).1, List.length_nil]
    split
    · omega
    · simp only [Nat.zero_lt_succ, if_true]; omega
  | tree t => simp only [pushBackCells]; split <;> omega

theorem pushFrontCells_le {v : PV α} (h : v.Lax) : pushFrontCells v ≤ 4 := by
  obtain ⟨inner, len, gen⟩ := v
  cases inner with
  | inline es =>
    have h2 : es.length ≤ 64 := h.2
    simp only [pushFrontCells, treeCells, (fromElements_small es h2).2.1, List.length_nil]
    split
    · omega
    · simp only [Nat.zero_lt_succ, if_true]; omega
  | tree t => simp only [pushFrontCells]; split <;> omega

theorem pushBackCells_room {v : PV α} (h : RoomBack v) : pushBackCells v = 0 := by
  obtain ⟨inner, len, gen⟩ := v
  cases inner <;> exact if_pos h

theorem pushFrontCells_room {v : PV α} (h : RoomFront v) : pushFrontCells v = 0 := by
  obtain ⟨inner, len, gen⟩ := v
  cases inner <;> exact if_pos h

/-- C89: `push_back` takes at most four new nodes, however large the vector, and none while there is room at the back. -/
theorem c89_push_back_cells (prog : List (Instr α)) (k : Nat) (x : α) :
    (step (run [] [] prog).1 (run [] [] prog).2 (.pushBack k x)).1.length ≤ (run [] [] prog).1.length + 4 ∧
      (RoomBack (Instr.ver (PVec.run [] prog) k) →
        (step (run [] [] prog).1 (run [] [] prog).2 (.pushBack k x)).1 = (run [] [] prog).1) := by
  have w := pushBackV (P := fun _ => True) (fun _ _ => trivial) ((pool_run prog).ver k) x
  have hl := pushBackCells_le (run_reach prog k).lax
  refine ⟨Nat.le_trans w.cells (by omega), fun hr => ?_⟩
  have hc := w.cells
  rw [pushBackCells_room hr] at hc
  exact (w.grows.eq_of_length_le hc).symm

/-- C89: `push_front` takes at most four new nodes, however large the vector, and none while there is room in front. -/
theorem c89_push_front_cells (prog : List (Instr α)) (k : Nat) (x : α) :
    (step (run [] [] prog).1 (run [] [] prog).2 (.pushFront k x)).1.length ≤ (run [] [] prog).1.length + 4 ∧
      (RoomFront (Instr.ver (PVec.run [] prog) k) →
        (step (run [] [] prog).1 (run [] [] prog).2 (.pushFront k x)).1 = (run [] [] prog).1) := by
  have w := pushFrontV (P := fun _ => True) (fun _ _ => trivial) ((pool_run prog).ver k) x
  have hl := pushFrontCells_le (run_reach prog k).lax
  refine ⟨Nat.le_trans w.cells (by omega), fun hr => ?_⟩
  have hc := w.cells
  rw [pushFrontCells_room hr] at hc
  exact (w.grows.eq_of_length_le hc).symm

/-- C89: `from_iter` takes at most one node for every 32 elements, and one more. -/
theorem c89_from_iter_cells (prog : List (Instr α)) (xs : List α) :
    (step (run [] [] prog).1 (run [] [] prog).2 (.fromIter xs)).1.length ≤
      (run [] [] prog).1.length + xs.length / 32 + 1 :=
  (fromIterV (P := fun _ => True) (fun _ _ => trivial) xs).cells

theorem extend_cells (xs : List α) : ∀ {h : Mem α} {v : PV α} {m : VecM α} {n : Nat},
    VecAt h (fun _ => True) v m → PV.Pushed n v →
      (m.extend h xs).1.length + 4 * ((n - 1) / 64) ≤ h.length + 4 * ((n + xs.length - 1) / 64) := by
  induction xs with
  | nil => intro h v m n _ _; simp [VecM.extend]
  | cons x xs ih =>
    intro h v m n w hn
    have b := pushBackV (P := fun _ => True) (fun _ _ => trivial) w x
    have i := ih b.vec (hn.push x)
    have c := b.cells
    obtain ⟨t, hv, _, _, _, h64, ht, _⟩ := hn
    have pc : pushBackCells v = if t.tail.length < 64 then 0 else 4 := by
      obtain ⟨inner, len, gen⟩ := v
      cases hv
      rfl
    rw [pc] at c
    simp only [VecM.extend, List.length_cons]
    split at c <;> omega

theorem extend_app (m : VecM α) (h : Mem α) (xs ys : List α) :
    m.extend h (xs ++ ys) = ((m.extend h xs).2).extend (m.extend h xs).1 ys := by
  induction xs generalizing h m with
  | nil => rfl
  | cons x xs ih => exact ih _ _

theorem extend_small {h : Mem α} (xs : List α) : ∀ {es : List α} {len gen : Nat}, es.length + xs.length ≤ 64 →
    ((⟨.inl es, len, gen⟩ : VecM α).extend h xs).1 = h := by
  induction xs with
  | nil => intros; rfl
  | cons x xs ih =>
    intro es len gen hl
    simp only [List.length_cons] at hl
    simp only [VecM.extend, VecM.pushBack, ADAPTIVE_INLINE_SIZE]
    rw [if_pos (by omega)]
    exact ih (by simp; omega)

theorem pushBack_full {h : Mem α} {es : List α} {len gen : Nat} (x : α) (hl : es.length = 64) :
    ((⟨.inl es, len, gen⟩ : VecM α).pushBack h x).1.length ≤ h.length + 3 := by
  have w := (pushBackV (P := fun _ => True) (fun _ _ => trivial) (h := h)
    (show VecAt h _ (⟨.inline es, len, gen⟩ : PV α) _ from rfl) x).cells
  simp only [pushBackCells, treeCells, (fromElements_small es (by omega)).1, hl, List.length_nil] at w
  simpa using w

/-- C89: adding `n` elements to an empty vector with `push_back` (`extend`) takes at most `n / 16` nodes in all. -/
theorem c89_extend_cells (prog : List (Instr α)) (k : Nat) (xs : List α)
    (hk : Instr.ver (PVec.run [] prog) k = PV.new) :
    (step (run [] [] prog).1 (run [] [] prog).2 (.extend k xs)).1.length ≤
      (run [] [] prog).1.length + xs.length / 16 := by
  have w := (pool_run prog).ver k
  rw [hk] at w
  have w : ver (run [] [] prog).2 k = ⟨.inl [], 0, 0⟩ := w
  simp only [step, w]
  generalize (run [] [] prog).1 = h
  by_cases hs : xs.length ≤ 64
  · rw [extend_small xs (by simpa using hs)]; omega
  have hsplit : xs = xs.take 64 ++ ([xs[64]] ++ xs.drop 65) := by
    conv_lhs => rw [← List.take_append_drop 64 xs]
    rw [List.drop_eq_getElem_cons (by omega)]; rfl
  have hlen : (xs.take 64).length = 64 := by simp; omega
  obtain ⟨_, b⟩ := extendV (P := fun _ => True) (xs.take 64) (h := h) (fun _ _ => trivial) (VecAt.new h _)
  obtain ⟨g, hg⟩ := PV.extend_small (xs.take 64) (by omega)
  have b := b.vec
  rw [hg] at b
  have b : ((⟨.inl [], 0, 0⟩ : VecM α).extend h (xs.take 64)).2 = ⟨.inl (xs.take 64), (xs.take 64).length, g⟩ := b
  have p := pushBackV (P := fun _ => True) (h := h) (fun _ _ => trivial)
    (show VecAt h _ (⟨.inline (xs.take 64), (xs.take 64).length, g⟩ : PV α)
      (⟨.inl (xs.take 64), (xs.take 64).length, g⟩ : VecM α) from rfl) xs[64]
  have hp : PV.Pushed 65 ((⟨.inline (xs.take 64), (xs.take 64).length, g⟩ : PV α).pushBack xs[64]) := by
    have h65 := PV.pushed_new (xs.take 64 ++ [xs[64]]) (by simp; omega)
    rw [show (xs.take 64 ++ [xs[64]]).length = 65 by simp; omega, PV.extend_append, hg] at h65
    exact h65
  have e := extend_cells (xs.drop 65) p.vec hp (n := 65)
  have f := pushBack_full (h := h) (es := xs.take 64) (len := (xs.take 64).length) (gen := g) xs[64] hlen
  rw [hsplit, extend_app, extend_small (xs.take 64) (by simp), b]
  rw [List.length_drop] at e
  have hl : (xs.take 64 ++ ([xs[64]] ++ xs.drop 65)).length = xs.length := by rw [← hsplit]
  rw [hl]
  have e' := Nat.le_trans e (Nat.add_le_add_right f _)
  refine Nat.le_trans (Nat.le_of_eq rfl) (Nat.le_trans (Nat.le_sub_of_add_le e') ?_)
  omega

/-- A thousand calls of `push_back`, 62 nodes at most. -/
example : (step (α := Nat) [] [] (.extend 0 (List.range 1000))).1.length ≤ 62 :=
  Nat.le_trans (c89_extend_cells [] 0 (List.range 1000) rfl) (by simp [run])

/-- C89: `pop_back` and `pop_front` take at most one node for every level of the tree, and one more. -/
theorem c89_pop_cells (prog : List (Instr α)) (k : Nat) :
    (step (run [] [] prog).1 (run [] [] prog).2 (.popBack k)).1.length ≤
        (run [] [] prog).1.length + rootDepth (Instr.ver (PVec.run [] prog) k) + 1 ∧
      (step (run [] [] prog).1 (run [] [] prog).2 (.popFront k)).1.length ≤
        (run [] [] prog).1.length + rootDepth (Instr.ver (PVec.run [] prog) k) + 1 := by
  have w := (pool_run prog).ver k
  constructor
  · have hp := popBackV (P := fun _ => True) (fun _ _ => trivial) w
    simp only [step]
    cases e : (Instr.ver (PVec.run [] prog) k).popBack with
    | none => rw [e] at hp; simp only [PoppedV] at hp; rw [hp]; simp; omega
    | some r =>
      rw [e] at hp
      obtain ⟨h1, m, hr, b⟩ := hp
      rw [hr]; exact b.cells
  · have hp := popFrontV (P := fun _ => True) (fun _ _ => trivial) w
    simp only [step]
    cases e : (Instr.ver (PVec.run [] prog) k).popFront with
    | none => rw [e] at hp; simp only [PoppedV] at hp; rw [hp]; simp; omega
    | some r =>
      rw [e] at hp
      obtain ⟨h1, m, hr, b⟩ := hp
      rw [hr]; exact b.cells

/-- C89: `split_at`, `take` and `skip` take at most two nodes for every level of the tree, and two more. -/
theorem c89_split_cells (prog : List (Instr α)) (k i : Nat) (c : Instr α)
    (hc : c = .splitLeft k i ∨ c = .splitRight k i ∨ c = .take k i ∨ c = .skip k i) :
    (step (run [] [] prog).1 (run [] [] prog).2 c).1.length ≤
      (run [] [] prog).1.length + 2 * (rootDepth (Instr.ver (PVec.run [] prog) k) + 1) := by
  have w := (pool_run prog).ver k
  have hP : Above (fun _ => True) (run [] [] prog).1 := fun _ _ => trivial
  rcases hc with rfl | rfl | rfl | rfl
  · exact (splitAtV hP w i).2.2.2
  · exact (splitAtV hP w i).2.2.2
  · exact (takeV hP w i).cells
  · exact (skipV hP w i).cells

/-- The first hundred of two hundred elements: the tree has one level below the root. -/
example : (step (run [] [] [.fromIter (List.range 200)]).1 (run [] [] [.fromIter (List.range 200)]).2
      (.take 0 100)).1.length ≤ (run [] [] [.fromIter (List.range 200)]).1.length + 4 := by
  have := c89_split_cells [.fromIter (List.range 200)] 0 100 (.take 0 100) (by simp)
  rwa [show rootDepth (Instr.ver (PVec.run [] [.fromIter (List.range 200)]) 0) = 1 by decide +kernel] at this

theorem concatCells_le {v u : PV α} (h1 : v.Lax) (h2 : u.Lax) :
    concatCells v u ≤ max (rootDepth v) (rootDepth u) + (rootHeight v - rootHeight u) + 17 := by
  obtain ⟨vi, vl, vg⟩ := v
  obtain ⟨ui, ul, ug⟩ := u
  cases vi with
  | inline left =>
    have h1 : left.length ≤ 64 := h1.2
    obtain ⟨_, _, s1, s2⟩ := fromElements_small left h1
    cases ui with
    | inline right =>
      have h2 : right.length ≤ 64 := h2.2
      simp only [concatCells, treeCells, rootDepth, rootHeight, List.length_append]
      omega
    | tree t =>
      simp only [concatCells, treeCells, rootDepth, rootHeight, s1, s2]
      omega
  | tree t =>
    cases ui with
    | inline right =>
      have h2 : right.length ≤ 64 := h2.2
      obtain ⟨_, _, s1, s2⟩ := fromElements_small right h2
      simp only [concatCells, treeCells, rootDepth, rootHeight, s1, s2]
      omega
    | tree u =>
      simp only [concatCells, rootDepth, rootHeight]
      omega

/-- C89: `concat` takes at most one node for every level of the deeper tree, one for every level by which the recorded
heights differ, and seventeen more. -/
theorem c89_concat_cells (prog : List (Instr α)) (k l : Nat) :
    (step (run [] [] prog).1 (run [] [] prog).2 (.concat k l)).1.length ≤
      (run [] [] prog).1.length +
        (max (rootDepth (Instr.ver (PVec.run [] prog) k)) (rootDepth (Instr.ver (PVec.run [] prog) l)) +
          (rootHeight (Instr.ver (PVec.run [] prog) k) - rootHeight (Instr.ver (PVec.run [] prog) l)) + 17) :=
  Nat.le_trans (concatV (P := fun _ => True) (fun _ _ => trivial) ((pool_run prog).ver k) ((pool_run prog).ver l)).cells
    (Nat.add_le_add_left (concatCells_le (run_reach prog k).lax (run_reach prog l).lax) _)

/-- The levels of the tree, or the recorded height if this is more. -/
def levels (v : PV α) : Nat := max (rootDepth v) (rootHeight v)

theorem levels_new : levels (PV.new : PV α) = 0 := rfl

theorem tree_split_levels (t : Tree α) (i : Nat) :
    ((t.splitAt i).1.root.depth ≤ t.root.depth ∧ (t.splitAt i).1.height ≤ max t.root.depth t.height) ∧
    ((t.splitAt i).2.root.depth ≤ t.root.depth ∧ (t.splitAt i).2.height ≤ max t.root.depth t.height) := by
  simp only [Tree.splitAt]
  split
  · exact ⟨⟨Nat.zero_le _, Nat.zero_le _⟩, Nat.le_refl _, Nat.le_max_right _ _⟩
  split
  · exact ⟨⟨Nat.le_refl _, Nat.le_max_right _ _⟩, Nat.zero_le _, Nat.zero_le _⟩
  split
  · exact ⟨⟨Nat.zero_le _, Nat.zero_le _⟩, Nat.le_refl _, Nat.le_max_right _ _⟩
  split
  · exact ⟨⟨Nat.le_refl _, Nat.le_max_right _ _⟩, Nat.zero_le _, Nat.zero_le _⟩
  · obtain ⟨⟨h1, _⟩, h2, _⟩ := Tree.split_shrinks t.root (Tree.findPath t.root t.height (i - t.head.length))
      (i - t.head.length) t.height
    simp only [Tree.splitTreeAt, Tree.fromHeadAndRoot, Tree.fromRootAndTail]
    have c1 := Tree.calculateHeight_le
      (Tree.splitAlongPath t.root (Tree.findPath t.root t.height (i - t.head.length)) (i - t.head.length) t.height).1
    have c2 := Tree.calculateHeight_le
      (Tree.splitAlongPath t.root (Tree.findPath t.root t.height (i - t.head.length)) (i - t.head.length) t.height).2
    exact ⟨⟨h1, by omega⟩, h2, by omega⟩

theorem split_levels (v : PV α) (i : Nat) :
    levels (v.splitAt i).1 ≤ levels v ∧ levels (v.splitAt i).2 ≤ levels v := by
  obtain ⟨inner, len, gen⟩ := v
  simp only [PV.splitAt]
  split
  · exact ⟨Nat.le_refl _, Nat.zero_le _⟩
  split
  · exact ⟨Nat.zero_le _, Nat.le_refl _⟩
  · cases inner with
    | inline es => exact ⟨Nat.le_refl _, Nat.le_refl _⟩
    | tree t =>
      obtain ⟨⟨h1, h2⟩, h3, h4⟩ := tree_split_levels t i
      simp only [levels, rootDepth, rootHeight]
      omega

theorem pushBack_levels {v : PV α} (h : v.Lax) (x : α) : levels (v.pushBack x) ≤ levels v + 1 := by
  have tree : ∀ t : Tree α, max (t.pushBack x).root.depth (t.pushBack x).height ≤ max t.root.depth t.height + 1 := by
    intro t
    simp only [Tree.pushBack]
    split
    · exact Nat.le_succ _
    · have h1 := (Tree.pushTail_depth t).1
      have h2 : t.pushTailToTree.height ≤ max t.pushTailToTree.root.depth t.height := by
        simp only [Tree.pushTailToTree]
        split
        · exact Nat.le_max_right _ _
        · exact Nat.le_trans (Tree.calculateHeight_le _) (Nat.le_max_left _ _)
      show max t.pushTailToTree.root.depth t.pushTailToTree.height ≤ _
      omega
  obtain ⟨inner, len, gen⟩ := v
  cases inner with
  | inline es =>
    have h2 : es.length ≤ 64 := h.2
    simp only [PV.pushBack]
    split
    · exact Nat.zero_le _
    · have := tree (Tree.fromElements es)
      rw [(fromElements_small es h2).2.2.1, (fromElements_small es h2).2.2.2] at this
      exact this
  | tree t => exact tree t

theorem skip_levels (v : PV α) (n : Nat) : levels (v.skip n) ≤ levels v := by
  simp only [PV.skip]
  split
  · exact Nat.zero_le _
  · exact (split_levels v n).2

/-- C89: `insert` takes at most four nodes for every level of the tree, and 25 more. -/
theorem c89_insert_cells (prog : List (Instr α)) (k i : Nat) (x : α) :
    (step (run [] [] prog).1 (run [] [] prog).2 (.insert k i x)).1.length ≤
      (run [] [] prog).1.length + (4 * levels (Instr.ver (PVec.run [] prog) k) + 25) := by
  refine Nat.le_trans (insertV (P := fun _ => True) (fun _ _ => trivial) ((pool_run prog).ver k) i x).cells ?_
  have h := (run_reach prog k).lax
  generalize Instr.ver (PVec.run [] prog) k = v at h
  apply Nat.add_le_add_left
  simp only [insertCells]
  split
  · have := pushBackCells_le h; omega
  split
  · have := pushFrontCells_le h; omega
  · have hs := h.splitAt i
    have c1 := pushBackCells_le hs.1
    have c2 := concatCells_le (hs.1.pushBack x) hs.2
    have l1 := split_levels v i
    have l2 := pushBack_levels hs.1 x
    simp only [levels] at l1 l2 ⊢
    omega

/-- C89: `remove` takes at most six nodes for every level of the tree, and 21 more. -/
theorem c89_remove_cells (prog : List (Instr α)) (k i : Nat) :
    (step (run [] [] prog).1 (run [] [] prog).2 (.remove k i)).1.length ≤
      (run [] [] prog).1.length + (6 * levels (Instr.ver (PVec.run [] prog) k) + 21) := by
  have h := (run_reach prog k).lax
  simp only [step]
  rcases removeV (P := fun _ => True) (fun _ _ => trivial) ((pool_run prog).ver k) i with ⟨e1, e2⟩ | ⟨u, r, e1, e2, b⟩
  · rw [e2]; exact Nat.le_add_right _ _
  · rw [e2]
    refine Nat.le_trans b.cells ?_
    generalize Instr.ver (PVec.run [] prog) k = v at h
    apply Nat.add_le_add_left
    have hs := h.splitAt i
    have c2 := concatCells_le hs.1 (hs.2.skip 1)
    have l1 := split_levels v i
    have l2 := skip_levels (v.splitAt i).2 1
    simp only [removeCells]
    simp only [levels] at l1 l2 ⊢
    omega

/-- Two hundred elements: one level. -/
example : (step (run [] [] [.fromIter (List.range 200)]).1 (run [] [] [.fromIter (List.range 200)]).2
      (.insert 0 100 7)).1.length ≤ (run [] [] [.fromIter (List.range 200)]).1.length + 29 := by
  have := c89_insert_cells [.fromIter (List.range 200)] 0 100 7
  rwa [show levels (Instr.ver (PVec.run [] [.fromIter (List.range 200)]) 0) = 1 by decide +kernel] at this

/-! ## The logarithmic bound -/

theorem visits_log_false : ¬ ∃ a b : Nat, ∀ xs : List Unit, 64 < xs.length →
    (PV.new.extend xs : PV Unit).visits 0 ≤ a * Nat.log2 xs.length + b := by
  rintro ⟨a, b, h⟩
  obtain ⟨m, hm⟩ := PV.exp_beats a b
  have hb : 1 ≤ 2 ^ m := Nat.one_le_two_pow
  have hl : (List.replicate (2048 * 2 ^ m) ()).length = 2048 * 2 ^ m := by simp
  have h1 := PV.c59_push_back_exact (List.replicate (2048 * 2 ^ m) ()) (by rw [hl]; omega)
  have h2 := h (List.replicate (2048 * 2 ^ m) ()) (by rw [hl]; omega)
  have h4 : Nat.log2 (2048 * 2 ^ m) = m + 11 := by
    rw [show 2048 * 2 ^ m = 2 ^ (m + 11) by rw [pow_add]; ring]
    exact Nat.log2_two_pow
  rw [h1, hl, h4] at h2
  omega

/-- C89, the logarithmic bound is false of the code: no bound `a * log2(len) + b` holds for the nodes that one `update`
takes. -/
theorem c89_log_false : ¬ ∃ a b : Nat, ∀ (prog : List (Instr Unit)) (k i : Nat),
    (step (run [] [] prog).1 (run [] [] prog).2 (.update k i ())).1.length ≤
      (run [] [] prog).1.length + (a * Nat.log2 (Instr.ver (PVec.run [] prog) k).len + b) := by
  rintro ⟨a, b, hab⟩
  refine visits_log_false ⟨a, b, fun xs hx => ?_⟩
  have hv : Instr.ver (PVec.run [] [.extend 0 xs]) 0 = PV.new.extend xs := rfl
  have hlen : (PV.new.extend xs : PV Unit).len = xs.length := by
    obtain ⟨t, _, _, _, hvl, _⟩ := PV.pushed_new xs hx
    exact hvl
  have h := hab [.extend 0 xs] 0 0
  rw [c89_update_cells [.extend 0 xs] 0 0 () (by rw [hv, hlen]; omega), hv, hlen] at h
  omega

/-- C89, what holds of the bound: on a vector made by `from_iter`, an `update` takes `t + 2` nodes or more only if there are
more than `64 * 32 ^ t` elements.  (Missing: vectors made by other calls; see `c89_log_false`.) -/
theorem c89_from_iter_partial (xs : List α) (i t : Nat) (x : α) (hi : i < (PV.fromIter xs).len)
    (h : (run [] [] [.fromIter xs]).1.length + (t + 2) ≤
      (step (run [] [] [.fromIter xs]).1 (run [] [] [.fromIter xs]).2 (.update 0 i x)).1.length) :
    64 * 32 ^ t < xs.length := by
  have hv : Instr.ver (PVec.run [] [.fromIter xs]) 0 = PV.fromIter xs := rfl
  rw [c89_update_cells [.fromIter xs] 0 i x (by rw [hv]; exact hi), hv] at h
  exact PV.c59_from_iter_partial xs i t (by omega)

/-- Two nodes for an update among two hundred elements. -/
example : (run [] [] [.fromIter (List.range 200)]).1.length + (0 + 2) ≤
    (step (run [] [] [.fromIter (List.range 200)]).1 (run [] [] [.fromIter (List.range 200)]).2
      (.update 0 5 7)).1.length := by decide +kernel

end Rustica.PVec.Heap
