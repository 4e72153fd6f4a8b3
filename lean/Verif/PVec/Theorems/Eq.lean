import Verif.PVec.Theorems.History
import Verif.PVec.Eq

/-!
# C10: equality of vectors
-/

namespace Rustica.PVec

variable {α : Type}

/-- The element type's `==` is lawful. -/
def LawfulEq (eq : α → α → Bool) : Prop := ∀ a b, eq a b = true ↔ a = b

theorem listEq_iff {eq : α → α → Bool} (h : LawfulEq eq) : ∀ xs ys, listEq eq xs ys = true ↔ xs = ys := by
  intro xs
  induction xs with
  | nil => intro ys; cases ys <;> simp [listEq]
  | cons x xs ih => intro ys; cases ys <;> simp [listEq, ih, h x]

theorem Node.beq_iff {eq : α → α → Bool} (h : LawfulEq eq) (n : Node α) :
    ∀ m, n.beq eq m = true ↔ n = m := by
  induction n using Node.induct with
  | hleaf es => intro m; cases m <;> simp [Node.beq, listEq_iff h]
  | hbranch cs s ih =>
    intro m
    cases m with
    | leaf fs => simp [Node.beq]
    | branch ds t =>
      simp only [Node.beq, Bool.and_eq_true, decide_eq_true_eq, Node.branch.injEq]
      have hl : ∀ (cs : List (Node α)), (∀ c ∈ cs, ∀ m, c.beq eq m = true ↔ c = m) →
          ∀ ds, Node.beqL eq cs ds = true ↔ cs = ds := by
        intro cs
        induction cs with
        | nil => intro _ ds; cases ds <;> simp [Node.beqL]
        | cons c cs ihc =>
          intro hm ds
          cases ds with
          | nil => simp [Node.beqL]
          | cons d ds =>
            simp only [Node.beqL, Bool.and_eq_true, List.cons.injEq]
            rw [hm c (by simp) d, ihc (fun x hx => hm x (by simp [hx])) ds]
      rw [hl cs ih ds]

namespace PV

theorem beq_iff {eq : α → α → Bool} (h : LawfulEq eq) (v w : PV α) : v.beq eq w = true ↔ v = w := by
  cases v with
  | mk vi vl vg =>
    cases w with
    | mk wi wl wg =>
      cases vi with
      | inline es =>
        cases wi with
        | inline fs => simp [beq, listEq_iff h, and_assoc]
        | tree u => simp [beq]
      | tree t =>
        cases wi with
        | inline fs => simp [beq]
        | tree u =>
          cases t; cases u
          simp [beq, Tree.beq, Node.beq_iff h, listEq_iff h, and_assoc]

/-- The full claim of C10: equal exactly when the contents are equal. -/
def EqCorrect (eq : α → α → Bool) (v w : PV α) : Prop :=
  v.beq eq w = true ↔ v.toVec = w.toVec

/-- The full claim fails: `unit(1)` and `new().push_back(1)` have the same contents but are not
`==` (their version counters differ). -/
theorem c10_equality_false :
    ¬ ∀ v w : PV Nat, Reach v → Reach w → EqCorrect (fun a b => decide (a = b)) v w := by
  intro h
  have h1 := (h (PV.unit 1) (PV.new.pushBack 1) (.unit 1) (.pushBack 1 .new)).2 (by decide +kernel)
  revert h1
  decide +kernel

/-- C18 for vectors: `combine` and `combine_owned` return the same. -/
theorem c18_pvec (v w : PV α) : v.combineOwned w = v.combine w := rfl

/-- C17 for vectors, on contents. -/
theorem c17_pvec_contents_partial {v : PV α} (h : Intact v) :
    (PV.empty.combine v).Shows v.toVec ∧ (v.combine PV.empty).Shows v.toVec :=
  c14_monoid_identity h

example : (sample.combine PV.empty).Shows sample.toVec := (c17_pvec_contents_partial sample_sound.intact).2

/-- C17 for vectors with the derived `==`: exactly when the identity laws hold.  The version counter decides: on the left it must
be 0 (inline) or 1 (tree), on the right it must be 0 and the vector inline. -/
theorem c17_pvec_iff {eq : α → α → Bool} (heq : LawfulEq eq) {v : PV α} (h : Intact v) :
    ((PV.empty.combine v).beq eq v = true ↔ v.generation = if v.isTree then 1 else 0) ∧
    ((v.combine PV.empty).beq eq v = true ↔ v.isTree = false ∧ v.generation = 0) := by
  rw [beq_iff heq, beq_iff heq]
  have hw := h.wf
  obtain ⟨inner, len, gen⟩ := v
  unfold PV.WF at hw
  cases inner with
  | inline es =>
    obtain ⟨h1, h2⟩ := hw
    simp only at h1
    subst h1
    have e : PV.fromIter es = ⟨.inline es, es.length, 0⟩ := by simp [PV.fromIter, h2]
    constructor
    · simp only [PV.combine, PV.empty, PV.new, PV.concat, List.nil_append, e, PV.isTree]
      constructor
      · intro k; injection k with _ _ k; simp [← k]
      · intro k; simp at k; simp [k]
    · simp only [PV.combine, PV.empty, PV.new, PV.concat, List.append_nil, e, PV.isTree]
      constructor
      · intro k; injection k with _ _ k; simp [← k]
      · intro k; simp [k.2]
  | tree t =>
    constructor
    · have e : (Tree.fromElements ([] : List α)).concat t = t := by simp [Tree.concat, Tree.fromElements]
      simp only [PV.combine, PV.empty, PV.new, PV.concat, e, PV.isTree]
      constructor
      · intro k; injection k with _ _ k; simp [← k]
      · intro k; simp at k; simp [k]
    · simp only [PV.combine, PV.empty, PV.new, PV.concat, PV.isTree]
      constructor
      · intro k; injection k with _ _ k; omega
      · intro k; simp at k

/-- A vector of 70 collected elements: the counter is 0 and it is a tree, so neither law holds for `==`. -/
example : ((PV.fromIter (List.range 70)).combine PV.empty).beq (fun a b => decide (a = b)) (PV.fromIter (List.range 70)) =
    false := by decide +kernel

/-- C17 fails for vectors compared with `==`: `empty().combine(v)` is not `== v`. -/
theorem c17_pvec_false :
    ¬ ∀ v : PV Nat, Reach v → (PV.empty.combine v).beq (fun a b => decide (a = b)) v = true := by
  intro h
  have := h (PV.new.pushBack 1) (.pushBack 1 .new)
  revert this
  decide +kernel

/-- It also fails for vectors with equal version counters, because the shapes differ: 65 collected
elements minus the last one, and 64 collected elements after one update. -/
theorem c10_equality_shape_false :
    ∃ v w : PV Nat, Reach v ∧ Reach w ∧ v.generation = w.generation ∧ v.toVec = w.toVec ∧
      v.beq (fun a b => decide (a = b)) w = false := by
  refine ⟨(PV.fromIter (List.range 64)).update 0 0,
    ((PV.fromIter (List.range 65)).popBack.map (·.1)).getD .new, .update _ _ (.fromIter _), ?_,
    by decide +kernel, by decide +kernel, by decide +kernel⟩
  cases hp : (PV.fromIter (List.range 65)).popBack with
  | none => exact .new
  | some p => exact .popBack (x := p.2) (.fromIter (List.range 65)) hp

/-- C10, second half, for all vectors: `==` vectors have the same elements (and are observed
alike by every operation). -/
theorem c10_eq_contents {eq : α → α → Bool} (heq : LawfulEq eq) (v w : PV α)
    (h : v.beq eq w = true) : v.toVec = w.toVec ∧ v.len = w.len ∧ ∀ i, v.get i = w.get i := by
  rw [(beq_iff heq v w).1 h]
  exact ⟨rfl, rfl, fun _ => rfl⟩

/-- C10, first half, for freshly collected vectors: they are `==` exactly when their contents
are. -/
theorem c10_from_iter_partial {eq : α → α → Bool} (heq : LawfulEq eq) (xs ys : List α) :
    EqCorrect eq (PV.fromIter xs) (PV.fromIter ys) := by
  unfold EqCorrect
  rw [beq_iff heq, c01_round_trip, c01_round_trip]
  constructor
  · intro h
    have := congrArg PV.toVec h
    rwa [c01_round_trip, c01_round_trip] at this
  · intro h; rw [h]

/-- C10 after canonicalisation: collecting the contents again makes equality depend on contents
only, whatever the histories. -/
theorem c10_canonical_partial {eq : α → α → Bool} (heq : LawfulEq eq) (v w : PV α) :
    (PV.fromIter v.toVec).beq eq (PV.fromIter w.toVec) = true ↔ v.toVec = w.toVec := by
  have := c10_from_iter_partial heq v.toVec w.toVec
  unfold EqCorrect at this
  rwa [c01_round_trip, c01_round_trip] at this

/-- C10: the results of rebuilding operations (`map`, `filter`, ...) are `==` exactly when their
contents are. -/
theorem c10_rebuilt_partial {β : Type} {eq : β → β → Bool} (heq : LawfulEq eq) (v w : PV α)
    (f g : α → β) (p q : β → Bool) :
    EqCorrect eq ((v.map f).filter p) ((w.map g).filter q) := by
  exact c10_from_iter_partial heq _ _

/-- `==` is an equivalence relation. -/
theorem c10_equivalence {eq : α → α → Bool} (heq : LawfulEq eq) :
    (∀ v : PV α, v.beq eq v = true) ∧
    (∀ v w : PV α, v.beq eq w = true → w.beq eq v = true) ∧
    (∀ u v w : PV α, u.beq eq v = true → v.beq eq w = true → u.beq eq w = true) := by
  refine ⟨fun v => (beq_iff heq v v).2 rfl, fun v w h => ?_, fun u v w h1 h2 => ?_⟩
  · rw [beq_iff heq] at h ⊢; exact h.symm
  · rw [beq_iff heq] at h1 h2 ⊢; exact h1.trans h2

theorem lawful_nat : LawfulEq (fun a b : Nat => decide (a = b)) := fun a b => by simp

/-- `c10_eq_contents`: two vectors with more than one level that compare equal. -/
example : ∀ i, ((PV.fromIter (List.range 200)).update 3 3).get i = ((PV.fromIter (List.range 200)).update 190 190).get i :=
  (c10_eq_contents lawful_nat _ _ (by decide +kernel)).2.2

/-- `c10_canonical_partial`: `sample` and its rebuilt copy, and another vector. -/
example : (PV.fromIter sample.toVec).beq (fun a b => decide (a = b)) (PV.fromIter (sample.update 3 0).toVec) = false := by
  rw [Bool.eq_false_iff, Ne, c10_canonical_partial lawful_nat]
  decide +kernel

example : EqCorrect (fun a b : Nat => decide (a = b)) ((sample.map (· + 1)).filter (· % 2 == 0))
    ((sample.map (· * 2)).filter (· % 2 == 0)) := c10_rebuilt_partial lawful_nat _ _ _ _ _ _

example : EqCorrect (fun a b : Nat => decide (a = b)) (PV.fromIter (List.range 200))
    (PV.fromIter (List.range 201)) := c10_from_iter_partial lawful_nat _ _

end PV
end Rustica.PVec
