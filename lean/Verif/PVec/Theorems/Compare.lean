import Mathlib.Data.List.Forall2
import Verif.PVec.Compare
import Verif.PVec.Theorems.Eq
import Verif.PVec.Theorems.Natural
import Verif.Theorems.Compare

/-!
# C90 on vectors: `==` and `dedup` for any `PartialEq` of the elements
-/

namespace Rustica.PVec

variable {α : Type}

/-! ## Specification -/

/-- Two optional elements agree up to `eq`. -/
def OptEq (eq : α → α → Bool) : Option α → Option α → Prop
  | none, none => True
  | some a, some b => eq a b = true
  | _, _ => False

/-- `ys` are the heads of runs: `xs` is cut into runs whose elements all equal the first one of the run, and the head of
a run does not equal the head of the run before. -/
def RunHeads (eq : α → α → Bool) (xs ys : List α) : Prop :=
  ∃ runs : List (α × List α), xs = (runs.map (fun r => r.1 :: r.2)).flatten ∧ ys = runs.map (·.1) ∧
    (∀ r ∈ runs, ∀ x ∈ r.2, eq r.1 x = true) ∧ ys.IsChain (fun a b => eq a b = false)

/-! ## Equality -/

/-- Pairs of equal elements. -/
abbrev EqPair (eq : α → α → Bool) : Type := { p : α × α // eq p.1 p.2 = true }

theorem listEq_pairs {eq : α → α → Bool} : ∀ xs ys, listEq eq xs ys = true ↔
    ∃ zs : List (EqPair eq), zs.map (·.1.1) = xs ∧ zs.map (·.1.2) = ys := by
  intro xs
  induction xs with
  | nil =>
    intro ys
    cases ys with
    | nil => simp [listEq]
    | cons y ys => simp [listEq]
  | cons x xs ih =>
    intro ys
    cases ys with
    | nil => simp [listEq]
    | cons y ys =>
      simp only [listEq, Bool.and_eq_true, ih]
      constructor
      · rintro ⟨h, zs, rfl, rfl⟩
        exact ⟨⟨(x, y), h⟩ :: zs, rfl, rfl⟩
      · rintro ⟨zs, h1, h2⟩
        cases zs with
        | nil => simp at h1
        | cons z zs =>
          obtain ⟨⟨a, b⟩, hz⟩ := z
          simp only [List.map_cons, List.cons.injEq] at h1 h2
          obtain ⟨rfl, rfl⟩ := h1
          obtain ⟨rfl, rfl⟩ := h2
          exact ⟨hz, zs, rfl, rfl⟩

theorem Node.beq_pairs {eq : α → α → Bool} (n : Node α) : ∀ m, n.beq eq m = true ↔
    ∃ z : Node (EqPair eq), z.over (·.1.1) = n ∧ z.over (·.1.2) = m := by
  induction n using Node.induct with
  | hleaf es =>
    intro m
    cases m with
    | leaf fs =>
      simp only [Node.beq, listEq_pairs]
      constructor
      · rintro ⟨zs, rfl, rfl⟩; exact ⟨.leaf zs, rfl, rfl⟩
      · rintro ⟨z, h1, h2⟩
        cases z with
        | leaf zs =>
          simp only [Node.over, Node.leaf.injEq] at h1 h2
          exact ⟨zs, h1, h2⟩
        | branch cs s => simp [Node.over] at h1
    | branch ds t =>
      simp only [Node.beq, Bool.false_eq_true, false_iff]
      rintro ⟨z, h1, h2⟩
      cases z <;> simp [Node.over] at h1 h2
  | hbranch cs s ih =>
    intro m
    cases m with
    | leaf fs =>
      simp only [Node.beq, Bool.false_eq_true, false_iff]
      rintro ⟨z, h1, h2⟩
      cases z <;> simp [Node.over] at h1 h2
    | branch ds t =>
      have hl : ∀ (cs : List (Node α)), (∀ c ∈ cs, ∀ m, c.beq eq m = true ↔
          ∃ z : Node (EqPair eq), z.over (·.1.1) = c ∧ z.over (·.1.2) = m) →
          ∀ ds, Node.beqL eq cs ds = true ↔ ∃ zs : List (Node (EqPair eq)), zs.map (Node.over (·.1.1)) = cs ∧
            zs.map (Node.over (·.1.2)) = ds := by
        intro cs
        induction cs with
        | nil => intro _ ds; cases ds <;> simp [Node.beqL]
        | cons c cs ihc =>
          intro hm ds
          cases ds with
          | nil => simp [Node.beqL]
          | cons d ds =>
            simp only [Node.beqL, Bool.and_eq_true]
            rw [hm c (by simp) d, ihc (fun x hx => hm x (by simp [hx])) ds]
            constructor
            · rintro ⟨⟨z, rfl, rfl⟩, zs, rfl, rfl⟩
              exact ⟨z :: zs, rfl, rfl⟩
            · rintro ⟨zs, h1, h2⟩
              cases zs with
              | nil => simp at h1
              | cons z zs =>
                simp only [List.map_cons, List.cons.injEq] at h1 h2
                exact ⟨⟨z, h1.1, h2.1⟩, zs, h1.2, h2.2⟩
      simp only [Node.beq, Bool.and_eq_true, decide_eq_true_eq]
      rw [hl cs ih ds]
      constructor
      · rintro ⟨⟨zs, rfl, rfl⟩, rfl⟩
        exact ⟨.branch zs s, by simp [Node.over, Node.overL_eq], by simp [Node.over, Node.overL_eq]⟩
      · rintro ⟨z, h1, h2⟩
        cases z with
        | leaf zs => simp [Node.over] at h1
        | branch zs u =>
          simp only [Node.over, Node.overL_eq, Node.branch.injEq] at h1 h2
          exact ⟨⟨zs, h1.1, h2.1⟩, h1.2.symm.trans h2.2⟩

namespace PV

/-- Two vectors are `==` exactly when they are the two sides of one vector of equal pairs. -/
theorem beq_pairs {eq : α → α → Bool} (v w : PV α) : v.beq eq w = true ↔
    ∃ z : PV (EqPair eq), z.over (·.1.1) = v ∧ z.over (·.1.2) = w := by
  obtain ⟨vi, vl, vg⟩ := v
  obtain ⟨wi, wl, wg⟩ := w
  constructor
  · intro h
    simp only [beq, Bool.and_eq_true, decide_eq_true_eq] at h
    obtain ⟨⟨h, rfl⟩, rfl⟩ := h
    cases vi with
    | inline es =>
      cases wi with
      | inline fs =>
        obtain ⟨zs, rfl, rfl⟩ := (listEq_pairs es fs).1 h
        exact ⟨⟨.inline zs, vl, vg⟩, rfl, rfl⟩
      | tree u => cases h
    | tree t =>
      cases wi with
      | inline fs => cases h
      | tree u =>
        obtain ⟨tr, tt, th, thh, tl⟩ := t
        obtain ⟨ur, ut, uh, uhh, ul⟩ := u
        simp only [Tree.beq, Bool.and_eq_true, decide_eq_true_eq] at h
        obtain ⟨⟨⟨⟨h1, h2⟩, h3⟩, rfl⟩, rfl⟩ := h
        obtain ⟨r, rfl, rfl⟩ := (Node.beq_pairs tr ur).1 h1
        obtain ⟨zt, rfl, rfl⟩ := (listEq_pairs tt ut).1 h2
        obtain ⟨zh, rfl, rfl⟩ := (listEq_pairs th uh).1 h3
        exact ⟨⟨.tree ⟨r, zt, zh, thh, tl⟩, vl, vg⟩, rfl, rfl⟩
  · rintro ⟨⟨zi, zl, zg⟩, h1, h2⟩
    cases zi with
    | inline zs =>
      simp only [over, PV.mk.injEq] at h1 h2
      obtain ⟨rfl, rfl, rfl⟩ := h1
      obtain ⟨rfl, rfl, rfl⟩ := h2
      simp only [beq, Bool.and_eq_true, decide_eq_true_eq, and_true]
      exact (listEq_pairs _ _).2 ⟨zs, rfl, rfl⟩
    | tree t =>
      simp only [over, PV.mk.injEq] at h1 h2
      obtain ⟨rfl, rfl, rfl⟩ := h1
      obtain ⟨rfl, rfl, rfl⟩ := h2
      simp only [beq, Tree.beq, Bool.and_eq_true, decide_eq_true_eq, and_true]
      exact ⟨⟨⟨⟨(Node.beq_pairs _ _).2 ⟨t.root, rfl, rfl⟩, (listEq_pairs _ _).2 ⟨t.tail, rfl, rfl⟩⟩,
        (listEq_pairs _ _).2 ⟨t.head, rfl, rfl⟩⟩, rfl⟩, rfl⟩

theorem forall₂_pairs {eq : α → α → Bool} (zs : List (EqPair eq)) :
    List.Forall₂ (fun a b => eq a b = true) (zs.map (·.1.1)) (zs.map (·.1.2)) := by
  induction zs with
  | nil => exact .nil
  | cons z zs ih => exact .cons z.2 ih

theorem pairs_forall₂ {eq : α → α → Bool} {xs ys : List α} (h : List.Forall₂ (fun a b => eq a b = true) xs ys) :
    ∃ zs : List (EqPair eq), zs.map (·.1.1) = xs ∧ zs.map (·.1.2) = ys := by
  induction h with
  | nil => exact ⟨[], rfl, rfl⟩
  | @cons a b _ _ hab _ ih =>
    obtain ⟨zs, rfl, rfl⟩ := ih
    exact ⟨⟨(a, b), hab⟩ :: zs, rfl, rfl⟩

/-- C90, whatever the elements' `==` does: vectors that are `==` have the same length and pairwise `==` elements, and
answer `get` alike.  (Also for damaged vectors.) -/
theorem c90_vec_eq_contents {eq : α → α → Bool} (v w : PV α) (h : v.beq eq w = true) :
    List.Forall₂ (fun a b => eq a b = true) v.toVec w.toVec ∧ v.len = w.len ∧ v.generation = w.generation ∧
    ∀ i, OptEq eq (v.get i) (w.get i) := by
  obtain ⟨z, rfl, rfl⟩ := (beq_pairs v w).1 h
  refine ⟨?_, rfl, rfl, fun i => ?_⟩
  · simp only [toVec, items_over]
    exact forall₂_pairs _
  · rw [get_over, get_over]
    cases z.get i with
    | none => trivial
    | some p => exact p.2

/-- Records compared by their first component only. -/
def byFirst (a b : Nat × Nat) : Bool := decide (a.1 = b.1)

/-- A vector of 70 records, all with the same second component. -/
def records (n : Nat) : PV (Nat × Nat) := PV.fromIter ((List.range 70).map fun i => (i, n))

example : ∀ i, OptEq byFirst ((records 1).get i) ((records 2).get i) :=
  (c90_vec_eq_contents (records 1) (records 2) (by decide +kernel)).2.2.2

/-- C90, whatever the elements' `==` does: collected vectors are `==` exactly when their lists of elements are. -/
theorem c90_vec_collected {eq : α → α → Bool} (xs ys : List α) :
    (PV.fromIter xs).beq eq (PV.fromIter ys) = true ↔ List.Forall₂ (fun a b => eq a b = true) xs ys := by
  constructor
  · intro h
    have := (c90_vec_eq_contents _ _ h).1
    rwa [c01_round_trip, c01_round_trip] at this
  · intro h
    obtain ⟨zs, rfl, rfl⟩ := pairs_forall₂ h
    exact (beq_pairs _ _).2 ⟨PV.fromIter zs, (fromIter_over _ _).symm, (fromIter_over _ _).symm⟩

theorem _root_.Rustica.PVec.listEq_trans {eq : α → α → Bool} (hl : PartialEqLaws eq) : ∀ xs ys zs, listEq eq xs ys = true →
    listEq eq ys zs = true → listEq eq xs zs = true := by
  intro xs
  induction xs with
  | nil => intro ys zs h1 h2; cases ys with
    | nil => exact h2
    | cons => cases h1
  | cons x xs ih =>
    intro ys zs h1 h2
    cases ys with
    | nil => cases h1
    | cons y ys =>
      cases zs with
      | nil => cases h2
      | cons z zs =>
        simp only [listEq, Bool.and_eq_true] at h1 h2 ⊢
        exact ⟨hl.trans _ _ _ h1.1 h2.1, ih _ _ h1.2 h2.2⟩

theorem _root_.Rustica.PVec.Node.beq_trans {eq : α → α → Bool} (hl : PartialEqLaws eq) (n : Node α) : ∀ m k, n.beq eq m = true →
    m.beq eq k = true → n.beq eq k = true := by
  induction n using Node.induct with
  | hleaf es =>
    intro m k h1 h2
    cases m with
    | leaf fs =>
      cases k with
      | leaf gs => exact listEq_trans hl _ _ _ h1 h2
      | branch => cases h2
    | branch => cases h1
  | hbranch cs s ih =>
    intro m k h1 h2
    cases m with
    | leaf => cases h1
    | branch ds t =>
      cases k with
      | leaf => cases h2
      | branch es u =>
        simp only [Node.beq, Bool.and_eq_true, decide_eq_true_eq] at h1 h2 ⊢
        refine ⟨?_, h1.2.trans h2.2⟩
        have aux : ∀ (cs : List (Node α)), (∀ c ∈ cs, ∀ m k, c.beq eq m = true → m.beq eq k = true → c.beq eq k = true) →
            ∀ ds es, Node.beqL eq cs ds = true → Node.beqL eq ds es = true → Node.beqL eq cs es = true := by
          intro cs
          induction cs with
          | nil => intro _ ds es h1 h2; cases ds with
            | nil => exact h2
            | cons => cases h1
          | cons c cs ihc =>
            intro hm ds es h1 h2
            cases ds with
            | nil => cases h1
            | cons d ds =>
              cases es with
              | nil => cases h2
              | cons e es =>
                simp only [Node.beqL, Bool.and_eq_true] at h1 h2 ⊢
                exact ⟨hm c (by simp) _ _ h1.1 h2.1, ihc (fun x hx => hm x (by simp [hx])) _ _ h1.2 h2.2⟩
        exact aux cs ih _ _ h1.1 h2.1

theorem beq_trans {eq : α → α → Bool} (hl : PartialEqLaws eq) (u v w : PV α) (h1 : u.beq eq v = true)
    (h2 : v.beq eq w = true) : u.beq eq w = true := by
  obtain ⟨ui, ul, ug⟩ := u
  obtain ⟨vi, vl, vg⟩ := v
  obtain ⟨wi, wl, wg⟩ := w
  simp only [beq, Bool.and_eq_true, decide_eq_true_eq] at h1 h2 ⊢
  refine ⟨⟨?_, h1.1.2.trans h2.1.2⟩, h1.2.trans h2.2⟩
  replace h1 := h1.1.1
  replace h2 := h2.1.1
  cases ui with
  | inline es =>
    cases vi with
    | tree => cases h1
    | inline fs =>
      cases wi with
      | tree => cases h2
      | inline gs => exact listEq_trans hl _ _ _ h1 h2
  | tree t =>
    cases vi with
    | inline => cases h1
    | tree t' =>
      cases wi with
      | inline => cases h2
      | tree t'' =>
        simp only [Tree.beq, Bool.and_eq_true, decide_eq_true_eq] at h1 h2 ⊢
        exact ⟨⟨⟨⟨Node.beq_trans hl _ _ _ h1.1.1.1.1 h2.1.1.1.1, listEq_trans hl _ _ _ h1.1.1.1.2 h2.1.1.1.2⟩,
          listEq_trans hl _ _ _ h1.1.1.2 h2.1.1.2⟩, h1.1.2.trans h2.1.2⟩, h1.2.trans h2.2⟩

/-- C90: `==` of vectors is symmetric, transitive and reflexive when the elements' `==` is. -/
theorem c90_vec_laws (eq : α → α → Bool) :
    ((∀ a b, eq a b = true → eq b a = true) → ∀ v w : PV α, v.beq eq w = true → w.beq eq v = true) ∧
    (PartialEqLaws eq → PartialEqLaws (fun v w : PV α => v.beq eq w)) ∧
    (EqLaws eq → EqLaws (fun v w : PV α => v.beq eq w)) := by
  have hs : (∀ a b, eq a b = true → eq b a = true) → ∀ v w : PV α, v.beq eq w = true → w.beq eq v = true := by
    intro hs v w h
    obtain ⟨z, rfl, rfl⟩ := (beq_pairs v w).1 h
    exact (beq_pairs _ _).2 ⟨z.over (fun p => ⟨(p.1.2, p.1.1), hs _ _ p.2⟩),
      over_over _ _ z, over_over _ _ z⟩
  have hp : PartialEqLaws eq → PartialEqLaws (fun v w : PV α => v.beq eq w) := fun hl => ⟨hs hl.symm, beq_trans hl⟩
  refine ⟨hs, hp, fun hl => { hp hl.toPartialEqLaws with refl := fun v => ?_ }⟩
  exact (beq_pairs v v).2 ⟨v.over (fun a => ⟨(a, a), hl.refl a⟩), (over_over _ _ v).trans (over_id v),
    (over_over _ _ v).trans (over_id v)⟩

/-- The floating-point type: `==` of vectors of them is a lawful `PartialEq`, without being reflexive. -/
example : PartialEqLaws (fun v w : PV Fl => v.beq Fl.eq w) := (c90_vec_laws Fl.eq).2.1 fl_laws

/-- C90: a collected vector is `==` to itself exactly when each of its elements is: one NaN makes it differ from its own
clone. -/
theorem c90_vec_self (eq : α → α → Bool) (xs : List α) :
    (PV.fromIter xs).beq eq (PV.fromIter xs) = true ↔ ∀ x ∈ xs, eq x x = true := by
  rw [c90_vec_collected]
  induction xs with
  | nil => simp
  | cons x xs ih => simp [ih]

/-! ## `dedup` -/

theorem dedupLoopBy_runs (eq : α → α → Bool) : ∀ (xs : List α) (l : α), ∃ (r : List α) (runs : List (α × List α)),
    xs = r ++ (runs.map (fun r => r.1 :: r.2)).flatten ∧ dedupLoopBy eq xs (some l) = runs.map (·.1) ∧
    (∀ x ∈ r, eq l x = true) ∧ (∀ r ∈ runs, ∀ x ∈ r.2, eq r.1 x = true) ∧
    (l :: runs.map (·.1)).IsChain (fun a b => eq a b = false) := by
  intro xs
  induction xs with
  | nil => intro l; exact ⟨[], [], rfl, rfl, by simp, by simp, by simp⟩
  | cons x xs ih =>
    intro l
    by_cases h : eq l x = true
    · obtain ⟨r, runs, h1, h2, h3, h4, h5⟩ := ih l
      refine ⟨x :: r, runs, by rw [h1]; rfl, by rw [dedupLoopBy, if_pos h, h2], ?_, h4, h5⟩
      intro y hy
      rcases List.mem_cons.1 hy with rfl | hy
      · exact h
      · exact h3 y hy
    · obtain ⟨r, runs, h1, h2, h3, h4, h5⟩ := ih x
      refine ⟨[], (x, r) :: runs, by simp [h1], by rw [dedupLoopBy, if_neg h, h2]; rfl, by simp, ?_, ?_⟩
      · intro q hq
        rcases List.mem_cons.1 hq with rfl | hq
        · exact h3
        · exact h4 q hq
      · exact List.IsChain.cons_cons (by simpa using h) h5

/-- C90: whatever the elements' `==` does, `dedup` keeps the heads of the runs. -/
theorem c90_dedup_runs (eq : α → α → Bool) (v : PV α) : RunHeads eq v.toVec (v.dedupBy eq).toVec := by
  rw [dedupBy, c01_round_trip]
  show RunHeads eq v.items _
  cases v.items with
  | nil => exact ⟨[], rfl, rfl, by simp, by simp [dedupLoopBy]⟩
  | cons x xs =>
    obtain ⟨r, runs, h1, h2, h3, h4, h5⟩ := dedupLoopBy_runs eq xs x
    refine ⟨(x, r) :: runs, by simp [h1], by rw [dedupLoopBy, h2]; rfl, ?_, by rw [dedupLoopBy, h2]; exact h5⟩
    intro q hq
    rcases List.mem_cons.1 hq with rfl | hq
    · exact h3
    · exact h4 q hq

theorem runHeads_cons {eq : α → α → Bool} (l : α) : ∀ (xs r : List α) (runs : List (α × List α)),
    xs = r ++ (runs.map (fun r => r.1 :: r.2)).flatten → (∀ x ∈ r, eq l x = true) →
    (∀ r ∈ runs, ∀ x ∈ r.2, eq r.1 x = true) → (l :: runs.map (·.1)).IsChain (fun a b => eq a b = false) →
    runs.map (·.1) = dedupLoopBy eq xs (some l) := by
  intro xs
  induction xs generalizing l with
  | nil =>
    intro r runs h _ _ _
    cases runs with
    | nil => rfl
    | cons q runs => simp at h
  | cons x xs ih =>
    intro r runs h h3 h4 h5
    cases r with
    | cons y r =>
      simp only [List.cons_append, List.cons.injEq] at h
      obtain ⟨rfl, rfl⟩ := h
      rw [dedupLoopBy, if_pos (h3 x (by simp))]
      exact ih l r runs rfl (fun z hz => h3 z (by simp [hz])) h4 h5
    | nil =>
      cases runs with
      | nil => simp at h
      | cons q runs =>
        obtain ⟨q1, q2⟩ := q
        simp only [List.nil_append, List.map_cons, List.flatten_cons, List.cons_append, List.cons.injEq] at h
        obtain ⟨rfl, rfl⟩ := h
        simp only [List.map_cons] at h5
        have hne : ¬ eq l x = true := by
          have := (List.isChain_cons_cons.1 h5).1
          simp [this]
        rw [dedupLoopBy, if_neg hne, List.map_cons]
        rw [ih x q2 runs rfl (h4 (x, q2) (by simp)) (fun r hr => h4 r (by simp [hr])) (List.isChain_cons_cons.1 h5).2]

/-- C90: the specification leaves no choice, whatever the elements' `==` does. -/
theorem c90_dedup_unique {eq : α → α → Bool} {xs ys zs : List α} (hy : RunHeads eq xs ys) (hz : RunHeads eq xs zs) :
    ys = zs := by
  have key : ∀ ys, RunHeads eq xs ys → ys = dedupLoopBy eq xs none := by
    rintro ys ⟨runs, h1, h2, h3, h4⟩
    cases runs with
    | nil => subst h1 h2; rfl
    | cons q runs =>
      obtain ⟨q1, q2⟩ := q
      subst h1 h2
      simp only [List.map_cons, List.flatten_cons, List.cons_append, dedupLoopBy]
      rw [runHeads_cons q1 _ q2 runs rfl (h3 (q1, q2) (by simp)) (fun r hr => h3 r (by simp [hr])) h4]
  rw [key ys hy, key zs hz]

/-- The zeros of a floating-point vector are one run, the two NaNs are two. -/
example : ((PV.fromIter [Fl.num 0, .negZero, .nan, .nan]).dedupBy Fl.eq).toVec = [.num 0, .nan, .nan] :=
  c90_dedup_unique (eq := Fl.eq) (xs := [Fl.num 0, .negZero, .nan, .nan])
    (by have := c90_dedup_runs Fl.eq (PV.fromIter [Fl.num 0, .negZero, .nan, .nan]); rwa [c01_round_trip] at this)
    ⟨[(.num 0, [.negZero]), (.nan, []), (.nan, [])], rfl, rfl, by decide +kernel, by decide +kernel⟩

theorem dedupLoopBy_adjacent {eq : α → α → Bool} (hl : PartialEqLaws eq) : ∀ (xs : List α) (l p : α),
    (l = p ∨ eq l p = true) → dedupLoopBy eq xs (some l) =
      (((p :: xs).zip xs).filter (fun q => !eq q.1 q.2)).map (·.2) := by
  intro xs
  induction xs with
  | nil => intro l p _; rfl
  | cons x xs ih =>
    intro l p h
    have hx : eq l x = eq p x := by
      rcases h with rfl | h
      · rfl
      · rw [Bool.eq_iff_iff]
        exact ⟨fun h1 => hl.trans _ _ _ (hl.symm _ _ h) h1, fun h1 => hl.trans _ _ _ h h1⟩
    rw [List.zip_cons_cons]
    by_cases h1 : eq p x = true
    · rw [dedupLoopBy, if_pos (hx.trans h1), ih l x (.inr (hx.trans h1)), List.filter_cons_of_neg (by simp [h1])]
    · rw [dedupLoopBy, if_neg (by rw [hx]; exact h1), ih x x (.inl rfl), List.filter_cons_of_pos (by simp [h1])]
      rfl

/-- C90: for a symmetric and transitive `==`, `dedup` drops exactly the elements equal to the one just before them in
the vector — so an element not equal to itself is never dropped. -/
theorem c90_dedup_adjacent {eq : α → α → Bool} (hl : PartialEqLaws eq) (v : PV α) :
    (v.dedupBy eq).toVec = v.toVec.head?.toList ++
      ((v.toVec.zip v.toVec.tail).filter (fun q => !eq q.1 q.2)).map (·.2) := by
  rw [dedupBy, c01_round_trip]
  show dedupLoopBy eq v.items none = _
  rw [toVec]
  cases v.items with
  | nil => rfl
  | cons x xs =>
    rw [dedupLoopBy, dedupLoopBy_adjacent hl xs x x (.inl rfl)]
    rfl

/-- Zeros with different signs, a NaN between equal numbers. -/
example : ((PV.fromIter [Fl.negZero, .num 0, .num 3, .nan, .nan, .num 3]).dedupBy Fl.eq).toVec =
    [.negZero, .num 3, .nan, .nan, .num 3] := by
  rw [c90_dedup_adjacent fl_laws, c01_round_trip]
  decide +kernel

/-- With identity as `==` these are the definitions of the other files. -/
theorem c90_vec_agree [DecidableEq α] (v : PV α) : v.dedupBy (fun a b => decide (a = b)) = v.dedup := by
  have h : ∀ (xs : List α) (l : Option α), dedupLoopBy (fun a b => decide (a = b)) xs l = dedupLoop xs l := by
    intro xs
    induction xs with
    | nil => intro l; simp [dedupLoopBy, dedupLoop]
    | cons x xs ih =>
      intro l
      cases l with
      | none => simp [dedupLoopBy, dedupLoop, ih]
      | some l =>
        by_cases hx : l = x <;> simp [dedupLoopBy, dedupLoop, ih, hx]
  rw [dedupBy, dedup, h]

end PV
end Rustica.PVec
