import Verif.PVec.Theorems.Damaged
import Verif.PVec.Theorems.Eq
import Verif.PVec.Theorems.Intact

/-!
# C10, C11, C12: exact statements for every vector value

The claims of C10 to C12 fail for some vectors.  Here are the exact conditions, and what the
iterators and folds compute on every vector value, damaged or not.
-/

namespace Rustica.PVec

variable {α β : Type}

/-! ## C11 and C12: what iterators and folds deliver

The specification speaks about `get` only: `answers v` lists `get(0), ..., get(len - 1)`. -/

namespace PV

/-- `get(0), get(1), ..., get(len - 1)`. -/
def answers (v : PV α) : List (Option α) := (List.range v.len).map v.get

/-- The items before the first `None`. -/
def untilNone : List (Option α) → List α
  | some x :: rest => x :: untilNone rest
  | _ => []

/-- The items, `None`s skipped. -/
def present : List (Option α) → List α
  | [] => []
  | some x :: rest => x :: present rest
  | none :: rest => present rest

theorem answers_drop (v : PV α) {i : Nat} (h : i < v.len) :
    v.answers.drop i = v.get i :: v.answers.drop (i + 1) := by
  have hl : i < v.answers.length := by simp [answers, h]
  rw [List.drop_eq_getElem_cons hl]
  simp [answers]

theorem collect_untilNone (v : PV α) : ∀ fuel i, v.len < i + fuel →
    Iter.collect fuel ⟨v, i⟩ = untilNone (v.answers.drop i) := by
  intro fuel
  induction fuel with
  | zero =>
    intro i h
    rw [List.drop_of_length_le (by simp [answers]; omega)]
    rfl
  | succ fuel ih =>
    intro i h
    simp only [Iter.collect, Iter.next]
    by_cases hi : i < v.len
    · simp only [hi, if_true, answers_drop v hi]
      cases hg : v.get i with
      | none => simp [untilNone]
      | some x => simp only [untilNone]; rw [ih (i + 1) (by omega)]
    · simp only [hi, if_false]
      rw [List.drop_of_length_le (by simp [answers]; omega)]
      rfl

/-- C11, for every vector value whatever: consuming an iterator that has been advanced `k` times
delivers `get(k), get(k+1), ...` up to the first index below `len` that has no element. -/
theorem c11_collect (v : PV α) (k : Nat) :
    Iter.collect (v.len + 1) (v.iter.after k) = untilNone (v.answers.drop k) ∧
    v.toVec = untilNone v.answers := by
  refine ⟨?_, ?_⟩
  · rw [after_eq, collect_untilNone v _ _ (by omega)]
    by_cases hk : k ≤ v.len
    · rw [Nat.min_eq_left hk]
    · rw [Nat.min_eq_right (by omega), List.drop_of_length_le (by simp [answers]),
        List.drop_of_length_le (by simp [answers]; omega)]
  · have := collect_untilNone v (v.len + 1) 0 (by omega)
    simpa [toVec, items, iter] using this

theorem untilNone_length (l : List (Option α)) :
    (untilNone l).length ≤ l.length ∧
    ((untilNone l).length = l.length ↔ ∀ o ∈ l, o ≠ none) := by
  induction l with
  | nil => simp [untilNone]
  | cons o l ih =>
    cases o with
    | none => simp [untilNone]
    | some x =>
      simp only [untilNone, List.length_cons, List.mem_cons, forall_eq_or_imp]
      refine ⟨by omega, ?_⟩
      rw [← ih.2]
      simp

/-- C11, exactly when an iterator delivers as many elements as its size hint announces: when
every index below `len` has an element. -/
theorem c11_count_iff (v : PV α) :
    v.toVec.length = v.iter.sizeHint ↔ ∀ i, i < v.len → v.get i ≠ none := by
  have hs : v.iter.sizeHint = v.answers.length := by simp [iter, Iter.sizeHint, answers]
  rw [hs, (c11_collect v 0).2, (untilNone_length _).2]
  simp [answers]

/-- It never delivers more than it announces. -/
theorem c11_count_le (v : PV α) (k : Nat) :
    (Iter.collect (v.len + 1) (v.iter.after k)).length ≤ (v.iter.after k).sizeHint := by
  rw [(c11_collect v k).1, (c11_next_is_get v k).2.2]
  have := (untilNone_length (v.answers.drop k)).1
  simpa [answers] using this

theorem foldRightLoop_present (v : PV α) (f : α → β → β) : ∀ n acc,
    foldRightLoop v f n acc = (present ((List.range n).map v.get)).foldr f acc := by
  have happ : ∀ (l : List (Option α)) (o : Option α),
      present (l ++ [o]) = present l ++ present [o] := by
    intro l o
    induction l with
    | nil => simp [present]
    | cons p l ih => cases p <;> simp [present, ih]
  intro n
  induction n with
  | zero => intro acc; simp [foldRightLoop, present]
  | succ n ih =>
    intro acc
    rw [foldRightLoop, ih, List.range_succ, List.map_append, List.map_singleton, happ,
      List.foldr_append]
    cases v.get n <;> simp [present]

/-- C12, for every vector value whatever: `fold` and `fold_left` are the left fold of the
elements before the first unreadable index, `fold_right` is the right fold of all readable
elements, and `length` is the number of indices. -/
theorem c12_folds_all (v : PV α) (init : β) (f : β → α → β) (g : α → β → β) :
    v.fold init f = (untilNone v.answers).foldl f init ∧
    v.foldLeft init f = (untilNone v.answers).foldl f init ∧
    v.foldRight init g = (present v.answers).foldr g init ∧
    v.length = v.answers.length := by
  have h := (c11_collect v 0).2
  simp only [toVec] at h
  refine ⟨by rw [fold, h], by rw [foldLeft, h], foldRightLoop_present v g v.len init,
    by simp [length, answers]⟩

/-- C12, exactly when `length` is the number of elements `fold_left` visits: when every index
below `len` has an element. -/
theorem c12_length_iff (v : PV α) :
    v.length = v.foldLeft 0 (fun n _ => n + 1) ↔ ∀ i, i < v.len → v.get i ≠ none := by
  have hc : ∀ (l : List α) n, l.foldl (fun n _ => n + 1) n = n + l.length := by
    intro l
    induction l with
    | nil => simp
    | cons x l ih => intro n; simp only [List.foldl_cons, List.length_cons]; rw [ih]; omega
  rw [← c11_count_iff, (c12_folds_all v 0 (fun n _ => n + 1) (fun _ n => n)).2.1, hc,
    (c11_collect v 0).2]
  simp only [length, iter, Iter.sizeHint]
  omega

theorem present_eq_untilNone (l : List (Option α)) :
    present l = untilNone l ↔ ∀ (i j : Nat) x, i < j → l[i]? = some none → l[j]? ≠ some (some x) := by
  induction l with
  | nil => simp [present, untilNone]
  | cons o l ih =>
    cases o with
    | some y =>
      simp only [present, untilNone, List.cons.injEq, true_and, ih]
      constructor
      · intro h i j x hij hi hj
        cases i with
        | zero => simp at hi
        | succ i =>
          cases j with
          | zero => omega
          | succ j => exact h i j x (by omega) (by simpa using hi) (by simpa using hj)
      · intro h i j x hij hi hj
        exact h (i + 1) (j + 1) x (by omega) (by simpa using hi) (by simpa using hj)
    | none =>
      simp only [present, untilNone]
      have hp : ∀ l : List (Option α), present l = [] ↔ ∀ (j : Nat) x, l[j]? ≠ some (some x) := by
        intro l
        induction l with
        | nil => simp [present]
        | cons o l ih =>
          cases o with
          | none =>
            simp only [present, ih]
            constructor
            · intro h j x hj
              cases j with
              | zero => simp at hj
              | succ j => exact h j x (by simpa using hj)
            · intro h j x hj
              exact h (j + 1) x (by simpa using hj)
          | some y =>
            simp only [present]
            constructor
            · intro h; cases h
            · intro h; exact absurd rfl (h 0 y)
      rw [hp]
      constructor
      · intro h i j x hij _ hj
        cases j with
        | zero => omega
        | succ j => exact h j x (by simpa using hj)
      · intro h j x hj
        exact h 0 (j + 1) x (by omega) rfl (by simpa using hj)

/-- C12, exactly when the two folds visit the same elements in the same order (so that
`fold_right` is the right fold of the sequence that `fold_left` folds): when no readable index
comes after an unreadable one. -/
theorem c12_folds_iff (v : PV α) :
    v.foldRight ([] : List α) (fun x acc => x :: acc) =
      v.foldLeft ([] : List α) (fun acc x => acc ++ [x]) ↔
    ∀ i j x, i < j → j < v.len → v.get i = none → v.get j ≠ some x := by
  have hl : ∀ (l acc : List α), l.foldl (fun acc x => acc ++ [x]) acc = acc ++ l := by
    intro l
    induction l with
    | nil => simp
    | cons x l ih => intro acc; simp [ih]
  have hr : ∀ (l : List α), l.foldr (fun x acc => x :: acc) [] = l := by
    intro l; induction l with
    | nil => rfl
    | cons x l ih => simp [ih]
  have h := c12_folds_all v ([] : List α) (fun acc x => acc ++ [x]) (fun x acc => x :: acc)
  rw [h.2.2.1, h.2.1, hl, hr, List.nil_append, present_eq_untilNone]
  have ha : ∀ (i : Nat) (o : Option α), v.answers[i]? = some o ↔ i < v.len ∧ v.get i = o := by
    intro i o
    by_cases hi : i < v.len
    · simp [answers, hi]
    · simp [answers, hi]
  constructor
  · intro H i j x hij hj hi hx
    exact H i j x hij ((ha i none).2 ⟨by omega, hi⟩) ((ha j (some x)).2 ⟨hj, hx⟩)
  · intro H i j x hij hi hx
    exact H i j x hij ((ha j _).1 hx).1 ((ha i _).1 hi).2 ((ha j _).1 hx).2

example : cut.toVec.length = 64 ∧ cut.iter.sizeHint = 70 ∧ cut.get 64 = none := by decide +kernel

end PV

/-! ## C10: equality is contents and representation -/

mutual
/-- A node with its elements forgotten: the structure and the size tables. -/
def Node.skeleton : Node α → Node Unit
  | .leaf es => .leaf (es.map fun _ => ())
  | .branch cs s => .branch (Node.skeletonL cs) s
/-- A list of nodes with their elements forgotten. -/
def Node.skeletonL : List (Node α) → List (Node Unit)
  | [] => []
  | c :: cs => c.skeleton :: Node.skeletonL cs
end

/-- A vector with its elements forgotten: how they are laid out, the recorded lengths and
height, and the version counter. -/
def PV.skeleton (v : PV α) : PV Unit :=
  ⟨match v.inner with
    | .inline es => .inline (es.map fun _ => ())
    | .tree t => .tree ⟨t.root.skeleton, t.tail.map fun _ => (), t.head.map fun _ => (), t.height, t.len⟩,
   v.len, v.generation⟩

theorem units_eq {es fs : List α} (h : es.map (fun _ => ()) = fs.map (fun _ => ())) :
    es.length = fs.length := by
  have := congrArg List.length h
  simpa using this

theorem Node.flat_skeleton_length (n : Node α) : n.skeleton.flat.length = n.flat.length := by
  induction n using Node.induct with
  | hleaf es => simp [Node.skeleton, Node.flat]
  | hbranch cs s ih =>
    simp only [Node.skeleton, Node.flat]
    induction cs with
    | nil => rfl
    | cons c cs ihc =>
      simp only [Node.skeletonL, Node.flatL, List.length_append]
      rw [ih c (by simp), ihc (fun x hx => ih x (by simp [hx]))]

theorem Node.eq_of_skeleton (n : Node α) : ∀ m, n.skeleton = m.skeleton → n.flat = m.flat → n = m := by
  induction n using Node.induct with
  | hleaf es =>
    intro m hb hf
    cases m with
    | leaf fs => simpa [Node.flat] using hf
    | branch ds t => simp [Node.skeleton] at hb
  | hbranch cs s ih =>
    intro m hb hf
    cases m with
    | leaf fs => simp [Node.skeleton] at hb
    | branch ds t =>
      simp only [Node.skeleton, Node.branch.injEq] at hb
      simp only [Node.flat] at hf
      have hl : ∀ (cs : List (Node α)),
          (∀ c ∈ cs, ∀ m, c.skeleton = m.skeleton → c.flat = m.flat → c = m) →
          ∀ ds, Node.skeletonL cs = Node.skeletonL ds → Node.flatL cs = Node.flatL ds → cs = ds := by
        intro cs
        induction cs with
        | nil => intro _ ds hb _; cases ds with
          | nil => rfl
          | cons d ds => simp [Node.skeletonL] at hb
        | cons c cs ihc =>
          intro hm ds hb hf
          cases ds with
          | nil => simp [Node.skeletonL] at hb
          | cons d ds =>
            simp only [Node.skeletonL, List.cons.injEq] at hb
            simp only [Node.flatL] at hf
            have hlen : c.flat.length = d.flat.length := by
              rw [← Node.flat_skeleton_length c, ← Node.flat_skeleton_length d, hb.1]
            obtain ⟨h1, h2⟩ := List.append_inj hf hlen
            rw [hm c (by simp) d hb.1 h1, ihc (fun x hx => hm x (by simp [hx])) ds hb.2 h2]
      rw [hl cs ih ds hb.1 hf, hb.2]

namespace PV

theorem eq_of_skeleton (v w : PV α) (hb : v.skeleton = w.skeleton) (hf : v.abs = w.abs) : v = w := by
  obtain ⟨vi, vl, vg⟩ := v
  obtain ⟨wi, wl, wg⟩ := w
  simp only [skeleton, PV.mk.injEq] at hb
  obtain ⟨hb, rfl, rfl⟩ := hb
  cases vi with
  | inline es =>
    cases wi with
    | inline fs => simp only [abs] at hf; rw [hf]
    | tree u => simp at hb
  | tree t =>
    cases wi with
    | inline fs => simp at hb
    | tree u =>
      obtain ⟨tr, tt, th, thh, tl⟩ := t
      obtain ⟨ur, ut, uh, uhh, ul⟩ := u
      simp only [VectorImpl.tree.injEq, Tree.mk.injEq] at hb
      obtain ⟨h1, h2, h3, rfl, rfl⟩ := hb
      simp only [abs, Tree.toList] at hf
      obtain ⟨h4, h5⟩ := List.append_inj' hf (units_eq h2)
      obtain ⟨h6, h7⟩ := List.append_inj h4 (units_eq h3)
      rw [Node.eq_of_skeleton tr ur h1 h7, h5, h6]

/-- C10, exactly when intact vectors are `==`: when they have the same elements in the same order
AND the same representation, that is layout, height and version counter. -/
theorem c10_equality_iff {eq : α → α → Bool} (heq : LawfulEq eq) {v w : PV α} (hv : Intact v)
    (hw : Intact w) : v.beq eq w = true ↔ v.toVec = w.toVec ∧ v.skeleton = w.skeleton := by
  rw [beq_iff heq]
  constructor
  · rintro rfl; exact ⟨rfl, rfl⟩
  · rintro ⟨h1, h2⟩
    rw [toVec_eq hv.wf, toVec_eq hw.wf] at h1
    exact eq_of_skeleton v w h2 h1

example : ((fromIter (List.range 100)).update 3 3).beq (fun a b => decide (a = b)) ((fromIter (List.range 100)).update 8 8) = true :=
  (c10_equality_iff (eq := fun a b => decide (a = b)) (fun a b => by simp) (.update _ _ (intact_fromIter _))
    (.update _ _ (intact_fromIter _))).2 ⟨by decide +kernel, by rfl⟩

/-- C10: two intact vectors with the same representation but for the elements, so for example two
results of the same operations on vectors built alike, are `==` exactly when their contents are. -/
theorem c10_same_layout_partial {eq : α → α → Bool} (heq : LawfulEq eq) {v w : PV α}
    (hv : Intact v) (hw : Intact w) (h : v.skeleton = w.skeleton) : EqCorrect eq v w := by
  unfold EqCorrect
  rw [c10_equality_iff heq hv hw]
  exact ⟨fun h => h.1, fun h' => ⟨h', h⟩⟩

example : Intact (fromIter (List.range 100)) ∧ Intact ((fromIter (List.range 100)).update 3 7) ∧
    ((fromIter (List.range 100)).update 3 7).skeleton ≠ (fromIter (List.range 100)).skeleton ∧
    ((fromIter (List.range 100)).update 3 7).skeleton = ((fromIter (List.range 100)).update 8 9).skeleton :=
  ⟨intact_of_test (by decide +kernel), intact_of_test (by decide +kernel), fun h => absurd (congrArg PV.generation h) (by decide +kernel),
    by rfl⟩

end PV
end Rustica.PVec
