import Verif.PVec.Theorems.Capacity

/-!
# How wide branches can get (C60, with `concat`)

`c60_children_false` says that no fixed number bounds the children of a branch.  Here: the widths of two operands add
up at most, so a vector made from `k` vectors by `concat` has branches of at most `32 * k` children.
-/

namespace Rustica.PVec

variable {α : Type}

namespace Node

theorem Within.mono {B C : Nat → Prop} (hBC : ∀ k, B k → C k) (n : Node α) : n.Within B → n.Within C := by
  induction n using Node.induct with
  | hleaf es => simp
  | hbranch cs s ih =>
    simp only [within_branch]
    exact fun h => ⟨hBC _ h.1, fun c hc => ih c hc (h.2 c hc)⟩

/-- "At most `m` children" is a width when `m` is at least 32. -/
theorem width_le {m : Nat} (h : 32 ≤ m) : Width (· ≤ m) :=
  ⟨fun _ hk => Nat.le_trans hk h, fun _ _ h h' => Nat.le_trans h h'⟩

end Node

namespace Tree
open Node

theorem concatLast_length (cs : List (Node α)) (r : Node α) :
    (concatLast cs r).toList.length ≤ 1 ∧ (cs = [] → concatLast cs r = none) := by
  refine ⟨?_, ?_⟩
  · cases concatLast cs r <;> simp
  · rintro rfl; simp [concatLast]

theorem concatNodes_width {m n : Nat} (hm : 1 ≤ m) (hn : 1 ≤ n) (l : Node α) : l.Within (· ≤ m) →
    ∀ r : Node α, r.Within (· ≤ n) → (concatNodes l r).Within (· ≤ m + n) := by
  have up1 : ∀ x : Node α, x.Within (· ≤ m) → x.Within (· ≤ m + n) :=
    fun x => Within.mono (fun k h => by omega) x
  have up2 : ∀ x : Node α, x.Within (· ≤ n) → x.Within (· ≤ m + n) :=
    fun x => Within.mono (fun k h => by omega) x
  induction l using Node.induct with
  | hleaf es =>
    intro h r hr
    cases r with
    | leaf fs =>
      simp only [within_leaf] at h hr
      simp only [concatNodes, LEAF_CAPACITY]
      split
      · rename_i h'; simpa using h'
      · rw [within_makeRelaxed]
        refine ⟨by simp only [List.length_cons, List.length_nil]; omega, fun c hc => ?_⟩
        simp only [List.mem_cons, List.not_mem_nil, or_false] at hc
        rcases hc with rfl | rfl
        · simp only [within_leaf, List.length_take]; omega
        · simp only [within_leaf, List.length_drop, List.length_append]; omega
    | branch cs s =>
      rw [within_branch] at hr
      simp only [concatNodes, within_makeRelaxed]
      refine ⟨by have := hr.1; simp only [List.length_cons]; omega, fun c hc => ?_⟩
      rcases List.mem_cons.1 hc with rfl | hc
      · exact up1 _ h
      · exact up2 _ (hr.2 c hc)
  | hbranch cs s ih =>
    intro h r hr
    rw [within_branch] at h
    cases r with
    | leaf fs =>
      simp only [concatNodes, within_makeRelaxed]
      refine ⟨by have := h.1; simp only [List.length_append, List.length_singleton]; omega, fun c hc => ?_⟩
      rcases List.mem_append.1 hc with hc | hc
      · exact up1 _ (h.2 c hc)
      · simp at hc; subst hc; exact up2 _ hr
    | branch ds s' =>
      rw [within_branch] at hr
      simp only [concatNodes, within_makeRelaxed]
      refine ⟨?_, fun c hc => ?_⟩
      · have h1 := h.1
        have h2 := hr.1
        simp only [List.length_append, List.length_dropLast, List.length_drop]
        cases ds with
        | nil => simp only [List.length_nil]; omega
        | cons d ds =>
          have := (concatLast_length cs d).1
          simp only [List.length_cons] at h2 ⊢
          omega
      · rcases List.mem_append.1 hc with hc | hc
        · rcases List.mem_append.1 hc with hc | hc
          · exact up1 _ (h.2 c (List.dropLast_subset _ hc))
          · cases ds with
            | nil => simp at hc
            | cons d ds =>
              simp only [Option.mem_toList] at hc
              obtain ⟨e, he, rfl⟩ := concatLast_mem _ _ _ hc
              exact ih e he (h.2 e he) d (hr.2 d (by simp))
        · exact up2 _ (hr.2 c (List.mem_of_mem_drop hc))

variable {m n : Nat}

theorem concatSame_width (hm : 32 ≤ m) (hn : 32 ≤ n) {a b : Tree α} (ha : a.Within (· ≤ m)) (hb : b.Within (· ≤ n)) :
    (a.concatSameHeight b).Within (· ≤ m + n) := by
  simp only [concatSameHeight]
  have hl : (if !a.tail.isEmpty then a.pushTailToTree else a).Within (· ≤ m) := by
    split
    · exact pushTail_within (width_le hm) ha
    · exact ha
  have hr : (if !b.head.isEmpty then b.pushHeadToTree else b).Within (· ≤ n) := by
    split
    · exact pushHead_within (width_le hn) hb
    · exact hb
  exact ⟨concatNodes_width (by omega) (by omega) _ hl.1 _ hr.1, hl.2.1, hr.2.2⟩

theorem concat_width (hm : 32 ≤ m) (hn : 32 ≤ n) {a b : Tree α} (ha : a.Within (· ≤ m)) (hb : b.Within (· ≤ n)) :
    (a.concat b).Within (· ≤ m + n) := by
  simp only [concat, concatDifferentHeight]
  split
  · exact ⟨Within.mono (fun k h => by omega) _ hb.1, hb.2⟩
  · split
    · exact ⟨Within.mono (fun k h => by omega) _ ha.1, ha.2⟩
    · split
      · exact concatSame_width hm hn ha hb
      · split
        · simp only [Bool.false_eq_true, if_false]
          rw [Nat.add_comm]
          exact concatSame_width hn hm (elevate_within (width_le hn) hb _) ha
        · simp only [if_true]
          exact concatSame_width hm hn ha (elevate_within (width_le hn) hb _)
end Tree

namespace PV
open Node

/-- C60: the widths of the two operands of `concat` add up at most. -/
theorem c60_concat_width {m n : Nat} (hm : 32 ≤ m) (hn : 32 ≤ n) {a b : PV α} (ha : a.Within (· ≤ m))
    (hb : b.Within (· ≤ n)) : (a.concat b).Within (· ≤ m + n) := by
  unfold Within at ha hb
  unfold PV.concat
  split
  · exact within_fromIter (width_le (by omega)) _
  · rename_i es t e1 e2; rw [e2] at hb
    exact Tree.concat_width hm hn (Tree.fromElements_within (width_le hm) es) hb
  · rename_i t es e1 e2; rw [e1] at ha
    exact Tree.concat_width hm hn ha (Tree.fromElements_within (width_le hn) es)
  · rename_i t u e1 e2; rw [e1] at ha; rw [e2] at hb
    exact Tree.concat_width hm hn ha hb

example : ∀ v w : PV Nat, v = fromIter (List.range 6400) → w = (fromIter (List.range 6400)).pushBack 1 →
    (v.concat w).Within (· ≤ 64) :=
  fun _ _ hv hw => c60_concat_width (m := 32) (n := 32) (Nat.le_refl _) (Nat.le_refl _)
    (c60_children_partial (hv ▸ .fromIter _)) (c60_children_partial (hw ▸ .pushBack _ (.fromIter _)))

/-- The vector is made by a history in which `concat` puts together at most `k` vectors: each construction counts
one, `concat` adds, `insert` and `remove` use their vector twice, every other call keeps the number. -/
inductive Joins : Nat → PV α → Prop where
  | new : Joins 1 PV.new
  | unit (x : α) : Joins 1 (PV.unit x)
  | fromIter (xs : List α) : Joins 1 (PV.fromIter xs)
  | pushBack {k : Nat} {v : PV α} (x : α) : Joins k v → Joins k (v.pushBack x)
  | pushFront {k : Nat} {v : PV α} (x : α) : Joins k v → Joins k (v.pushFront x)
  | extend {k : Nat} {v : PV α} (xs : List α) : Joins k v → Joins k (v.extend xs)
  | update {k : Nat} {v : PV α} (i : Nat) (x : α) : Joins k v → Joins k (v.update i x)
  | concat {j k : Nat} {v w : PV α} : Joins j v → Joins k w → Joins (j + k) (v.concat w)
  | popBack {k : Nat} {v w : PV α} {x : α} : Joins k v → v.popBack = some (w, x) → Joins k w
  | popFront {k : Nat} {v w : PV α} {x : α} : Joins k v → v.popFront = some (w, x) → Joins k w
  | splitLeft {k : Nat} {v : PV α} (i : Nat) : Joins k v → Joins k (v.splitAt i).1
  | splitRight {k : Nat} {v : PV α} (i : Nat) : Joins k v → Joins k (v.splitAt i).2
  | take {k : Nat} {v : PV α} (n : Nat) : Joins k v → Joins k (v.take n)
  | skip {k : Nat} {v : PV α} (n : Nat) : Joins k v → Joins k (v.skip n)
  | insert {k : Nat} {v : PV α} (i : Nat) (x : α) : Joins k v → Joins (2 * k) (v.insert i x)
  | remove {k : Nat} {v w : PV α} (i : Nat) : Joins k v → v.remove i = some w → Joins (2 * k) w

/-- Every reachable vector has such a number. -/
theorem Reach.joins {v : PV α} (h : Reach v) : ∃ k, Joins k v := by
  induction h with
  | new => exact ⟨_, .new⟩
  | unit x => exact ⟨_, .unit x⟩
  | fromIter xs => exact ⟨_, .fromIter xs⟩
  | pushBack x _ ih => exact ih.imp fun _ h => h.pushBack x
  | pushFront x _ ih => exact ih.imp fun _ h => h.pushFront x
  | extend xs _ ih => exact ih.imp fun _ h => h.extend xs
  | update i x _ ih => exact ih.imp fun _ h => h.update i x
  | concat _ _ ih1 ih2 =>
    obtain ⟨j, h1⟩ := ih1
    obtain ⟨k, h2⟩ := ih2
    exact ⟨_, h1.concat h2⟩
  | popBack _ hp ih => exact ih.imp fun _ h => h.popBack hp
  | popFront _ hp ih => exact ih.imp fun _ h => h.popFront hp
  | splitLeft i _ ih => exact ih.imp fun _ h => h.splitLeft i
  | splitRight i _ ih => exact ih.imp fun _ h => h.splitRight i
  | take n _ ih => exact ih.imp fun _ h => h.take n
  | skip n _ ih => exact ih.imp fun _ h => h.skip n
  | insert i x _ ih => obtain ⟨k, h⟩ := ih; exact ⟨_, h.insert i x⟩
  | remove i _ hp ih => obtain ⟨k, h⟩ := ih; exact ⟨_, h.remove i hp⟩

/-- C60, branches, with every call: at most 32 children per vector that `concat` has put together.  Missing from C60:
the bound of 32 that does not depend on the history, which is false (`c60_children_false`). -/
theorem c60_children_joins_partial {k : Nat} {v : PV α} (h : Joins k v) : v.Within (· ≤ 32 * k) := by
  have pos : ∀ {k : Nat} {v : PV α}, Joins k v → 1 ≤ k := by
    intro k v h
    induction h <;> omega
  have hB : ∀ {k : Nat} {v : PV α}, Joins k v → Width (· ≤ 32 * k) := fun h => width_le (by have := pos h; omega)
  induction h with
  | new => exact within_new
  | unit x => exact within_unit x
  | fromIter xs => exact within_fromIter (width_le (by omega)) xs
  | pushBack x h ih => exact ih.pushBack (hB h) x
  | pushFront x h ih => exact ih.pushFront (hB h) x
  | extend xs h ih => exact ih.extend (hB h) xs
  | update i x h ih => exact ih.update i x
  | concat h1 h2 ih1 ih2 =>
    rw [Nat.mul_add]
    exact c60_concat_width (by have := pos h1; omega) (by have := pos h2; omega) ih1 ih2
  | popBack h hp ih => exact ih.popBack (hB h) hp
  | popFront h hp ih => exact ih.popFront (hB h) hp
  | splitLeft i h ih => exact (ih.splitAt (hB h) i).1
  | splitRight i h ih => exact (ih.splitAt (hB h) i).2
  | take n h ih => exact ih.take (hB h) n
  | skip n h ih => exact ih.skip (hB h) n
  | @insert k v i x h ih =>
    have h1 := pos h
    have hB2 : Width (· ≤ 32 * (2 * k)) := width_le (by omega)
    have up : v.Within (· ≤ 32 * (2 * k)) := by
      unfold PV.Within at ih ⊢
      cases e : v.inner with
      | inline es => rw [e] at ih; exact ih
      | tree t => rw [e] at ih; exact ⟨Within.mono (fun j hj => by omega) _ ih.1, ih.2⟩
    unfold PV.insert
    split
    · exact up.pushBack hB2 x
    · split
      · exact up.pushFront hB2 x
      · rw [show 32 * (2 * k) = 32 * k + 32 * k by omega]
        exact c60_concat_width (by omega) (by omega) (((ih.splitAt (hB h) i).1).pushBack (hB h) x)
          (ih.splitAt (hB h) i).2
  | @remove k v w i h hp ih =>
    have h1 := pos h
    unfold PV.remove at hp
    split at hp
    · cases hp
    · split at hp
      · cases hp; exact within_new
      · simp only [Option.some.injEq] at hp
        subst hp
        rw [show 32 * (2 * k) = 32 * k + 32 * k by omega]
        exact c60_concat_width (by omega) (by omega) (ih.splitAt (hB h) i).1 ((ih.splitAt (hB h) i).2.skip (hB h) 1)

/-- Meets the hypotheses: two joined vectors, with 200 leaves in all. -/
example : Joins 2 ((fromIter (List.replicate 6400 ())).concat (fromIter (List.replicate 6400 ())) : PV Unit) :=
  .concat (.fromIter _) (.fromIter _)

end PV
end Rustica.PVec
