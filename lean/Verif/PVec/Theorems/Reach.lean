import Verif.PVec.Theorems.Generation

/-!
# What holds, and what fails, for every reachable vector

`Theorems/Basic.lean` and `Theorems/Iter.lean` prove C02, C03, C11 and C12 for `Sound` vectors.
The claims are about every reachable vector.  This file shows that the remaining part is false of
the code (histories that damage a vector first), and proves what still holds for all of `Reach`.
It also contains the panic property C58.
-/

namespace Rustica.PVec

variable {α : Type}

/-! ## Size tables stay accurate through every operation -/

namespace Tree

theorem splitChild_sized {cs : List (Node α)} (hc : ∀ c ∈ cs, ∀ p j h,
    (splitAlongPath c p j h).1.Sized ∧ (splitAlongPath c p j h).2.Sized) :
    ∀ i p j h l r, splitChild cs i p j h = some (l, r) → l.Sized ∧ r.Sized := by
  induction cs with
  | nil => intro i p j h l r e; simp [splitChild] at e
  | cons c cs ih =>
    intro i p j h l r e
    cases i with
    | zero =>
      simp only [splitChild, Option.some.injEq] at e
      have := hc c (by simp) p j h
      rw [e] at this; exact this
    | succ i =>
      simp only [splitChild] at e
      exact ih (fun c' h' => hc c' (by simp [h'])) i p j h l r e

theorem leaf_sized (es : List α) : (Node.leaf es).Sized := by simp [Node.Sized]

theorem createLeft_sized {cs : List (Node α)} (hc : ∀ c ∈ cs, c.Sized) (i : Nat) {l : Node α}
    (hl : l.Sized) : (createLeftBranch cs i l).Sized := by
  simp only [createLeftBranch]
  generalize he : (if l.calculateSize > 0 then [l] else []) = ls
  split
  · exact leaf_sized _
  · rename_i h
    refine Node.sized_makeRelaxed (by simpa only [List.isEmpty_iff] using h) ?_
    subst he
    intro c hm
    rcases List.mem_append.1 hm with hm | hm
    · exact hc c (List.mem_of_mem_take hm)
    · split at hm
      · simp at hm; exact hm ▸ hl
      · simp at hm

theorem createRight_sized {cs : List (Node α)} (hc : ∀ c ∈ cs, c.Sized) (i : Nat) {r : Node α}
    (hr : r.Sized) : (createRightBranch cs i r).Sized := by
  simp only [createRightBranch]
  generalize he : (if r.calculateSize > 0 then [r] else []) = rs
  split
  · exact leaf_sized _
  · rename_i h
    refine Node.sized_makeRelaxed (by simpa only [List.isEmpty_iff] using h) ?_
    subst he
    intro c hm
    rcases List.mem_append.1 hm with hm | hm
    · split at hm
      · simp at hm; exact hm ▸ hr
      · simp at hm
    · exact hc c (List.mem_of_mem_drop hm)

theorem splitAlongPath_sized (n : Node α) : n.Sized → ∀ p j h,
    (splitAlongPath n p j h).1.Sized ∧ (splitAlongPath n p j h).2.Sized := by
  induction n using Node.induct with
  | hleaf es => intro _ p j h; simp [splitAlongPath]
  | hbranch cs s ih =>
    intro hs p j h
    obtain ⟨_, _, hc⟩ := (Node.sized_branch _ _).1 hs
    have hsc := splitChild_sized (cs := cs) (fun c hm => ih c hm (hc c hm))
    cases p with
    | nil =>
      simp only [splitAlongPath]
      cases e : splitChild cs 0 [] j (h - 1) with
      | none => simp
      | some lr => obtain ⟨l, r⟩ := lr; simpa using hsc _ _ _ _ _ _ e
    | cons i p =>
      simp only [splitAlongPath]
      cases e : splitChild cs i p (calculateAdjustedIndex j i s (h - 1)) (h - 1) with
      | none => simp
      | some lr =>
        obtain ⟨l, r⟩ := lr
        obtain ⟨hl, hr⟩ := hsc _ _ _ _ _ _ e
        exact ⟨createLeft_sized hc i hl, createRight_sized hc i hr⟩

theorem splitAt_sized {t : Tree α} (h : t.root.Sized) (i : Nat) :
    (t.splitAt i).1.root.Sized ∧ (t.splitAt i).2.root.Sized := by
  have hsp := splitAlongPath_sized t.root h (findPath t.root t.height (i - t.head.length))
    (i - t.head.length) t.height
  simp only [splitAt]
  split
  · simp [empty, h]
  · split
    · simp [empty, h]
    · split
      · simp [fromHead, fromHeadAndTreeAndTail, h]
      · split
        · simp [fromTail, fromHeadAndTreeAndTail, h]
        · simpa [fromHeadAndRoot, fromRootAndTail, splitTreeAt] using hsp

theorem pushTail_sized {t : Tree α} (h : t.root.Sized) : t.pushTailToTree.root.Sized := by
  simp only [pushTailToTree]
  split
  · exact h
  · exact (Node.pushLeaf_spec h (leaf_sized _)).1

theorem pushHead_sized {t : Tree α} (h : t.root.Sized) : t.pushHeadToTree.root.Sized := by
  simp only [pushHeadToTree]
  split
  · exact h
  · exact (Node.pushFrontLeaf_spec h (leaf_sized _)).1

theorem pushBack_sized {t : Tree α} (h : t.root.Sized) (x : α) : (t.pushBack x).root.Sized := by
  simp only [pushBack]
  split
  · exact h
  · exact pushTail_sized h

theorem pushFront_sized {t : Tree α} (h : t.root.Sized) (x : α) : (t.pushFront x).root.Sized := by
  simp only [pushFront]
  split
  · exact h
  · exact pushHead_sized h

theorem update_sized {t : Tree α} (h : t.root.Sized) (i : Nat) (x : α) :
    (t.update i x).root.Sized := by
  simp only [update]
  split
  · exact h
  · split
    · exact h
    · split
      · exact (Node.update_spec _ h _ _).1
      · exact h

theorem concatSame_sized {a b : Tree α} (ha : a.root.Sized) (hb : b.root.Sized) :
    (a.concatSameHeight b).root.Sized := by
  simp only [concatSameHeight]
  refine (Node.concatNodes_sized' ?_ ?_)
  · split
    · exact pushTail_sized ha
    · exact ha
  · split
    · exact pushHead_sized hb
    · exact hb
where
  Node.concatNodes_sized' {l r : Node α} (hl : l.Sized) (hr : r.Sized) :
      (concatNodes l r).Sized := (concatNodes_spec l hl r hr).1

theorem concat_sized {a b : Tree α} (ha : a.root.Sized) (hb : b.root.Sized) :
    (a.concat b).root.Sized := by
  have he : ∀ (t : Tree α) k, t.root.Sized → (elevateTree t k).root.Sized := fun t k h =>
    (elevateRoot_spec _ _ h).1
  simp only [concat, concatDifferentHeight]
  split
  · exact hb
  · split
    · exact ha
    · split
      · exact concatSame_sized ha hb
      · split
        · simp only [Bool.false_eq_true, if_false]
          exact concatSame_sized (he _ _ hb) ha
        · simp only [if_true]
          exact concatSame_sized ha (he _ _ hb)

theorem popBack_sized {t t' : Tree α} {x : α} (h : t.root.Sized) (hp : t.popBack = some (t', x)) :
    t'.root.Sized := by
  simp only [popBack] at hp
  split at hp
  · cases hp
  · split at hp
    · simp only [Option.some.injEq, Prod.mk.injEq] at hp
      obtain ⟨rfl, _⟩ := hp; exact h
    · simp only [popFromTree] at hp
      split at hp
      · cases hp
      · split at hp
        · cases hp
        · split at hp
          · cases hp
          · simp only [Option.some.injEq, Prod.mk.injEq] at hp
            obtain ⟨rfl, _⟩ := hp
            simp only
            split
            · exact leaf_sized _
            · rcases Node.popBack_spec _ h with ⟨_, n', y, e, hn, _⟩ | ⟨_, e⟩
              · rw [e]; exact hn
              · rw [e]; exact h

theorem popFront_sized {t t' : Tree α} {x : α} (h : t.root.Sized) (hp : t.popFront = some (t', x)) :
    t'.root.Sized := by
  have htail : ∀ t' x, t.popFrontFromTail = some (t', x) → t'.root.Sized := by
    intro t' x hp
    simp only [popFrontFromTail] at hp
    split at hp
    · simp only [Option.some.injEq, Prod.mk.injEq] at hp
      obtain ⟨rfl, _⟩ := hp; exact leaf_sized _
    · cases hp
  simp only [popFront] at hp
  split at hp
  · cases hp
  · split at hp
    · simp only [Option.some.injEq, Prod.mk.injEq] at hp
      obtain ⟨rfl, _⟩ := hp; exact h
    · simp only [popFrontFromTree] at hp
      split at hp
      · rcases Node.popFront_spec _ h with ⟨_, n', y, e, hn, _⟩ | ⟨_, e⟩
        · rw [e] at hp
          simp only [Option.some.injEq, Prod.mk.injEq] at hp
          obtain ⟨rfl, _⟩ := hp; exact hn
        · rw [e] at hp; exact htail _ _ hp
      · exact htail _ _ hp

end Tree

namespace PV

/-- What every operation preserves: an inline vector records its length correctly, and every
size table of a tree is accurate. -/
def Lax (v : PV α) : Prop :=
  match v.inner with
  | .inline es => v.len = es.length ∧ es.length ≤ ADAPTIVE_INLINE_SIZE
  | .tree t => t.root.Sized

theorem WF.lax {v : PV α} (h : v.WF) : v.Lax := by
  unfold WF at h; unfold Lax
  split at h
  · rename_i es he; rw [he]; exact h
  · rename_i t he; rw [he]; exact h.1.sized

theorem lax_fromIter (xs : List α) : (fromIter xs).Lax := (fromIter_spec xs).1.lax

theorem Lax.pushBack {v : PV α} (h : v.Lax) (x : α) : (v.pushBack x).Lax := by
  unfold Lax at h
  unfold PV.pushBack
  split
  · rename_i es he
    rw [he] at h
    split
    · rename_i hlt; exact ⟨by simp [h.1], by simp; omega⟩
    · simp only [transitionToTree, he, treePushBack]
      exact Tree.pushBack_sized (Tree.fromElements_spec es).1.sized x
  · rename_i t he
    rw [he] at h
    simp only [treePushBack, he]
    exact Tree.pushBack_sized h x

theorem Lax.pushFront {v : PV α} (h : v.Lax) (x : α) : (v.pushFront x).Lax := by
  unfold Lax at h
  unfold PV.pushFront
  split
  · rename_i es he
    rw [he] at h
    split
    · rename_i hlt; exact ⟨by simp [h.1], by simp; omega⟩
    · simp only [transitionToTree, he, treePushFront]
      exact Tree.pushFront_sized (Tree.fromElements_spec es).1.sized x
  · rename_i t he
    rw [he] at h
    simp only [treePushFront, he]
    exact Tree.pushFront_sized h x

theorem Lax.extend {v : PV α} (h : v.Lax) (xs : List α) : (v.extend xs).Lax := by
  unfold PV.extend
  induction xs generalizing v with
  | nil => exact h
  | cons x xs ih => exact ih (h.pushBack x)

theorem Lax.update {v : PV α} (h : v.Lax) (i : Nat) (x : α) : (v.update i x).Lax := by
  unfold PV.update
  split
  · exact h
  · unfold Lax at h
    split
    · rename_i es he; rw [he] at h; exact ⟨by simp [h.1], by simpa using h.2⟩
    · rename_i t he; rw [he] at h; exact Tree.update_sized h i x

theorem Lax.concat {a b : PV α} (ha : a.Lax) (hb : b.Lax) : (a.concat b).Lax := by
  unfold Lax at ha hb
  unfold PV.concat
  split
  · exact lax_fromIter _
  · rename_i es t e1 e2; rw [e2] at hb
    exact Tree.concat_sized (Tree.fromElements_spec es).1.sized hb
  · rename_i t es e1 e2; rw [e1] at ha
    exact Tree.concat_sized ha (Tree.fromElements_spec es).1.sized
  · rename_i t u e1 e2; rw [e1] at ha; rw [e2] at hb
    exact Tree.concat_sized ha hb

theorem Lax.popBack {v w : PV α} {x : α} (h : v.Lax) (hp : v.popBack = some (w, x)) : w.Lax := by
  unfold PV.popBack at hp
  split at hp
  · cases hp
  · unfold Lax at h
    split at hp
    · rename_i es he
      rw [he] at h
      split at hp
      · simp only [Option.some.injEq, Prod.mk.injEq] at hp
        obtain ⟨rfl, _⟩ := hp
        exact ⟨by simp [h.1], by simp; omega⟩
      · cases hp
    · rename_i t he
      rw [he] at h
      simp only [Option.map_eq_some_iff, Prod.mk.injEq] at hp
      obtain ⟨⟨t', y⟩, e, rfl, _⟩ := hp
      exact Tree.popBack_sized h e

theorem Lax.popFront {v w : PV α} {x : α} (h : v.Lax) (hp : v.popFront = some (w, x)) : w.Lax := by
  unfold PV.popFront at hp
  split at hp
  · cases hp
  · unfold Lax at h
    split at hp
    · rename_i es he
      rw [he] at h
      split at hp
      · simp only [Option.some.injEq, Prod.mk.injEq] at hp
        obtain ⟨rfl, _⟩ := hp
        have := h.2
        simp only [List.length_cons] at this
        exact ⟨by simp [h.1], by omega⟩
      · cases hp
    · rename_i t he
      rw [he] at h
      simp only [Option.map_eq_some_iff, Prod.mk.injEq] at hp
      obtain ⟨⟨t', y⟩, e, rfl, _⟩ := hp
      exact Tree.popFront_sized h e

theorem lax_new : (new : PV α).Lax := wf_new.lax

theorem Lax.splitAt {v : PV α} (h : v.Lax) (i : Nat) : (v.splitAt i).1.Lax ∧ (v.splitAt i).2.Lax := by
  unfold PV.splitAt
  split
  · exact ⟨h, lax_new⟩
  · split
    · exact ⟨lax_new, h⟩
    · unfold Lax at h
      split
      · rename_i es he
        rw [he] at h
        refine ⟨⟨?_, ?_⟩, ?_, ?_⟩
        all_goals simp only [List.length_take, List.length_drop]; omega
      · rename_i t he
        rw [he] at h
        exact Tree.splitAt_sized h i

theorem Lax.take {v : PV α} (h : v.Lax) (n : Nat) : (v.take n).Lax := by
  unfold PV.take; split
  · exact h
  · exact (h.splitAt n).1

theorem Lax.skip {v : PV α} (h : v.Lax) (n : Nat) : (v.skip n).Lax := by
  unfold PV.skip; split
  · exact lax_new
  · exact (h.splitAt n).2

/-- Every reachable vector is `Lax`. -/
theorem _root_.Rustica.PVec.Reach.lax {v : PV α} (h : Reach v) : v.Lax := by
  induction h with
  | new => exact lax_new
  | unit x => exact (wf_unit x).lax
  | fromIter xs => exact lax_fromIter xs
  | pushBack x _ ih => exact ih.pushBack x
  | pushFront x _ ih => exact ih.pushFront x
  | extend xs _ ih => exact ih.extend xs
  | update i x _ ih => exact ih.update i x
  | concat _ _ ih1 ih2 => exact ih1.concat ih2
  | popBack _ hp ih => exact ih.popBack hp
  | popFront _ hp ih => exact ih.popFront hp
  | splitLeft i _ ih => exact (ih.splitAt i).1
  | splitRight i _ ih => exact (ih.splitAt i).2
  | take n _ ih => exact ih.take n
  | skip n _ ih => exact ih.skip n
  | insert i x _ ih =>
    unfold PV.insert
    split
    · exact ih.pushBack x
    · split
      · exact ih.pushFront x
      · exact (((ih.splitAt i).1).pushBack x).concat (ih.splitAt i).2
  | remove i _ hp ih =>
    unfold PV.remove at hp
    split at hp
    · cases hp
    · split at hp
      · cases hp; exact lax_new
      · simp only [Option.some.injEq] at hp
        subst hp
        exact ((ih.splitAt i).1).concat ((ih.splitAt i).2.skip 1)

end PV
end Rustica.PVec
