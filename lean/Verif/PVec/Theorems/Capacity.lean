import Verif.PVec.Theorems.Reach

/-!
# Capacities of leaves and branches (C60), size tables (C61)
-/

namespace Rustica.PVec

variable {α : Type}

namespace Node

mutual
/-- Every leaf holds at most 64 elements, and the number of children of every branch satisfies `B`. -/
def Within (B : Nat → Prop) : Node α → Prop
  | .leaf es => es.length ≤ 64
  | .branch cs _ => B cs.length ∧ WithinL B cs
/-- All nodes of a list are `Within`. -/
def WithinL (B : Nat → Prop) : List (Node α) → Prop
  | [] => True
  | c :: cs => Within B c ∧ WithinL B cs
end

theorem withinL_iff (B : Nat → Prop) (cs : List (Node α)) : WithinL B cs ↔ ∀ c ∈ cs, Within B c := by
  induction cs with
  | nil => simp [WithinL]
  | cons c cs ih => simp [WithinL, ih]

@[simp] theorem within_leaf (B : Nat → Prop) (es : List α) : (Node.leaf es).Within B ↔ es.length ≤ 64 := by
  simp [Within]

@[simp] theorem within_branch (B : Nat → Prop) (cs : List (Node α)) (s) :
    (Node.branch cs s).Within B ↔ B cs.length ∧ ∀ c ∈ cs, c.Within B := by
  simp [Within, withinL_iff]

/-- What the lemmas need of `B`: it holds up to 32 and for every smaller number of children. -/
structure Width (B : Nat → Prop) : Prop where
  small : ∀ k, k ≤ 32 → B k
  down : ∀ j k, j ≤ k → B k → B j

variable {B : Nat → Prop}

theorem within_makeRelaxed (cs : List (Node α)) : (makeRelaxed cs).Within B ↔ B cs.length ∧ ∀ c ∈ cs, c.Within B := by
  simp [makeRelaxed]

theorem pushLeaf_within (hB : Width B) {n l : Node α} (hn : n.Within B) (hl : l.Within B) :
    (n.pushLeaf l).Within B := by
  have h2 := hB.small 2 (by omega)
  cases n with
  | leaf es =>
    simp only [pushLeaf, within_branch]
    exact ⟨h2, by simpa using ⟨by simpa using hn, hl⟩⟩
  | branch cs s =>
    simp only [pushLeaf, BRANCHING_FACTOR]
    split
    · rename_i hlt
      simp only [within_branch, List.length_append, List.length_singleton] at hn ⊢
      refine ⟨hB.small _ (by omega), fun c hc => ?_⟩
      rcases List.mem_append.1 hc with hc | hc
      · exact hn.2 c hc
      · simp at hc; exact hc ▸ hl
    · rw [within_branch]
      refine ⟨h2, fun c hc => ?_⟩
      simp only [List.mem_cons, List.not_mem_nil, or_false] at hc
      rcases hc with rfl | rfl
      · exact hn
      · exact hl

theorem pushFrontLeaf_within (hB : Width B) {n l : Node α} (hn : n.Within B) (hl : l.Within B) :
    (n.pushFrontLeaf l).Within B := by
  have h2 := hB.small 2 (by omega)
  cases n with
  | leaf es =>
    simp only [pushFrontLeaf, within_branch]
    exact ⟨h2, by simpa using ⟨hl, by simpa using hn⟩⟩
  | branch cs s =>
    simp only [pushFrontLeaf, BRANCHING_FACTOR]
    split
    · rename_i hlt
      simp only [within_branch, List.length_cons] at hn ⊢
      refine ⟨hB.small _ (by omega), fun c hc => ?_⟩
      rcases List.mem_cons.1 hc with rfl | hc
      · exact hl
      · exact hn.2 c hc
    · rw [within_branch]
      refine ⟨h2, fun c hc => ?_⟩
      simp only [List.mem_cons, List.not_mem_nil, or_false] at hc
      rcases hc with rfl | rfl
      · exact hl
      · exact hn

theorem update_within (n : Node α) (x : α) : n.Within B → ∀ i, (n.update i x).Within B := by
  induction n using Node.induct with
  | hleaf es => intro h i; simp only [update]; split <;> simpa using h
  | hbranch cs s ih =>
    intro h i
    rw [within_branch] at h
    simp only [update]
    split
    · rw [within_branch, updateL_length]
      exact ⟨h.1, updateL_mem cs (Within B) x h.2 (fun c hc j => ih c hc (h.2 c hc) j) _ _⟩
    · rw [within_branch]; exact h

theorem popBackLast_mem (cs : List (Node α)) (n' : Node α) (x : α) (h : popBackLast cs = some (n', x)) :
    ∃ c ∈ cs, c.popBack = some (n', x) := by
  induction cs with
  | nil => simp [popBackLast] at h
  | cons c cs ih =>
    cases cs with
    | nil => exact ⟨c, by simp, by simpa [popBackLast] using h⟩
    | cons d ds =>
      simp only [popBackLast] at h
      obtain ⟨e, he, hp⟩ := ih h
      exact ⟨e, by simp [List.mem_cons.1 he], hp⟩

theorem popBack_within (hB : Width B) (n : Node α) : n.Within B → ∀ n' x, n.popBack = some (n', x) → n'.Within B := by
  induction n using Node.induct with
  | hleaf es =>
    intro h n' x hp
    simp only [popBack] at hp
    split at hp
    · cases hp
    · simp only [Option.some.injEq, Prod.mk.injEq] at hp
      obtain ⟨rfl, _⟩ := hp
      simp only [within_leaf, List.length_dropLast] at h ⊢; omega
  | hbranch cs s ih =>
    intro h n' x hp
    rw [within_branch] at h
    simp only [popBack] at hp
    cases e : popBackLast cs with
    | none => rw [e] at hp; cases hp
    | some q =>
      obtain ⟨c', y⟩ := q
      obtain ⟨c, hc, hcp⟩ := popBackLast_mem _ _ _ e
      have hw := ih c hc (h.2 c hc) _ _ hcp
      rw [e] at hp
      simp only at hp
      split at hp
      · split at hp
        · simp only [Option.some.injEq, Prod.mk.injEq] at hp
          obtain ⟨rfl, _⟩ := hp; simp
        · simp only [Option.some.injEq, Prod.mk.injEq] at hp
          obtain ⟨rfl, _⟩ := hp
          rw [within_branch]
          exact ⟨hB.down _ _ (by simp) h.1, fun d hd => h.2 d (List.dropLast_subset _ hd)⟩
      · simp only [Option.some.injEq, Prod.mk.injEq] at hp
        obtain ⟨rfl, _⟩ := hp
        rw [within_branch, List.length_set]
        refine ⟨h.1, fun d hd => ?_⟩
        rcases List.mem_or_eq_of_mem_set hd with hd | rfl
        · exact h.2 d hd
        · exact hw

theorem popFront_within (hB : Width B) (n : Node α) : n.Within B → ∀ n' x, n.popFront = some (n', x) →
    n'.Within B := by
  induction n using Node.induct with
  | hleaf es =>
    intro h n' x hp
    cases es with
    | nil => simp [popFront] at hp
    | cons e es =>
      simp only [popFront, Option.some.injEq, Prod.mk.injEq] at hp
      obtain ⟨rfl, _⟩ := hp
      simp only [within_leaf, List.length_cons] at h ⊢; omega
  | hbranch cs s ih =>
    intro h n' x hp
    rw [within_branch] at h
    cases cs with
    | nil => simp [popFront] at hp
    | cons c cs =>
      simp only [popFront] at hp
      cases e : c.popFront with
      | none => rw [e] at hp; cases hp
      | some q =>
        obtain ⟨c', y⟩ := q
        have hw := ih c (by simp) (h.2 c (by simp)) _ _ e
        rw [e] at hp
        simp only at hp
        split at hp
        · split at hp
          · simp only [Option.some.injEq, Prod.mk.injEq] at hp
            obtain ⟨rfl, _⟩ := hp; simp
          · simp only [Option.some.injEq, Prod.mk.injEq] at hp
            obtain ⟨rfl, _⟩ := hp
            rw [within_branch]
            exact ⟨hB.down _ _ (by simp) h.1, fun d hd => h.2 d (by simp [hd])⟩
        · simp only [Option.some.injEq, Prod.mk.injEq] at hp
          obtain ⟨rfl, _⟩ := hp
          rw [within_branch]
          refine ⟨by simpa using h.1, fun d hd => ?_⟩
          rcases List.mem_cons.1 hd with rfl | hd
          · exact hw
          · exact h.2 d (by simp [hd])

end Node

namespace Tree
open Node
variable {B : Nat → Prop}

/-- The root is `Within`, and the head and tail buffers hold at most 64 elements. -/
def Within (B : Nat → Prop) (t : Tree α) : Prop := t.root.Within B ∧ t.head.length ≤ 64 ∧ t.tail.length ≤ 64

theorem build_within (hB : Width B) : ∀ (fuel : Nat) (nodes : List (Node α)), (∀ n ∈ nodes, n.Within B) →
    (buildTreeRecursive fuel nodes).1.Within B := by
  intro fuel
  induction fuel with
  | zero => intro nodes _; simp [buildTreeRecursive]
  | succ fuel ih =>
    intro nodes hs
    match nodes, hs with
    | [n], hs => simpa [buildTreeRecursive] using hs n (by simp)
    | [], hs =>
      simp only [buildTreeRecursive]
      exact ih _ (by simp [chunks, chunksAux])
    | n :: m :: rest, hs =>
      simp only [buildTreeRecursive]
      refine ih _ fun x hx => ?_
      obtain ⟨c, hc, rfl⟩ := List.mem_map.1 hx
      have hmem := chunks_mem (n := BRANCHING_FACTOR) (by decide) (n :: m :: rest) c hc
      have hfl := chunks_flatten (n := BRANCHING_FACTOR) (by decide) (n :: m :: rest)
      rw [within_makeRelaxed]
      refine ⟨hB.small _ hmem.2, fun y hy => hs y ?_⟩
      rw [← hfl]; exact List.mem_flatten.2 ⟨c, hc, hy⟩

theorem fromElements_within (hB : Width B) (xs : List α) : (fromElements xs).Within B := by
  simp only [fromElements, LEAF_CAPACITY]
  split
  · rename_i h; exact ⟨by simpa using h, by simp, by simp⟩
  · simp only [buildTreeWithTail, LEAF_CAPACITY]
    have hd : (xs.drop (xs.length / 64 * 64)).length ≤ 64 := by simp only [List.length_drop]; omega
    split
    · exact ⟨by simp, by simp, hd⟩
    · refine ⟨build_within hB _ _ fun n hn => ?_, by simp, hd⟩
      obtain ⟨c, hc, rfl⟩ := List.mem_map.1 hn
      simpa using (chunks_mem (n := 64) (by decide) _ c hc).2

theorem pushTail_within (hB : Width B) {t : Tree α} (h : t.Within B) : t.pushTailToTree.Within B := by
  simp only [pushTailToTree]
  split
  · exact h
  · exact ⟨pushLeaf_within hB h.1 (by simpa using h.2.2), h.2.1, by simp⟩

theorem pushHead_within (hB : Width B) {t : Tree α} (h : t.Within B) : t.pushHeadToTree.Within B := by
  simp only [pushHeadToTree]
  split
  · exact h
  · exact ⟨pushFrontLeaf_within hB h.1 (by simpa using h.2.1), by simp, h.2.2⟩

theorem pushTail_tail (t : Tree α) : t.pushTailToTree.tail = [] := by
  simp only [pushTailToTree]; split
  · rename_i h; simpa using h
  · rfl

theorem pushHead_head (t : Tree α) : t.pushHeadToTree.head = [] := by
  simp only [pushHeadToTree]; split
  · rename_i h; simpa using h
  · rfl

theorem pushBack_within (hB : Width B) {t : Tree α} (h : t.Within B) (x : α) : (t.pushBack x).Within B := by
  simp only [pushBack, LEAF_CAPACITY]
  split
  · exact ⟨h.1, h.2.1, by simp; omega⟩
  · have := pushTail_within hB h
    exact ⟨this.1, this.2.1, by simp [pushTail_tail]⟩

theorem pushFront_within (hB : Width B) {t : Tree α} (h : t.Within B) (x : α) : (t.pushFront x).Within B := by
  simp only [pushFront, LEAF_CAPACITY]
  split
  · exact ⟨h.1, by simp; omega, h.2.2⟩
  · have := pushHead_within hB h
    exact ⟨this.1, by simp [pushHead_head], this.2.2⟩

theorem update_within {t : Tree α} (h : t.Within B) (i : Nat) (x : α) : (t.update i x).Within B := by
  simp only [update]
  split
  · exact h
  · split
    · exact ⟨h.1, by simpa using h.2.1, h.2.2⟩
    · split
      · exact ⟨Node.update_within _ _ h.1 _, h.2⟩
      · refine ⟨h.1, h.2.1, ?_⟩
        simp only; split
        · simpa using h.2.2
        · exact h.2.2

theorem concatLast_mem (cs : List (Node α)) (r n : Node α) (h : concatLast cs r = some n) :
    ∃ c ∈ cs, n = concatNodes c r := by
  induction cs with
  | nil => simp [concatLast] at h
  | cons c cs ih =>
    cases cs with
    | nil => exact ⟨c, by simp, by simpa [concatLast] using h.symm⟩
    | cons d ds =>
      simp only [concatLast] at h
      obtain ⟨e, he, hp⟩ := ih h
      exact ⟨e, by simp [List.mem_cons.1 he], hp⟩

theorem concatNodes_within (hall : ∀ k, B k) (l : Node α) : l.Within B → ∀ r : Node α, r.Within B →
    (concatNodes l r).Within B := by
  induction l using Node.induct with
  | hleaf es =>
    intro h r hr
    cases r with
    | leaf fs =>
      simp only [within_leaf] at h hr
      simp only [concatNodes, LEAF_CAPACITY]
      split
      · rename_i h'; simpa using h'
      · rw [within_makeRelaxed]
        refine ⟨hall _, fun c hc => ?_⟩
        simp only [List.mem_cons, List.not_mem_nil, or_false] at hc
        rcases hc with rfl | rfl
        · simp only [within_leaf, List.length_take]; omega
        · simp only [within_leaf, List.length_drop, List.length_append]; omega
    | branch cs s =>
      rw [within_branch] at hr
      simp only [concatNodes, within_makeRelaxed]
      refine ⟨hall _, fun c hc => ?_⟩
      rcases List.mem_cons.1 hc with rfl | hc
      · exact h
      · exact hr.2 c hc
  | hbranch cs s ih =>
    intro h r hr
    rw [within_branch] at h
    cases r with
    | leaf fs =>
      simp only [concatNodes, within_makeRelaxed]
      refine ⟨hall _, fun c hc => ?_⟩
      rcases List.mem_append.1 hc with hc | hc
      · exact h.2 c hc
      · simp at hc; subst hc; exact hr
    | branch ds s' =>
      rw [within_branch] at hr
      simp only [concatNodes, within_makeRelaxed]
      refine ⟨hall _, fun c hc => ?_⟩
      rcases List.mem_append.1 hc with hc | hc
      · rcases List.mem_append.1 hc with hc | hc
        · exact h.2 c (List.dropLast_subset _ hc)
        · cases ds with
          | nil => simp at hc
          | cons d ds =>
            simp only [Option.mem_toList] at hc
            obtain ⟨e, he, rfl⟩ := concatLast_mem _ _ _ hc
            exact ih e he (h.2 e he) d (hr.2 d (by simp))
      · exact hr.2 c (List.mem_of_mem_drop hc)

theorem concatSame_within (hB : Width B) (hall : ∀ k, B k) {a b : Tree α} (ha : a.Within B) (hb : b.Within B) :
    (a.concatSameHeight b).Within B := by
  simp only [concatSameHeight]
  have hl : (if !a.tail.isEmpty then a.pushTailToTree else a).Within B := by
    split
    · exact pushTail_within hB ha
    · exact ha
  have hr : (if !b.head.isEmpty then b.pushHeadToTree else b).Within B := by
    split
    · exact pushHead_within hB hb
    · exact hb
  exact ⟨concatNodes_within hall _ hl.1 _ hr.1, hl.2.1, hr.2.2⟩

theorem elevate_within (hB : Width B) {t : Tree α} (h : t.Within B) (k : Nat) : (elevateTree t k).Within B := by
  refine ⟨?_, h.2⟩
  simp only [elevateTree]
  have : ∀ j (n : Node α), n.Within B → (elevateRoot j n).Within B := by
    intro j
    induction j with
    | zero => intro n hn; exact hn
    | succ j ih =>
      intro n hn
      exact ih _ (by rw [within_branch]; exact ⟨hB.small _ (by simp), by simpa using hn⟩)
  exact this _ _ h.1

theorem concat_within (hB : Width B) (hall : ∀ k, B k) {a b : Tree α} (ha : a.Within B) (hb : b.Within B) :
    (a.concat b).Within B := by
  simp only [concat, concatDifferentHeight]
  split
  · exact hb
  · split
    · exact ha
    · split
      · exact concatSame_within hB hall ha hb
      · split
        · simp only [Bool.false_eq_true, if_false]
          exact concatSame_within hB hall (elevate_within hB hb _) ha
        · simp only [if_true]
          exact concatSame_within hB hall ha (elevate_within hB hb _)

theorem popBack_within (hB : Width B) {t t' : Tree α} {x : α} (h : t.Within B) (hp : t.popBack = some (t', x)) :
    t'.Within B := by
  simp only [popBack] at hp
  split at hp
  · cases hp
  · split at hp
    · simp only [Option.some.injEq, Prod.mk.injEq] at hp
      obtain ⟨rfl, _⟩ := hp
      refine ⟨h.1, h.2.1, ?_⟩
      simp only [List.length_dropLast]; have := h.2.2; omega
    · simp only [popFromTree] at hp
      split at hp
      · cases hp
      · split at hp
        · cases hp
        · split at hp
          · cases hp
          · simp only [Option.some.injEq, Prod.mk.injEq] at hp
            obtain ⟨rfl, _⟩ := hp
            refine ⟨?_, h.2⟩
            simp only
            split
            · simp
            · cases e : t.root.popBack with
              | none => exact h.1
              | some q => exact Node.popBack_within hB _ h.1 _ _ e

theorem popFront_within (hB : Width B) {t t' : Tree α} {x : α} (h : t.Within B) (hp : t.popFront = some (t', x)) :
    t'.Within B := by
  have htail : ∀ t' x, t.popFrontFromTail = some (t', x) → t'.Within B := by
    intro t' x hp
    simp only [popFrontFromTail] at hp
    split at hp
    · simp only [Option.some.injEq, Prod.mk.injEq] at hp
      obtain ⟨rfl, _⟩ := hp
      have := h.2.2
      exact ⟨by simp, by simp; omega, by simp⟩
    · cases hp
  simp only [popFront] at hp
  split at hp
  · cases hp
  · split at hp
    · rename_i y hd e
      simp only [Option.some.injEq, Prod.mk.injEq] at hp
      obtain ⟨rfl, _⟩ := hp
      have := h.2.1
      rw [e] at this
      simp only [List.length_cons] at this
      exact ⟨h.1, by simp only; omega, h.2.2⟩
    · simp only [popFrontFromTree] at hp
      split at hp
      · cases e : t.root.popFront with
        | none => rw [e] at hp; exact htail _ _ hp
        | some q =>
          rw [e] at hp
          simp only [Option.some.injEq, Prod.mk.injEq] at hp
          obtain ⟨rfl, _⟩ := hp
          exact ⟨Node.popFront_within hB _ h.1 _ _ e, h.2⟩
      · exact htail _ _ hp

theorem splitChild_within {cs : List (Node α)} (hc : ∀ c ∈ cs, ∀ p j h,
    (splitAlongPath c p j h).1.Within B ∧ (splitAlongPath c p j h).2.Within B) :
    ∀ i p j h l r, splitChild cs i p j h = some (l, r) → l.Within B ∧ r.Within B := by
  induction cs with
  | nil => intro i p j h l r e; simp [splitChild] at e
  | cons c cs ih =>
    intro i p j h l r e
    cases i with
    | zero =>
      simp only [splitChild, Option.some.injEq] at e
      have := hc c (by simp) p j h
      rw [e] at this; exact this
    | succ i =>
      simp only [splitChild] at e
      exact ih (fun c' h' => hc c' (by simp [h'])) i p j h l r e

theorem createLeft_within (hB : Width B) {cs : List (Node α)} (hw : B cs.length) (hc : ∀ c ∈ cs, c.Within B)
    (i : Nat) (hi : i < cs.length) {l : Node α} (hl : l.Within B) : (createLeftBranch cs i l).Within B := by
  have key : ∀ e : List (Node α), e.length ≤ 1 → (∀ c ∈ e, c.Within B) →
      (if (cs.take i ++ e).isEmpty then Node.leaf [] else makeRelaxed (cs.take i ++ e)).Within B := by
    intro e he hm
    split
    · simp
    · rw [within_makeRelaxed]
      refine ⟨hB.down _ _ ?_ hw, fun c hcm => ?_⟩
      · simp only [List.length_append, List.length_take]; omega
      · rcases List.mem_append.1 hcm with hcm | hcm
        · exact hc c (List.mem_of_mem_take hcm)
        · exact hm c hcm
  simp only [createLeftBranch]
  split
  · exact key [l] (by simp) (by simpa using hl)
  · exact key [] (by simp) (by simp)

theorem createRight_within (hB : Width B) {cs : List (Node α)} (hw : B cs.length) (hc : ∀ c ∈ cs, c.Within B)
    (i : Nat) (hi : i < cs.length) {r : Node α} (hr : r.Within B) : (createRightBranch cs i r).Within B := by
  have key : ∀ e : List (Node α), e.length ≤ 1 → (∀ c ∈ e, c.Within B) →
      (if (e ++ cs.drop (i + 1)).isEmpty then Node.leaf [] else makeRelaxed (e ++ cs.drop (i + 1))).Within B := by
    intro e he hm
    split
    · simp
    · rw [within_makeRelaxed]
      refine ⟨hB.down _ _ ?_ hw, fun c hcm => ?_⟩
      · simp only [List.length_append, List.length_drop]; omega
      · rcases List.mem_append.1 hcm with hcm | hcm
        · exact hm c hcm
        · exact hc c (List.mem_of_mem_drop hcm)
  simp only [createRightBranch]
  split
  · exact key [r] (by simp) (by simpa using hr)
  · exact key [] (by simp) (by simp)

theorem splitChild_lt {cs : List (Node α)} : ∀ {i p j h q}, splitChild cs i p j h = some q → i < cs.length := by
  induction cs with
  | nil => intro i p j h q e; simp [splitChild] at e
  | cons c cs ih =>
    intro i p j h q e
    cases i with
    | zero => simp
    | succ i => simp only [splitChild] at e; have := ih e; simp; omega

theorem splitAlongPath_within (hB : Width B) (n : Node α) : n.Within B → ∀ p j h,
    (splitAlongPath n p j h).1.Within B ∧ (splitAlongPath n p j h).2.Within B := by
  induction n using Node.induct with
  | hleaf es =>
    intro hw p j h
    simp only [within_leaf] at hw
    simp only [splitAlongPath, within_leaf, List.length_take, List.length_drop]
    omega
  | hbranch cs s ih =>
    intro hs p j h
    rw [within_branch] at hs
    have hsc := splitChild_within (B := B) (cs := cs) (fun c hm => ih c hm (hs.2 c hm))
    cases p with
    | nil =>
      simp only [splitAlongPath]
      cases e : splitChild cs 0 [] j (h - 1) with
      | none => simp
      | some lr => obtain ⟨l, r⟩ := lr; simpa using hsc _ _ _ _ _ _ e
    | cons i p =>
      simp only [splitAlongPath]
      cases e : splitChild cs i p (calculateAdjustedIndex j i s (h - 1)) (h - 1) with
      | none => simp
      | some lr =>
        obtain ⟨l, r⟩ := lr
        obtain ⟨hl, hr⟩ := hsc _ _ _ _ _ _ e
        have hi := splitChild_lt e
        exact ⟨createLeft_within hB hs.1 hs.2 i hi hl, createRight_within hB hs.1 hs.2 i hi hr⟩

theorem splitAt_within (hB : Width B) {t : Tree α} (h : t.Within B) (i : Nat) :
    (t.splitAt i).1.Within B ∧ (t.splitAt i).2.Within B := by
  have hsp := splitAlongPath_within hB t.root h.1 (findPath t.root t.height (i - t.head.length))
    (i - t.head.length) t.height
  have he : (empty : Tree α).Within B := ⟨by simp [empty], by simp [empty], by simp [empty]⟩
  obtain ⟨hr, hh, ht⟩ := h
  simp only [splitAt]
  split
  · exact ⟨he, hr, hh, ht⟩
  · split
    · exact ⟨⟨hr, hh, ht⟩, he⟩
    · split
      · refine ⟨⟨by simp [fromHead], ?_, by simp [fromHead]⟩, hr, ?_, ht⟩
        · simp only [fromHead, List.length_take]; omega
        · simp only [fromHeadAndTreeAndTail, List.length_drop]; omega
      · split
        · refine ⟨⟨hr, hh, ?_⟩, by simp [fromTail], by simp [fromTail], ?_⟩
          · simp only [fromHeadAndTreeAndTail, List.length_take]; omega
          · simp only [fromTail, List.length_drop]; omega
        · exact ⟨⟨hsp.1, hh, by simp [fromHeadAndRoot]⟩, hsp.2, by simp [fromRootAndTail], ht⟩

end Tree

namespace PV
open Node
variable {B : Nat → Prop}

/-- Inline storage, leaves and buffers of a vector hold at most 64 elements; the number of children of every branch
satisfies `B`. -/
def Within (B : Nat → Prop) (v : PV α) : Prop :=
  match v.inner with
  | .inline es => es.length ≤ 64
  | .tree t => t.root.Within B ∧ t.head.length ≤ 64 ∧ t.tail.length ≤ 64

theorem within_new : (new : PV α).Within B := by simp [Within, new]

theorem within_fromIter (hB : Width B) (xs : List α) : (fromIter xs).Within B := by
  simp only [fromIter, ADAPTIVE_INLINE_SIZE]
  split
  · rename_i h; exact h
  · exact Tree.fromElements_within hB xs

theorem Within.pushBack (hB : Width B) {v : PV α} (h : v.Within B) (x : α) : (v.pushBack x).Within B := by
  unfold Within at h
  unfold PV.pushBack
  split
  · rename_i es he
    split
    · rename_i hlt; simp only [ADAPTIVE_INLINE_SIZE] at hlt; simp [Within]; omega
    · simp only [transitionToTree, he, treePushBack]
      exact Tree.pushBack_within hB (Tree.fromElements_within hB es) x
  · rename_i t he
    rw [he] at h
    simp only [treePushBack, he]
    exact Tree.pushBack_within hB h x

theorem Within.pushFront (hB : Width B) {v : PV α} (h : v.Within B) (x : α) : (v.pushFront x).Within B := by
  unfold Within at h
  unfold PV.pushFront
  split
  · rename_i es he
    split
    · rename_i hlt; simp only [ADAPTIVE_INLINE_SIZE] at hlt; simp [Within]; omega
    · simp only [transitionToTree, he, treePushFront]
      exact Tree.pushFront_within hB (Tree.fromElements_within hB es) x
  · rename_i t he
    rw [he] at h
    simp only [treePushFront, he]
    exact Tree.pushFront_within hB h x

theorem Within.extend (hB : Width B) {v : PV α} (h : v.Within B) (xs : List α) : (v.extend xs).Within B := by
  unfold PV.extend
  induction xs generalizing v with
  | nil => exact h
  | cons x xs ih => exact ih (h.pushBack hB x)

theorem Within.update {v : PV α} (h : v.Within B) (i : Nat) (x : α) : (v.update i x).Within B := by
  unfold PV.update
  split
  · exact h
  · unfold Within at h
    split
    · rename_i es he; rw [he] at h; simpa [Within] using h
    · rename_i t he; rw [he] at h; exact Tree.update_within h i x

theorem Within.concat (hB : Width B) (hall : ∀ k, B k) {a b : PV α} (ha : a.Within B) (hb : b.Within B) :
    (a.concat b).Within B := by
  unfold Within at ha hb
  unfold PV.concat
  split
  · exact within_fromIter hB _
  · rename_i es t e1 e2; rw [e2] at hb
    exact Tree.concat_within hB hall (Tree.fromElements_within hB es) hb
  · rename_i t es e1 e2; rw [e1] at ha
    exact Tree.concat_within hB hall ha (Tree.fromElements_within hB es)
  · rename_i t u e1 e2; rw [e1] at ha; rw [e2] at hb
    exact Tree.concat_within hB hall ha hb

theorem Within.popBack (hB : Width B) {v w : PV α} {x : α} (h : v.Within B) (hp : v.popBack = some (w, x)) :
    w.Within B := by
  unfold PV.popBack at hp
  split at hp
  · cases hp
  · unfold Within at h
    split at hp
    · rename_i es he
      rw [he] at h
      split at hp
      · simp only [Option.some.injEq, Prod.mk.injEq] at hp
        obtain ⟨rfl, _⟩ := hp
        simp [Within]; omega
      · cases hp
    · rename_i t he
      rw [he] at h
      simp only [Option.map_eq_some_iff, Prod.mk.injEq] at hp
      obtain ⟨⟨t', y⟩, e, rfl, _⟩ := hp
      exact Tree.popBack_within hB h e

theorem Within.popFront (hB : Width B) {v w : PV α} {x : α} (h : v.Within B) (hp : v.popFront = some (w, x)) :
    w.Within B := by
  unfold PV.popFront at hp
  split at hp
  · cases hp
  · unfold Within at h
    split at hp
    · rename_i es he
      rw [he] at h
      split at hp
      · simp only [Option.some.injEq, Prod.mk.injEq] at hp
        obtain ⟨rfl, _⟩ := hp
        simp only [List.length_cons] at h
        simp [Within]; omega
      · cases hp
    · rename_i t he
      rw [he] at h
      simp only [Option.map_eq_some_iff, Prod.mk.injEq] at hp
      obtain ⟨⟨t', y⟩, e, rfl, _⟩ := hp
      exact Tree.popFront_within hB h e

theorem Within.splitAt (hB : Width B) {v : PV α} (h : v.Within B) (i : Nat) :
    (v.splitAt i).1.Within B ∧ (v.splitAt i).2.Within B := by
  unfold PV.splitAt
  split
  · exact ⟨h, within_new⟩
  · split
    · exact ⟨within_new, h⟩
    · unfold Within at h
      split
      · rename_i es he
        rw [he] at h
        simp only [Within, List.length_take, List.length_drop]; omega
      · rename_i t he
        rw [he] at h
        exact Tree.splitAt_within hB h i

theorem Within.take (hB : Width B) {v : PV α} (h : v.Within B) (n : Nat) : (v.take n).Within B := by
  unfold PV.take; split
  · exact h
  · exact (h.splitAt hB n).1

theorem Within.skip (hB : Width B) {v : PV α} (h : v.Within B) (n : Nat) : (v.skip n).Within B := by
  unfold PV.skip; split
  · exact within_new
  · exact (h.splitAt hB n).2

theorem within_unit (x : α) : (unit x).Within B := by simp [Within, unit]

/-- C60, leaves: in every reachable vector the inline storage, every leaf and both buffers hold at most 64
elements. -/
theorem c60_leaves {v : PV α} (h : Reach v) : v.Within fun _ => True := by
  have hB : Width fun _ => True := ⟨fun _ _ => trivial, fun _ _ _ _ => trivial⟩
  have hall : ∀ k : Nat, (fun _ => True) k := fun _ => trivial
  induction h with
  | new => exact within_new
  | unit x => exact within_unit x
  | fromIter xs => exact within_fromIter hB xs
  | pushBack x _ ih => exact ih.pushBack hB x
  | pushFront x _ ih => exact ih.pushFront hB x
  | extend xs _ ih => exact ih.extend hB xs
  | update i x _ ih => exact ih.update i x
  | concat _ _ ih1 ih2 => exact ih1.concat hB hall ih2
  | popBack _ hp ih => exact ih.popBack hB hp
  | popFront _ hp ih => exact ih.popFront hB hp
  | splitLeft i _ ih => exact (ih.splitAt hB i).1
  | splitRight i _ ih => exact (ih.splitAt hB i).2
  | take n _ ih => exact ih.take hB n
  | skip n _ ih => exact ih.skip hB n
  | insert i x _ ih =>
    unfold PV.insert
    split
    · exact ih.pushBack hB x
    · split
      · exact ih.pushFront hB x
      · exact (((ih.splitAt hB i).1).pushBack hB x).concat hB hall (ih.splitAt hB i).2
  | remove i _ hp ih =>
    unfold PV.remove at hp
    split at hp
    · cases hp
    · split at hp
      · cases hp; exact within_new
      · simp only [Option.some.injEq] at hp
        subst hp
        exact ((ih.splitAt hB i).1).concat hB hall ((ih.splitAt hB i).2.skip hB 1)

/-- It also holds of a vector with too wide a branch and of a damaged one. -/
example : ((((fromIter (List.range 65)).concat (fromIter (List.range 65))).splitAt 70).1).Within fun _ => True :=
  c60_leaves (.splitLeft 70 (.concat (.fromIter _) (.fromIter _)))

/-- Vectors made without `concat`, `insert` and `remove`. -/
inductive NoConcat : PV α → Prop where
  | new : NoConcat PV.new
  | unit (x : α) : NoConcat (PV.unit x)
  | fromIter (xs : List α) : NoConcat (PV.fromIter xs)
  | pushBack {v : PV α} (x : α) : NoConcat v → NoConcat (v.pushBack x)
  | pushFront {v : PV α} (x : α) : NoConcat v → NoConcat (v.pushFront x)
  | extend {v : PV α} (xs : List α) : NoConcat v → NoConcat (v.extend xs)
  | update {v : PV α} (i : Nat) (x : α) : NoConcat v → NoConcat (v.update i x)
  | popBack {v w : PV α} {x : α} : NoConcat v → v.popBack = some (w, x) → NoConcat w
  | popFront {v w : PV α} {x : α} : NoConcat v → v.popFront = some (w, x) → NoConcat w
  | splitLeft {v : PV α} (i : Nat) : NoConcat v → NoConcat (v.splitAt i).1
  | splitRight {v : PV α} (i : Nat) : NoConcat v → NoConcat (v.splitAt i).2
  | take {v : PV α} (n : Nat) : NoConcat v → NoConcat (v.take n)
  | skip {v : PV α} (n : Nat) : NoConcat v → NoConcat (v.skip n)

/-- C60, branches: without `concat` (and `insert`, `remove`, which use it) every branch has at most 32 children.
Missing from C60: `concat`, for which it is false (`c60_children_false`). -/
theorem c60_children_partial {v : PV α} (h : NoConcat v) : v.Within (· ≤ 32) := by
  have hB : Width (· ≤ 32) := ⟨fun _ h => h, fun _ _ h h' => Nat.le_trans h h'⟩
  induction h with
  | new => exact within_new
  | unit x => exact within_unit x
  | fromIter xs => exact within_fromIter hB xs
  | pushBack x _ ih => exact ih.pushBack hB x
  | pushFront x _ ih => exact ih.pushFront hB x
  | extend xs _ ih => exact ih.extend hB xs
  | update i x _ ih => exact ih.update i x
  | popBack _ hp ih => exact ih.popBack hB hp
  | popFront _ hp ih => exact ih.popFront hB hp
  | splitLeft i _ ih => exact (ih.splitAt hB i).1
  | splitRight i _ ih => exact (ih.splitAt hB i).2
  | take n _ ih => exact ih.take hB n
  | skip n _ ih => exact ih.skip hB n

example : ∀ v : PV Nat, v = (fromIter (List.range 200)).pushFront 7 → v.Within (· ≤ 32) :=
  fun _ e => c60_children_partial (e ▸ .pushFront _ (.fromIter _))

/-- The result of joining `k + 1` vectors of 128 elements. -/
def joined : Nat → PV Unit
  | 0 => fromIter (List.replicate 128 ())
  | k + 1 => (joined k).concat (fromIter (List.replicate 128 ()))

theorem reach_joined (k : Nat) : Reach (joined k) := by
  induction k with
  | zero => exact .fromIter _
  | succ k ih => exact .concat ih (.fromIter _)

set_option maxRecDepth 20000 in
theorem fromIter128 : (fromIter (List.replicate 128 ()) : PV Unit) =
    ⟨.tree ⟨.branch [.leaf (List.replicate 64 ()), .leaf (List.replicate 64 ())] (some [64, 64]), [], [], 1, 128⟩,
      128, 0⟩ := by
  rfl

theorem joined_shape (k : Nat) : ∃ cs s len g, joined k = ⟨.tree ⟨.branch cs s, [], [], 1, len⟩, len, g⟩ ∧
    cs.length = k + 2 ∧ 0 < len := by
  induction k with
  | zero => exact ⟨_, _, _, _, fromIter128, rfl, by omega⟩
  | succ k ih =>
    obtain ⟨cs, s, len, g, h, hc, hlen⟩ := ih
    have hne : cs ≠ [] := by intro h0; rw [h0] at hc; simp at hc
    obtain ⟨pre, c, rfl⟩ := exists_eq_append_singleton hne
    simp only [joined, h, fromIter128, PV.concat, Tree.concat]
    rw [if_neg (by omega), if_neg (by omega)]
    simp only [if_true, Tree.concatSameHeight, List.isEmpty_nil, Bool.not_true, Bool.false_eq_true, if_false,
      Tree.concatNodes, Node.makeRelaxed, Tree.concatLast_append]
    refine ⟨_, _, _, _, rfl, ?_, by omega⟩
    simp at hc ⊢
    omega

/-- C60 is false of the code for branches: `concat` joins the children of both roots without splitting, so branches of
any width can be made. -/
theorem c60_children_false : ¬ ∃ m, ∀ v : PV Unit, Reach v → v.Within (· ≤ m) := by
  rintro ⟨m, h⟩
  have h1 := h _ (reach_joined m)
  obtain ⟨cs, s, len, g, e, hc, _⟩ := joined_shape m
  rw [e] at h1
  simp only [Within, within_branch] at h1
  have := h1.1.1
  omega

/-- Meets the hypotheses of `c60_leaves` and of `c60_children_partial`. -/
example : NoConcat ((fromIter (List.range 200)).pushFront 7) ∧ ((fromIter (List.range 200)).pushFront 7).len = 201 :=
  ⟨.pushFront _ (.fromIter _), by decide +kernel⟩

end PV

/-! ## Size tables -/

namespace Node
mutual
/-- Independent reading of "every branch has children and carries one size per child, the number of elements stored
in that child". -/
inductive Tabled : Node α → Nat → Prop
  | leaf (es : List α) : Tabled (.leaf es) es.length
  | branch (c : Node α) (cs : List (Node α)) (sizes : List Nat) : TabledL (c :: cs) sizes →
      Tabled (.branch (c :: cs) (some sizes)) sizes.sum
/-- The nodes of a list with their sizes. -/
inductive TabledL : List (Node α) → List Nat → Prop
  | nil : TabledL [] []
  | cons (c : Node α) (cs : List (Node α)) (n : Nat) (ns : List Nat) : Tabled c n → TabledL cs ns →
      TabledL (c :: cs) (n :: ns)
end

theorem tabledL_of (cs : List (Node α)) (h : ∀ c ∈ cs, Tabled c c.flat.length) :
    TabledL cs (cs.map fun c => c.flat.length) := by
  induction cs with
  | nil => exact .nil
  | cons c cs ih => exact .cons _ _ _ _ (h c (by simp)) (ih fun d hd => h d (by simp [hd]))

theorem Sized.tabled (n : Node α) : n.Sized → Tabled n n.flat.length := by
  induction n using Node.induct with
  | hleaf es => intro _; simpa using Tabled.leaf es
  | hbranch cs s ih =>
    intro h
    obtain ⟨hne, hs, hc⟩ := (Node.sized_branch _ _).1 h
    subst hs
    cases cs with
    | nil => exact absurd rfl hne
    | cons c cs =>
      have := Tabled.branch c cs _ (tabledL_of (c :: cs) fun d hd => ih d hd (hc d hd))
      have e := sum_map_flen (c :: cs)
      have e2 : ((c :: cs).map fun c => c.flat.length).sum = (flatL (c :: cs)).length := e
      rw [e2] at this
      simpa using this
end Node

namespace PV

/-- C61: in every reachable vector (also one whose recorded length is already wrong) every branch node carries a size
table with the exact number of elements of each child.  So the radix arithmetic for branches without a table
(`find_child_regular` and the fallbacks in `find_child`, `calculate_adjusted_index`) is never used. -/
theorem c61_size_tables {v : PV α} (h : Reach v) {t : Tree α} (ht : v.inner = .tree t) :
    Node.Tabled t.root t.root.flat.length := by
  have hl := h.lax
  unfold Lax at hl
  rw [ht] at hl
  exact Node.Sized.tabled _ hl

/-- A reachable tree vector. -/
example : ∃ t, (fromIter (List.replicate 128 ()) : PV Unit).inner = .tree t := ⟨_, congrArg PV.inner fromIter128⟩

end PV
end Rustica.PVec
