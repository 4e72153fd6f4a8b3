import Verif.PVec.Theorems.Cost
import Verif.PVec.Theorems.Capacity

/-!
# How deep trees can get (C59, with every call)

`c59_log_false` says that no bound of the form `a * log2(len) + b` holds.  Here: a bound from the calls that made the
vector.  A push costs one 1984th of a level (1984 = 31 leaves of 64 elements), a `concat` three levels, a collected
vector as many levels as a balanced tree needs and one more.
-/

namespace Rustica.PVec

variable {α : Type}

namespace Node
open Tree

/-- Number of children as far as it matters for the next level; a leaf counts as full. -/
def fill : Node α → Nat
  | .leaf _ => 32
  | .branch cs _ => min cs.length 32

/-- What the calls have to pay for: 1984 per level, 64 per child of the root after the first. -/
def pot (n : Node α) : Nat := 1984 * n.depth + 64 * (n.fill - 1)

@[simp] theorem pot_leaf (es : List α) : (Node.leaf es).pot = 1984 := by simp [pot, fill]
theorem pot_branch (cs : List (Node α)) (s) :
    (Node.branch cs s).pot = 1984 * (1 + depthL cs) + 64 * (min cs.length 32 - 1) := by simp [pot, fill]
theorem pot_le (n : Node α) : n.pot ≤ 1984 * (n.depth + 1) := by
  have : n.fill ≤ 32 := by cases n <;> simp [fill]
  unfold pot; omega
theorem depth_le_pot (n : Node α) : 1984 * n.depth ≤ n.pot := by unfold pot; omega
theorem pot_pos (n : Node α) : 1984 ≤ n.pot := by
  cases n with
  | leaf es => simp
  | branch cs s => rw [pot_branch]; omega

theorem pushLeaf_pot (n : Node α) (es : List α) : (n.pushLeaf (.leaf es)).pot ≤ n.pot + 64 := by
  cases n with
  | leaf fs => simp [pushLeaf, pot_branch, depthL]
  | branch cs s =>
    simp only [pushLeaf, BRANCHING_FACTOR]
    split
    · simp only [pot_branch, depthL_append, depthL, depth_leaf, List.length_append, List.length_singleton]
      omega
    · simp only [pot_branch, depthL, depth_leaf, depth_branch, List.length_cons, List.length_nil]
      omega

theorem pushFrontLeaf_pot (n : Node α) (es : List α) : (n.pushFrontLeaf (.leaf es)).pot ≤ n.pot + 64 := by
  cases n with
  | leaf fs => simp [pushFrontLeaf, pot_branch, depthL]
  | branch cs s =>
    simp only [pushFrontLeaf, BRANCHING_FACTOR]
    split
    · simp only [pot_branch, depthL, depth_leaf, List.length_cons]
      omega
    · simp only [pot_branch, depthL, depth_leaf, depth_branch, List.length_cons, List.length_nil]
      omega

theorem update_pot (n : Node α) (i : Nat) (x : α) : (n.update i x).pot = n.pot := by
  have hd := update_depth n x i
  have hf : (n.update i x).fill = n.fill := by
    cases n with
    | leaf es => simp [Node.update, fill]
    | branch cs s =>
      rw [Node.update]
      split
      · simp [fill, updateL_length]
      · rfl
  rw [pot, pot, hd, hf]

theorem depthL_mem {cs : List (Node α)} {c : Node α} (h : c ∈ cs) : c.depth ≤ depthL cs :=
  depthL_le.1 (Nat.le_refl _) c h

theorem depthL_sub {as bs : List (Node α)} (h : ∀ a ∈ as, ∃ b ∈ bs, a.depth ≤ b.depth) : depthL as ≤ depthL bs :=
  depthL_le.2 fun a ha => by
    obtain ⟨b, hb, hab⟩ := h a ha
    exact Nat.le_trans hab (depthL_mem hb)

theorem popBackLast_of (cs : List (Node α)) (n' : Node α) (x : α) (h : popBackLast cs = some (n', x)) :
    ∃ c ∈ cs, c.popBack = some (n', x) := by
  induction cs with
  | nil => simp [popBackLast] at h
  | cons c cs ih =>
    cases cs with
    | nil => exact ⟨c, by simp, by simpa [popBackLast] using h⟩
    | cons d ds =>
      simp only [popBackLast] at h
      obtain ⟨e, he, hp⟩ := ih h
      exact ⟨e, by simp [List.mem_cons.1 he], hp⟩

/-- A branch that is no wider and whose children are no deeper. -/
theorem branch_shrinks {cs ds : List (Node α)} {s t} (hl : ds.length ≤ cs.length)
    (h : ∀ a ∈ ds, ∃ b ∈ cs, a.depth ≤ b.depth) :
    (Node.branch ds t).depth ≤ (Node.branch cs s).depth ∧ (Node.branch ds t).pot ≤ (Node.branch cs s).pot := by
  have := depthL_sub h
  rw [pot_branch, pot_branch]
  simp only [depth_branch]
  omega

theorem leaf_shrinks (es : List α) (n : Node α) :
    (Node.leaf es).depth ≤ n.depth ∧ (Node.leaf es).pot ≤ n.pot := ⟨by simp, by simpa using pot_pos n⟩

theorem popBack_shrinks (n : Node α) : ∀ n' x, n.popBack = some (n', x) → n'.depth ≤ n.depth ∧ n'.pot ≤ n.pot := by
  induction n using Node.induct with
  | hleaf es =>
    intro n' x h
    simp only [popBack] at h
    split at h
    · cases h
    · cases h; exact leaf_shrinks _ _
  | hbranch cs s ih =>
    intro n' x h
    simp only [popBack] at h
    cases e : popBackLast cs with
    | none => rw [e] at h; cases h
    | some q =>
      obtain ⟨c', y⟩ := q
      rw [e] at h
      obtain ⟨c, hc, hp⟩ := popBackLast_of cs c' y e
      have hle := (ih c hc _ _ hp).1
      simp only at h
      split at h
      · split at h
        · cases h; exact leaf_shrinks _ _
        · cases h
          exact branch_shrinks (by simp) fun a ha => ⟨a, List.dropLast_subset _ ha, Nat.le_refl _⟩
      · cases h
        refine branch_shrinks (by simp) fun a ha => ?_
        rcases List.mem_or_eq_of_mem_set ha with h' | rfl
        · exact ⟨a, h', Nat.le_refl _⟩
        · exact ⟨c, hc, hle⟩

theorem popFront_shrinks (n : Node α) : ∀ n' x, n.popFront = some (n', x) →
    n'.depth ≤ n.depth ∧ n'.pot ≤ n.pot := by
  induction n using Node.induct with
  | hleaf es =>
    intro n' x h
    simp only [popFront] at h
    split at h
    · cases h
    · cases h; exact leaf_shrinks _ _
  | hbranch cs s ih =>
    intro n' x h
    cases cs with
    | nil => simp [popFront] at h
    | cons c cs =>
      simp only [popFront] at h
      cases e : popFront c with
      | none => rw [e] at h; cases h
      | some q =>
        obtain ⟨c', y⟩ := q
        rw [e] at h
        have hle := (ih c (by simp) _ _ e).1
        simp only at h
        split at h
        · split at h
          · cases h; exact leaf_shrinks _ _
          · cases h
            exact branch_shrinks (by simp) fun a ha => ⟨a, by simp [ha], Nat.le_refl _⟩
        · cases h
          refine branch_shrinks (by simp) fun a ha => ?_
          rcases List.mem_cons.1 ha with rfl | h'
          · exact ⟨c, by simp, hle⟩
          · exact ⟨a, by simp [h'], Nat.le_refl _⟩
end Node

namespace Tree
open Node

theorem calculateHeight_le (n : Node α) : calculateHeight n ≤ n.depth := by
  induction n using Node.induct with
  | hleaf es => simp [calculateHeight]
  | hbranch cs s ih =>
    cases cs with
    | nil => simp [calculateHeight]
    | cons c cs =>
      have := ih c (by simp)
      simp only [calculateHeight, depth_branch, depthL]
      omega

theorem splitChild_of (cs : List (Node α)) : ∀ i p j h q, splitChild cs i p j h = some q →
    i < cs.length ∧ ∃ c ∈ cs, q = splitAlongPath c p j h := by
  induction cs with
  | nil => intro i p j h q e; simp [splitChild] at e
  | cons c cs ih =>
    intro i p j h q e
    cases i with
    | zero => simp only [splitChild, Option.some.injEq] at e; exact ⟨by simp, c, by simp, e.symm⟩
    | succ i =>
      simp only [splitChild] at e
      obtain ⟨h1, d, hd, hq⟩ := ih i p j h q e
      exact ⟨by simp; omega, d, by simp [hd], hq⟩

theorem split_shrinks (n : Node α) : ∀ p j h,
    ((splitAlongPath n p j h).1.depth ≤ n.depth ∧ (splitAlongPath n p j h).1.pot ≤ n.pot) ∧
    ((splitAlongPath n p j h).2.depth ≤ n.depth ∧ (splitAlongPath n p j h).2.pot ≤ n.pot) := by
  induction n using Node.induct with
  | hleaf es => intro p j h; simp [splitAlongPath]
  | hbranch cs s ih =>
    intro p j h
    cases p with
    | nil =>
      simp only [splitAlongPath]
      cases e : splitChild cs 0 [] j (h - 1) with
      | none => exact ⟨leaf_shrinks _ _, leaf_shrinks _ _⟩
      | some lr =>
        obtain ⟨_, c, hc, rfl⟩ := splitChild_of cs _ _ _ _ _ e
        have hd := depthL_mem hc
        have h1 := ih c hc [] j (h - 1)
        have h2 := pot_le c
        simp only [Option.getD_some, depth_branch, pot_branch]
        omega
    | cons i p =>
      simp only [splitAlongPath]
      cases e : splitChild cs i p (calculateAdjustedIndex j i s (h - 1)) (h - 1) with
      | none => exact ⟨leaf_shrinks _ _, leaf_shrinks _ _⟩
      | some lr =>
        obtain ⟨hi, c, hc, rfl⟩ := splitChild_of cs _ _ _ _ _ e
        have h1 := ih c hc p (calculateAdjustedIndex j i s (h - 1)) (h - 1)
        generalize splitAlongPath c p (calculateAdjustedIndex j i s (h - 1)) (h - 1) = lr at h1
        obtain ⟨l, r⟩ := lr
        refine ⟨?_, ?_⟩
        · simp only [createLeftBranch]
          generalize he : (if l.calculateSize > 0 then [l] else []) = ls
          have hls : ls.length ≤ 1 ∧ ∀ a ∈ ls, a = l := by subst he; split <;> simp
          split
          · exact leaf_shrinks _ _
          · refine branch_shrinks (by simp; omega) fun a ha => ?_
            rcases List.mem_append.1 ha with ha | ha
            · exact ⟨a, List.mem_of_mem_take ha, Nat.le_refl _⟩
            · exact ⟨c, hc, hls.2 a ha ▸ h1.1.1⟩
        · simp only [createRightBranch]
          generalize he : (if r.calculateSize > 0 then [r] else []) = rs
          have hrs : rs.length ≤ 1 ∧ ∀ a ∈ rs, a = r := by subst he; split <;> simp
          split
          · exact leaf_shrinks _ _
          · refine branch_shrinks (by simp; omega) fun a ha => ?_
            rcases List.mem_append.1 ha with ha | ha
            · exact ⟨c, hc, hrs.2 a ha ▸ h1.2.1⟩
            · exact ⟨a, List.mem_of_mem_drop ha, Nat.le_refl _⟩

theorem concatNodes_depth (l : Node α) : ∀ r : Node α, (concatNodes l r).depth ≤ 1 + max l.depth r.depth := by
  induction l using Node.induct with
  | hleaf es =>
    intro r
    cases r with
    | leaf fs =>
      simp only [concatNodes]
      split
      · simp
      · simp [makeRelaxed, depthL]
    | branch cs s => simp [concatNodes, makeRelaxed, depthL]
  | hbranch cs s ih =>
    intro r
    cases r with
    | leaf fs => simp [concatNodes, makeRelaxed, depthL_append, depthL]
    | branch ds s' =>
      simp only [concatNodes, makeRelaxed, depth_branch]
      refine Nat.add_le_add_left (depthL_le.2 fun c hc => ?_) 1
      rcases List.mem_append.1 hc with hc | hc
      · rcases List.mem_append.1 hc with hc | hc
        · have := depthL_mem (List.dropLast_subset _ hc); omega
        · cases ds with
          | nil => simp at hc
          | cons d ds =>
            simp only [Option.mem_toList] at hc
            obtain ⟨e, he, rfl⟩ := concatLast_of _ _ _ hc
            have h1 := ih e he d
            have h2 := depthL_mem he
            simp only [depthL]
            omega
      · have := depthL_mem (List.mem_of_mem_drop hc); omega
where
  concatLast_of (cs : List (Node α)) (r n : Node α) (h : concatLast cs r = some n) :
      ∃ c ∈ cs, n = concatNodes c r := by
    induction cs with
    | nil => simp [concatLast] at h
    | cons c cs ih =>
      cases cs with
      | nil => exact ⟨c, by simp, by simpa [concatLast] using h.symm⟩
      | cons d ds =>
        simp only [concatLast] at h
        obtain ⟨e, he, hp⟩ := ih h
        exact ⟨e, by simp [List.mem_cons.1 he], hp⟩

theorem elevateRoot_depth (k : Nat) : ∀ n : Node α, (elevateRoot k n).depth = n.depth + k := by
  induction k with
  | zero => intro n; rfl
  | succ k ih => intro n; rw [elevateRoot, ih]; simp [depthL]; omega

/-- Both the real depth and the recorded height are paid for. -/
def Paid (p : Nat) (t : Tree α) : Prop :=
  t.root.pot + t.head.length + t.tail.length ≤ p ∧ 1984 * t.height + t.head.length + t.tail.length ≤ p

variable {p q : Nat}

theorem Paid.mono {t : Tree α} (h : t.Paid p) (hpq : p ≤ q) : t.Paid q := by
  unfold Paid at *; omega

theorem pushTail_paid {t : Tree α} (h : t.Paid p) (h64 : 64 ≤ t.tail.length) :
    t.pushTailToTree.Paid p ∧ t.pushTailToTree.tail = [] := by
  have hne : t.tail.isEmpty = false := by cases e : t.tail with
    | nil => simp [e] at h64
    | cons a as => rfl
  have h1 := pushLeaf_pot t.root t.tail
  have h2 := calculateHeight_le (t.root.pushLeaf (.leaf t.tail))
  have h3 := depth_le_pot (t.root.pushLeaf (.leaf t.tail))
  unfold Paid at *
  simp only [pushTailToTree, hne, Bool.false_eq_true, if_false, List.length_nil, and_true]
  omega

theorem pushHead_paid {t : Tree α} (h : t.Paid p) (h64 : 64 ≤ t.head.length) :
    t.pushHeadToTree.Paid p ∧ t.pushHeadToTree.head = [] := by
  have hne : t.head.isEmpty = false := by cases e : t.head with
    | nil => simp [e] at h64
    | cons a as => rfl
  have h1 := pushFrontLeaf_pot t.root t.head
  have h2 := calculateHeight_le (t.root.pushFrontLeaf (.leaf t.head))
  have h3 := depth_le_pot (t.root.pushFrontLeaf (.leaf t.head))
  unfold Paid at *
  simp only [pushHeadToTree, hne, Bool.false_eq_true, if_false, List.length_nil, and_true]
  omega

theorem pushBack_paid {t : Tree α} (h : t.Paid p) (x : α) : (t.pushBack x).Paid (p + 1) := by
  simp only [pushBack, LEAF_CAPACITY]
  split
  · unfold Paid at *; simp only [List.length_append, List.length_singleton]; omega
  · obtain ⟨h1, h2⟩ := pushTail_paid h (by omega)
    unfold Paid at *
    rw [h2] at *
    simp only [List.nil_append, List.length_singleton] at *
    omega

theorem pushFront_paid {t : Tree α} (h : t.Paid p) (x : α) : (t.pushFront x).Paid (p + 1) := by
  simp only [pushFront, LEAF_CAPACITY]
  split
  · unfold Paid at *; simp only [List.length_cons]; omega
  · obtain ⟨h1, h2⟩ := pushHead_paid h (by omega)
    unfold Paid at *
    rw [h2] at *
    simp only [List.length_cons, List.length_nil] at *
    omega

theorem update_paid {t : Tree α} (h : t.Paid p) (i : Nat) (x : α) : (t.update i x).Paid p := by
  simp only [update]
  split
  · exact h
  · split
    · simpa [Paid] using h
    · split
      · simpa [Paid, update_pot] using h
      · split <;> simpa [Paid] using h

theorem pushTail_depth (t : Tree α) : t.pushTailToTree.root.depth ≤ t.root.depth + 1 ∧
    t.pushTailToTree.head = t.head := by
  simp only [pushTailToTree]
  split
  · exact ⟨by omega, rfl⟩
  · refine ⟨?_, rfl⟩
    cases t.root with
    | leaf es => simp [pushLeaf, depthL]
    | branch cs s =>
      simp only [pushLeaf]
      split
      · simp [depthL_append, depthL]
      · simp [depthL]; omega

theorem pushHead_depth (t : Tree α) : t.pushHeadToTree.root.depth ≤ t.root.depth + 1 ∧
    t.pushHeadToTree.tail = t.tail := by
  simp only [pushHeadToTree]
  split
  · exact ⟨by omega, rfl⟩
  · refine ⟨?_, rfl⟩
    cases t.root with
    | leaf es => simp [pushFrontLeaf, depthL]
    | branch cs s =>
      simp only [pushFrontLeaf]
      split
      · simp [depthL]
      · simp [depthL]; omega

/-- The depth of two joined roots of the same recorded height. -/
theorem concatSame_depth (a b : Tree α) :
    (a.concatSameHeight b).root.depth ≤ 2 + max a.root.depth b.root.depth ∧
    (a.concatSameHeight b).height = max a.height b.height ∧
    (a.concatSameHeight b).head = a.head ∧ (a.concatSameHeight b).tail = b.tail := by
  have h1 := pushTail_depth a
  have h2 := pushHead_depth b
  have hl : (if !a.tail.isEmpty then a.pushTailToTree else a).root.depth ≤ a.root.depth + 1 ∧
      (if !a.tail.isEmpty then a.pushTailToTree else a).head = a.head := by
    split
    · exact h1
    · exact ⟨by omega, rfl⟩
  have hr : (if !b.head.isEmpty then b.pushHeadToTree else b).root.depth ≤ b.root.depth + 1 ∧
      (if !b.head.isEmpty then b.pushHeadToTree else b).tail = b.tail := by
    split
    · exact h2
    · exact ⟨by omega, rfl⟩
  have h3 := concatNodes_depth (if !a.tail.isEmpty then a.pushTailToTree else a).root
    (if !b.head.isEmpty then b.pushHeadToTree else b).root
  simp only [concatSameHeight]
  exact ⟨by omega, trivial, hl.2, hr.2⟩

theorem concat_paid {a b : Tree α} (ha : a.Paid p) (hb : b.Paid q) : (a.concat b).Paid (p + q + 3 * 1984) := by
  have da := depth_le_pot a.root
  have db := depth_le_pot b.root
  unfold Paid at ha hb
  simp only [concat, concatDifferentHeight]
  split
  · unfold Paid; omega
  · split
    · unfold Paid; omega
    · split
      · obtain ⟨h1, h2, h3, h4⟩ := concatSame_depth a b
        have h5 := pot_le (a.concatSameHeight b).root
        unfold Paid; rw [h2, h3, h4]; omega
      · split
        · simp only [Bool.false_eq_true, if_false]
          obtain ⟨h1, h2, h3, h4⟩ := concatSame_depth (elevateTree b a.height) a
          have h5 := pot_le ((elevateTree b a.height).concatSameHeight a).root
          unfold Paid; rw [h2, h3, h4]
          simp only [elevateTree, elevateRoot_depth] at h1 ⊢
          simp only [elevateTree] at h5
          omega
        · simp only [if_true]
          obtain ⟨h1, h2, h3, h4⟩ := concatSame_depth a (elevateTree b a.height)
          have h5 := pot_le (a.concatSameHeight (elevateTree b a.height)).root
          unfold Paid; rw [h2, h3, h4]
          simp only [elevateTree, elevateRoot_depth] at h1 ⊢
          simp only [elevateTree] at h5
          omega

theorem popBack_paid {t t' : Tree α} {x : α} (h : t.Paid p) (hp : t.popBack = some (t', x)) : t'.Paid p := by
  have hpos := pot_pos t.root
  unfold Paid at h
  simp only [popBack] at hp
  split at hp
  · cases hp
  · cases e : t.tail.getLast? with
    | some y =>
      rw [e] at hp
      simp only [Option.some.injEq, Prod.mk.injEq] at hp
      obtain ⟨rfl, _⟩ := hp
      unfold Paid; simp only [List.length_dropLast]; omega
    | none =>
      rw [e] at hp
      simp only [popFromTree] at hp
      split at hp
      · cases hp
      · split at hp
        · cases hp
        · split at hp
          · cases hp
          · by_cases h1 : t.len - t.tail.length = 1
            · simp only [h1, if_true, Option.some.injEq, Prod.mk.injEq] at hp
              obtain ⟨rfl, _⟩ := hp
              unfold Paid; simp only [pot_leaf]; omega
            · simp only [h1, if_false, Option.some.injEq, Prod.mk.injEq] at hp
              cases e2 : t.root.popBack with
              | none =>
                rw [e2] at hp; obtain ⟨rfl, _⟩ := hp
                exact h
              | some r =>
                obtain ⟨r, y⟩ := r
                rw [e2] at hp; obtain ⟨rfl, _⟩ := hp
                have := (popBack_shrinks t.root r y e2).2
                unfold Paid; simp only; omega

theorem popFront_paid {t t' : Tree α} {x : α} (h : t.Paid p) (hp : t.popFront = some (t', x)) : t'.Paid p := by
  have hpos := pot_pos t.root
  unfold Paid at h
  have htail : ∀ t' x, t.popFrontFromTail = some (t', x) → t'.Paid p := by
    intro t' x hp
    simp only [popFrontFromTail] at hp
    split at hp
    · simp only [Option.some.injEq, Prod.mk.injEq] at hp
      obtain ⟨rfl, _⟩ := hp
      unfold Paid
      simp only [pot_leaf, List.length_dropLast, List.length_reverse, List.length_nil]
      omega
    · cases hp
  simp only [popFront] at hp
  split at hp
  · cases hp
  · split at hp
    · rename_i y ys he
      simp only [Option.some.injEq, Prod.mk.injEq] at hp
      obtain ⟨rfl, _⟩ := hp
      rw [he] at h
      unfold Paid
      simp only [List.length_cons] at h ⊢
      omega
    · simp only [popFrontFromTree] at hp
      split at hp
      · cases e : t.root.popFront with
        | none => rw [e] at hp; exact htail _ _ hp
        | some r =>
          obtain ⟨r, y⟩ := r
          rw [e] at hp
          simp only [Option.some.injEq, Prod.mk.injEq] at hp
          obtain ⟨rfl, _⟩ := hp
          have := (popFront_shrinks t.root r y e).2
          unfold Paid; simp only; omega
      · exact htail _ _ hp

theorem splitAt_paid {t : Tree α} (h : t.Paid p) (i : Nat) : (t.splitAt i).1.Paid p ∧ (t.splitAt i).2.Paid p := by
  have hpos := pot_pos t.root
  have hsp := split_shrinks t.root (findPath t.root t.height (i - t.head.length)) (i - t.head.length) t.height
  unfold Paid at h
  have he : (empty : Tree α).Paid p := by simp only [empty, Paid, pot_leaf, List.length_nil]; omega
  simp only [splitAt]
  split
  · exact ⟨he, h⟩
  · split
    · exact ⟨h, he⟩
    · split
      · simp only [Paid, fromHead, fromHeadAndTreeAndTail, pot_leaf, List.length_nil, List.length_take,
          List.length_drop]
        omega
      · split
        · simp only [Paid, fromTail, fromHeadAndTreeAndTail, pot_leaf, List.length_nil, List.length_take,
            List.length_drop]
          omega
        · simp only [splitTreeAt]
          generalize splitAlongPath t.root (findPath t.root t.height (i - t.head.length)) (i - t.head.length)
            t.height = lr at hsp
          obtain ⟨l, r⟩ := lr
          have h1 := calculateHeight_le l
          have h2 := depth_le_pot l
          have h3 := calculateHeight_le r
          have h4 := depth_le_pot r
          simp only [Paid, fromHeadAndRoot, fromRootAndTail, List.length_nil] at hsp ⊢
          omega

/-- A collected tree is as deep as a balanced tree needs to be. -/
theorem fromElements_levels (xs : List α) (d : Nat) (h : xs.length ≤ 64 * 32 ^ d) :
    (fromElements xs).height ≤ d ∧ (fromElements xs).root.depth = (fromElements xs).height := by
  rcases fromElements_shape xs with ⟨h0, hr⟩ | ⟨hl, hb, _⟩
  · simp only [LEAF_CAPACITY] at h0
    simp [fromElements, h0]
  · refine ⟨?_, hb.depth⟩
    simp only [LEAF_CAPACITY] at hl
    clear hb
    apply Nat.le_of_not_lt
    intro hh
    simp only [fromElements, buildTreeWithTail, LEAF_CAPACITY, show ¬ xs.length ≤ 64 by omega, if_false] at hh
    have hne : (xs.take (xs.length / 64 * 64)).isEmpty = false := by
      rw [List.isEmpty_eq_false_iff]; intro h0
      have := congrArg List.length h0
      simp only [List.length_take, List.length_nil] at this; omega
    simp only [hne, Bool.false_eq_true, if_false] at hh
    have hcl := chunks_length (n := 64) (by decide) (xs.take (xs.length / 64 * 64))
    simp only [List.length_take] at hcl
    generalize chunks 64 (xs.take (xs.length / 64 * 64)) = cs at hcl hh
    have := PV.build_height (cs.map Node.leaf).length (cs.map Node.leaf) (by
      intro h; have : cs = [] := by simpa using h
      subst this; simp at hcl; omega) (Nat.le_refl _)
    rcases this with h0 | h1
    · omega
    · simp only [List.length_map] at h1 hh
      have : 32 ^ d ≤ 32 ^ ((buildTreeRecursive cs.length (cs.map Node.leaf)).2 - 1) :=
        Nat.pow_le_pow_right (by omega) (by omega)
      omega

theorem fromElements_paid (xs : List α) (d : Nat) (h : xs.length ≤ 64 * 32 ^ d) :
    (fromElements xs).Paid (1984 * (d + 1) + 64) := by
  obtain ⟨h1, h2⟩ := fromElements_levels xs d h
  have h3 := pot_le (fromElements xs).root
  have h4 : (fromElements xs).head.length + (fromElements xs).tail.length ≤ 64 := by
    have := fromElements_within (B := fun _ => True) ⟨fun _ _ => trivial, fun _ _ _ _ => trivial⟩ xs
    have h5 : (fromElements xs).head = [] := by
      simp only [fromElements]
      split
      · rfl
      · simp only [buildTreeWithTail]; split <;> rfl
    have := this.2.2
    rw [h5]; simpa using this
  unfold Paid
  rw [h2] at h3
  omega

end Tree

namespace PV
open Node Tree

/-- The tree is paid for; an inline vector has paid for its leaf. -/
def Paid (p : Nat) (v : PV α) : Prop :=
  match v.inner with
  | .inline es => es.length ≤ 64 ∧ 1984 ≤ p
  | .tree t => t.Paid p

variable {p q : Nat}

theorem small_paid {es : List α} (h : es.length ≤ 64) : (Tree.fromElements es).Paid 1984 := by
  simp [Tree.fromElements, h, Tree.Paid]

theorem Paid.inline {v : PV α} {es : List α} (h : v.Paid p) (e : v.inner = .inline es) :
    es.length ≤ 64 ∧ 1984 ≤ p := by
  unfold Paid at h; rw [e] at h; exact h

theorem Paid.tree {v : PV α} {t : Tree α} (h : v.Paid p) (e : v.inner = .tree t) : t.Paid p := by
  unfold Paid at h; rw [e] at h; exact h

theorem Paid.mono {v : PV α} (h : v.Paid p) (hpq : p ≤ q) : v.Paid q := by
  unfold Paid at *
  split at h
  · exact ⟨h.1, by omega⟩
  · exact Tree.Paid.mono h hpq

theorem Paid.pos {v : PV α} (h : v.Paid p) : 1984 ≤ p := by
  unfold Paid at h
  split at h
  · exact h.2
  · rename_i t _
    have := pot_pos t.root
    unfold Tree.Paid at h; omega

theorem paid_fromIter (xs : List α) (d : Nat) (h : xs.length ≤ 64 * 32 ^ d) :
    (fromIter xs).Paid (1984 * (d + 1) + 64) := by
  simp only [fromIter, ADAPTIVE_INLINE_SIZE]
  by_cases hl : xs.length ≤ 64
  · simp only [hl, if_true, Paid]; exact ⟨trivial, by omega⟩
  · simp only [hl, if_false, Paid]; exact fromElements_paid xs d h

theorem Paid.pushBack {v : PV α} (h : v.Paid p) (x : α) : (v.pushBack x).Paid (p + 1) := by
  unfold PV.pushBack
  split
  · rename_i es he
    have h1 := h.inline he
    simp only [ADAPTIVE_INLINE_SIZE]
    split
    · simp only [Paid, List.length_append, List.length_singleton]; omega
    · simp only [transitionToTree, he, treePushBack, Paid]
      exact Tree.Paid.mono (pushBack_paid (small_paid h1.1) x) (by omega)
  · rename_i t he
    simp only [treePushBack, he, Paid]
    exact pushBack_paid (h.tree he) x

theorem Paid.pushFront {v : PV α} (h : v.Paid p) (x : α) : (v.pushFront x).Paid (p + 1) := by
  unfold PV.pushFront
  split
  · rename_i es he
    have h1 := h.inline he
    simp only [ADAPTIVE_INLINE_SIZE]
    split
    · simp only [Paid, List.length_cons]; omega
    · simp only [transitionToTree, he, treePushFront, Paid]
      exact Tree.Paid.mono (pushFront_paid (small_paid h1.1) x) (by omega)
  · rename_i t he
    simp only [treePushFront, he, Paid]
    exact pushFront_paid (h.tree he) x

theorem Paid.extend {v : PV α} (h : v.Paid p) (xs : List α) : (v.extend xs).Paid (p + xs.length) := by
  unfold PV.extend
  induction xs generalizing v p with
  | nil => exact h
  | cons x xs ih =>
    have := ih (h.pushBack x)
    rw [List.length_cons, show p + (xs.length + 1) = p + 1 + xs.length by omega]
    exact this

theorem Paid.update {v : PV α} (h : v.Paid p) (i : Nat) (x : α) : (v.update i x).Paid p := by
  unfold PV.update
  split
  · exact h
  · split
    · rename_i es he
      have := h.inline he
      simpa [Paid] using this
    · rename_i t he
      simp only [Paid]
      exact update_paid (h.tree he) i x

theorem Paid.concat {a b : PV α} (ha : a.Paid p) (hb : b.Paid q) : (a.concat b).Paid (p + q + 3 * 1984) := by
  have hp := ha.pos
  have hq := hb.pos
  unfold PV.concat
  split
  · rename_i es fs e1 e2
    have h1 := ha.inline e1
    have h2 := hb.inline e2
    refine (paid_fromIter (es ++ fs) 1 ?_).mono (by omega)
    simp only [List.length_append]; omega
  · rename_i es t e1 e2
    simp only [Paid]
    exact Tree.Paid.mono (concat_paid (small_paid (ha.inline e1).1) (hb.tree e2)) (by omega)
  · rename_i t es e1 e2
    simp only [Paid]
    exact Tree.Paid.mono (concat_paid (ha.tree e1) (small_paid (hb.inline e2).1)) (by omega)
  · rename_i t u e1 e2
    simp only [Paid]
    exact concat_paid (ha.tree e1) (hb.tree e2)

theorem Paid.popBack {v w : PV α} {x : α} (h : v.Paid p) (hp : v.popBack = some (w, x)) : w.Paid p := by
  unfold PV.popBack at hp
  split at hp
  · cases hp
  · split at hp
    · rename_i es he
      have h1 := h.inline he
      split at hp
      · simp only [Option.some.injEq, Prod.mk.injEq] at hp
        obtain ⟨rfl, _⟩ := hp
        simp only [Paid, List.length_dropLast]; omega
      · cases hp
    · rename_i t he
      simp only [Option.map_eq_some_iff, Prod.mk.injEq] at hp
      obtain ⟨⟨t', y⟩, e, rfl, _⟩ := hp
      exact popBack_paid (h.tree he) e

theorem Paid.popFront {v w : PV α} {x : α} (h : v.Paid p) (hp : v.popFront = some (w, x)) : w.Paid p := by
  unfold PV.popFront at hp
  split at hp
  · cases hp
  · split at hp
    · rename_i es he
      have h1 := h.inline he
      split at hp
      · simp only [Option.some.injEq, Prod.mk.injEq] at hp
        obtain ⟨rfl, _⟩ := hp
        simp only [List.length_cons] at h1
        simp only [Paid]; omega
      · cases hp
    · rename_i t he
      simp only [Option.map_eq_some_iff, Prod.mk.injEq] at hp
      obtain ⟨⟨t', y⟩, e, rfl, _⟩ := hp
      exact popFront_paid (h.tree he) e

theorem paid_new : (new : PV α).Paid 1984 := by simp [Paid, new]

theorem Paid.splitAt {v : PV α} (h : v.Paid p) (i : Nat) : (v.splitAt i).1.Paid p ∧ (v.splitAt i).2.Paid p := by
  have hn : (new : PV α).Paid p := paid_new.mono h.pos
  unfold PV.splitAt
  split
  · exact ⟨h, hn⟩
  · split
    · exact ⟨hn, h⟩
    · split
      · rename_i es he
        have := h.inline he
        simp only [Paid, List.length_take, List.length_drop]; omega
      · rename_i t he
        exact splitAt_paid (h.tree he) i

theorem Paid.take {v : PV α} (h : v.Paid p) (n : Nat) : (v.take n).Paid p := by
  unfold PV.take; split
  · exact h
  · exact (h.splitAt n).1

theorem Paid.skip {v : PV α} (h : v.Paid p) (n : Nat) : (v.skip n).Paid p := by
  unfold PV.skip; split
  · exact paid_new.mono h.pos
  · exact (h.splitAt n).2

/-- What the calls that made a vector cost, in 1984ths of a level: a push costs 1, so 1984 pushes (31 leaves) cost a
level; an empty vector has one level; a collected vector has the levels of a balanced tree and one more; `concat`
costs three levels on top of its operands; `insert` and `remove` use their vector twice; nothing else costs. -/
inductive Costs : Nat → PV α → Prop where
  | new : Costs 1984 PV.new
  | unit (x : α) : Costs 1984 (PV.unit x)
  | fromIter (xs : List α) (d : Nat) : xs.length ≤ 64 * 32 ^ d → Costs (1984 * (d + 1) + 64) (PV.fromIter xs)
  | pushBack {p : Nat} {v : PV α} (x : α) : Costs p v → Costs (p + 1) (v.pushBack x)
  | pushFront {p : Nat} {v : PV α} (x : α) : Costs p v → Costs (p + 1) (v.pushFront x)
  | extend {p : Nat} {v : PV α} (xs : List α) : Costs p v → Costs (p + xs.length) (v.extend xs)
  | update {p : Nat} {v : PV α} (i : Nat) (x : α) : Costs p v → Costs p (v.update i x)
  | concat {p q : Nat} {v w : PV α} : Costs p v → Costs q w → Costs (p + q + 3 * 1984) (v.concat w)
  | popBack {p : Nat} {v w : PV α} {x : α} : Costs p v → v.popBack = some (w, x) → Costs p w
  | popFront {p : Nat} {v w : PV α} {x : α} : Costs p v → v.popFront = some (w, x) → Costs p w
  | splitLeft {p : Nat} {v : PV α} (i : Nat) : Costs p v → Costs p (v.splitAt i).1
  | splitRight {p : Nat} {v : PV α} (i : Nat) : Costs p v → Costs p (v.splitAt i).2
  | take {p : Nat} {v : PV α} (n : Nat) : Costs p v → Costs p (v.take n)
  | skip {p : Nat} {v : PV α} (n : Nat) : Costs p v → Costs p (v.skip n)
  | insert {p : Nat} {v : PV α} (i : Nat) (x : α) : Costs p v → Costs (2 * p + 1 + 3 * 1984) (v.insert i x)
  | remove {p : Nat} {v w : PV α} (i : Nat) : Costs p v → v.remove i = some w → Costs (2 * p + 3 * 1984) w

/-- Every reachable vector has a cost. -/
theorem Reach.costs {v : PV α} (h : Reach v) : ∃ p, Costs p v := by
  induction h with
  | new => exact ⟨_, .new⟩
  | unit x => exact ⟨_, .unit x⟩
  | fromIter xs =>
    refine ⟨_, .fromIter xs xs.length ?_⟩
    have : xs.length < 32 ^ xs.length := Nat.lt_pow_self (by omega)
    omega
  | pushBack x _ ih => obtain ⟨p, h⟩ := ih; exact ⟨_, h.pushBack x⟩
  | pushFront x _ ih => obtain ⟨p, h⟩ := ih; exact ⟨_, h.pushFront x⟩
  | extend xs _ ih => obtain ⟨p, h⟩ := ih; exact ⟨_, h.extend xs⟩
  | update i x _ ih => exact ih.imp fun _ h => h.update i x
  | concat _ _ ih1 ih2 =>
    obtain ⟨p, h1⟩ := ih1
    obtain ⟨q, h2⟩ := ih2
    exact ⟨_, h1.concat h2⟩
  | popBack _ hp ih => exact ih.imp fun _ h => h.popBack hp
  | popFront _ hp ih => exact ih.imp fun _ h => h.popFront hp
  | splitLeft i _ ih => exact ih.imp fun _ h => h.splitLeft i
  | splitRight i _ ih => exact ih.imp fun _ h => h.splitRight i
  | take n _ ih => exact ih.imp fun _ h => h.take n
  | skip n _ ih => exact ih.imp fun _ h => h.skip n
  | insert i x _ ih => obtain ⟨p, h⟩ := ih; exact ⟨_, h.insert i x⟩
  | remove i _ hp ih => obtain ⟨p, h⟩ := ih; exact ⟨_, h.remove i hp⟩

theorem Costs.paid {v : PV α} (h : Costs p v) : v.Paid p := by
  induction h with
  | new => exact paid_new
  | unit x => simp [Paid, PV.unit]
  | fromIter xs d hd => exact paid_fromIter xs d hd
  | pushBack x _ ih => exact ih.pushBack x
  | pushFront x _ ih => exact ih.pushFront x
  | extend xs _ ih => exact ih.extend xs
  | update i x _ ih => exact ih.update i x
  | concat _ _ ih1 ih2 => exact ih1.concat ih2
  | popBack _ hp ih => exact ih.popBack hp
  | popFront _ hp ih => exact ih.popFront hp
  | splitLeft i _ ih => exact (ih.splitAt i).1
  | splitRight i _ ih => exact (ih.splitAt i).2
  | take n _ ih => exact ih.take n
  | skip n _ ih => exact ih.skip n
  | insert i x _ ih =>
    unfold PV.insert
    split
    · exact (ih.pushBack x).mono (by omega)
    · split
      · exact (ih.pushFront x).mono (by omega)
      · exact (((ih.splitAt i).1.pushBack x).concat (ih.splitAt i).2).mono (by omega)
  | remove i _ hp ih =>
    unfold PV.remove at hp
    split at hp
    · cases hp
    · split at hp
      · cases hp; exact paid_new.mono (by have := ih.pos; omega)
      · simp only [Option.some.injEq] at hp
        subst hp
        exact ((ih.splitAt i).1.concat ((ih.splitAt i).2.skip 1)).mono (by omega)

/-- C59 with every call: a lookup reads at most one node more than the levels its vector's calls have paid for.
Missing from C59: a logarithmic bound, which is false (`c59_log_false`). -/
theorem c59_calls_partial {v : PV α} (h : Costs p v) (i : Nat) : v.visits i ≤ 1 + p / 1984 := by
  have hp := h.paid
  unfold visits
  cases e : v.inner with
  | inline es => simp
  | tree t =>
    have h1 := hp.tree e
    have h2 := depth_le_pot t.root
    have h3 := Node.visits_le t.root (i - t.head.length) t.height
    unfold Tree.Paid at h1
    simp only
    split
    · omega
    · omega

example : ((((fromIter (List.range 2000)).pushFront 7).pushBack 8).visits 5) ≤ 1 + (1984 * 2 + 64 + 1 + 1) / 1984 :=
  c59_calls_partial (.pushBack 8 (.pushFront 7 (.fromIter (List.range 2000) 1 (by simp)))) 5

/-- After `n` pushes at the back a lookup of any index reads at most `2 + n / 1984` nodes; reading the first element
comes within one of that (`c59_push_back_exact`). -/
theorem c59_push_back_bound_partial (xs : List α) (i : Nat) :
    (new.extend xs : PV α).visits i ≤ 2 + xs.length / 1984 := by
  have := c59_calls_partial (Costs.new.extend xs : Costs _ (new.extend xs)) i
  omega

/-- Meets the hypotheses: 10000 pushes at the front of a collected vector; at most 8 nodes are read. -/
example : ∃ p, Costs p ((List.range 10000).foldl pushFront (fromIter (List.range 2000))) ∧ 1 + p / 1984 = 8 := by
  have : ∀ (xs : List Nat) (v : PV Nat) (p : Nat), Costs p v → Costs (p + xs.length) (xs.foldl pushFront v) := by
    intro xs
    induction xs with
    | nil => intro v p h; exact h
    | cons x xs ih =>
      intro v p h
      have := ih _ _ (h.pushFront x)
      rwa [List.length_cons, show p + (xs.length + 1) = p + 1 + xs.length by omega]
  exact ⟨_, this _ _ _ (.fromIter _ 1 (by simp)), by simp⟩

end PV
end Rustica.PVec
