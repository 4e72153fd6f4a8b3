import Verif.PVec.Theorems.Gap

/-!
# C76: not even a damaged vector invents or duplicates an element

`Made ins v` records, along a history, the elements that the calls of the history put in.  The
theorem below holds for every history, including those that damage the vector.
-/

namespace Rustica.PVec

variable {α : Type}

/-- Specification: `xs`, in some order, is part of `ins`; no element occurs more often in `xs` than in
`ins`. -/
def Within (xs ins : List α) : Prop := ∃ rest, (xs ++ rest).Perm ins

namespace Within

theorem refl (xs : List α) : Within xs xs := ⟨[], by simp⟩

theorem of_perm {xs ys : List α} (h : xs.Perm ys) : Within xs ys := ⟨[], by simpa using h⟩

theorem trans {xs ys zs : List α} (h1 : Within xs ys) (h2 : Within ys zs) : Within xs zs := by
  obtain ⟨r, hr⟩ := h1
  obtain ⟨s, hs⟩ := h2
  exact ⟨r ++ s, by rw [← List.append_assoc]; exact (hr.append_right s).trans hs⟩

theorem append {xs ys is js : List α} (h1 : Within xs is) (h2 : Within ys js) :
    Within (xs ++ ys) (is ++ js) := by
  obtain ⟨r, hr⟩ := h1
  obtain ⟨s, hs⟩ := h2
  refine ⟨r ++ s, ?_⟩
  have e : (xs ++ ys ++ (r ++ s)).Perm ((xs ++ r) ++ (ys ++ s)) := by
    simp only [List.append_assoc]
    refine List.Perm.append_left _ ?_
    rw [← List.append_assoc, ← List.append_assoc r]
    exact List.perm_append_comm.append_right _
  exact e.trans (hr.append hs)

theorem cons {xs is : List α} (x : α) (h : Within xs is) : Within (x :: xs) (x :: is) :=
  append (refl [x]) h

theorem right (ys : List α) {xs is : List α} (h : Within xs is) : Within xs (is ++ ys) := by
  obtain ⟨r, hr⟩ := h
  exact ⟨r ++ ys, by rw [← List.append_assoc]; exact hr.append_right ys⟩

theorem left (ys : List α) {xs is : List α} (h : Within xs is) : Within xs (ys ++ is) :=
  (h.right ys).trans (of_perm List.perm_append_comm)

theorem of_sublist {xs ys : List α} (h : xs.Sublist ys) : Within xs ys := by
  induction h with
  | slnil => exact refl _
  | cons a _ ih => exact ih.left [a]
  | cons_cons a _ ih => exact cons a ih

theorem set (xs : List α) (i : Nat) (x : α) : Within (xs.set i x) (x :: xs) := by
  induction xs generalizing i with
  | nil => exact (of_sublist (List.nil_sublist _))
  | cons y ys ih =>
    cases i with
    | zero => exact of_sublist (by simp)
    | succ i =>
      rw [List.set_cons_succ]
      exact (cons y (ih i)).trans (of_perm (List.Perm.swap x y ys))

/-- Read as: no element occurs more often on the left. -/
theorem count [DecidableEq α] {xs is : List α} (h : Within xs is) (x : α) :
    xs.count x ≤ is.count x := by
  obtain ⟨r, hr⟩ := h
  rw [← hr.count_eq x, List.count_append]
  exact Nat.le_add_right _ _

theorem mem {xs is : List α} (h : Within xs is) {x : α} (hx : x ∈ xs) : x ∈ is := by
  obtain ⟨r, hr⟩ := h
  exact hr.mem_iff.1 (by simp [hx])

theorem length_le {xs is : List α} (h : Within xs is) : xs.length ≤ is.length := by
  obtain ⟨r, hr⟩ := h
  have := hr.length_eq
  simp at this; omega

end Within

/-! ## The elements stored in trees -/

namespace Tree
open Node

theorem flatL_sublist {cs ds : List (Node α)} (h : cs.Sublist ds) : (flatL cs).Sublist (flatL ds) := by
  induction h with
  | slnil => exact List.Sublist.refl _
  | cons a _ ih => rw [flatL_cons]; exact ih.trans (List.sublist_append_right _ _)
  | cons_cons a _ ih => rw [flatL_cons, flatL_cons]; exact List.Sublist.append (List.Sublist.refl _) ih

theorem createLeft_sub (cs : List (Node α)) (i : Nat) (l : Node α) :
    (createLeftBranch cs i l).flat.Sublist (flatL (cs.take i) ++ l.flat) := by
  have key : ∀ ds : List (Node α), (flatL ds).Sublist (flatL (cs.take i) ++ l.flat) →
      (if ds.isEmpty then leaf [] else makeRelaxed ds).flat.Sublist
        (flatL (cs.take i) ++ l.flat) := by
    intro ds h
    split
    · simp
    · rw [flat_makeRelaxed]; exact h
  simp only [createLeftBranch]
  apply key
  rw [flatL_append]
  refine List.Sublist.append (List.Sublist.refl _) ?_
  split <;> simp [flatL]

theorem createRight_sub (cs : List (Node α)) (i : Nat) (r : Node α) :
    (createRightBranch cs i r).flat.Sublist (r.flat ++ flatL (cs.drop (i + 1))) := by
  have key : ∀ ds : List (Node α), (flatL ds).Sublist (r.flat ++ flatL (cs.drop (i + 1))) →
      (if ds.isEmpty then leaf [] else makeRelaxed ds).flat.Sublist
        (r.flat ++ flatL (cs.drop (i + 1))) := by
    intro ds h
    split
    · simp
    · rw [flat_makeRelaxed]; exact h
  simp only [createRightBranch]
  apply key
  rw [flatL_append]
  refine List.Sublist.append ?_ (List.Sublist.refl _)
  split <;> simp [flatL]

theorem splitChild_sub {cs : List (Node α)} (hc : ∀ c ∈ cs, ∀ p j h,
    ((splitAlongPath c p j h).1.flat ++ (splitAlongPath c p j h).2.flat).Sublist c.flat) :
    ∀ i p j h l r, splitChild cs i p j h = some (l, r) →
      (flatL (cs.take i) ++ (l.flat ++ r.flat) ++ flatL (cs.drop (i + 1))).Sublist (flatL cs) := by
  induction cs with
  | nil => intro i p j h l r e; simp [splitChild] at e
  | cons c cs ih =>
    intro i p j h l r e
    cases i with
    | zero =>
      simp only [splitChild, Option.some.injEq] at e
      have := hc c (by simp) p j h
      rw [e] at this
      simpa [flatL] using List.Sublist.append this (List.Sublist.refl (flatL cs))
    | succ i =>
      simp only [splitChild] at e
      have := ih (fun c' h' => hc c' (by simp [h'])) i p j h l r e
      simpa [flatL] using List.Sublist.append (List.Sublist.refl c.flat) this

/-- Splitting along any path whatever: the two parts, one after the other, are a part of the
original. -/
theorem splitAlongPath_sub (n : Node α) : ∀ p j h,
    ((splitAlongPath n p j h).1.flat ++ (splitAlongPath n p j h).2.flat).Sublist n.flat := by
  induction n using Node.induct with
  | hleaf es => intro p j h; simp [splitAlongPath]
  | hbranch cs s ih =>
    intro p j h
    have hsc := splitChild_sub ih
    cases p with
    | nil =>
      simp only [splitAlongPath]
      cases e : splitChild cs 0 [] j (h - 1) with
      | none => simp
      | some lr =>
        obtain ⟨l, r⟩ := lr
        have := hsc _ _ _ _ _ _ e
        simp only [Option.getD_some, flat_branch]
        refine List.Sublist.trans ?_ this
        simp [flatL]
    | cons i p =>
      simp only [splitAlongPath]
      cases e : splitChild cs i p (calculateAdjustedIndex j i s (h - 1)) (h - 1) with
      | none => simp
      | some lr =>
        obtain ⟨l, r⟩ := lr
        have := hsc _ _ _ _ _ _ e
        simp only [flat_branch]
        refine List.Sublist.trans ?_ this
        have := List.Sublist.append (createLeft_sub cs i l) (createRight_sub cs i r)
        simpa [List.append_assoc] using this

theorem splitAt_sub (t : Tree α) (i : Nat) :
    ((t.splitAt i).1.toList ++ (t.splitAt i).2.toList).Sublist t.toList := by
  simp only [splitAt]
  split
  · simp [empty, toList]
  · split
    · simp [empty, toList]
    · split
      · simp only [fromHead, fromHeadAndTreeAndTail, toList, flat_leaf, List.append_nil]
        rw [← List.append_assoc, ← List.append_assoc, List.take_append_drop]
        exact List.Sublist.refl _
      · split
        · simp only [fromHeadAndTreeAndTail, fromTail, toList, flat_leaf, List.append_nil,
            List.nil_append, List.append_assoc, List.take_append_drop]
          exact List.Sublist.refl _
        · simp only [fromHeadAndRoot, fromRootAndTail, toList, splitTreeAt, List.nil_append,
            List.append_nil, List.append_assoc]
          refine List.Sublist.append (List.Sublist.refl _) ?_
          rw [← List.append_assoc]
          exact List.Sublist.append (splitAlongPath_sub _ _ _ _) (List.Sublist.refl _)

theorem pushTail_flat {t : Tree α} (h : t.root.Sized) :
    t.pushTailToTree.toList = t.toList ∧ t.pushTailToTree.tail = [] ∧
      t.pushTailToTree.head = t.head := by
  simp only [pushTailToTree]
  split
  · rename_i he; exact ⟨rfl, by simpa using he, rfl⟩
  · obtain ⟨_, h2⟩ := Node.pushLeaf_spec h (sized_leaf t.tail)
    exact ⟨by simp [toList, h2], rfl, rfl⟩

theorem pushHead_flat {t : Tree α} (h : t.root.Sized) :
    t.pushHeadToTree.toList = t.toList ∧ t.pushHeadToTree.head = [] ∧
      t.pushHeadToTree.tail = t.tail := by
  simp only [pushHeadToTree]
  split
  · rename_i he; exact ⟨rfl, by simpa using he, rfl⟩
  · obtain ⟨_, h2⟩ := Node.pushFrontLeaf_spec h (sized_leaf t.head)
    exact ⟨by simp [toList, h2], rfl, rfl⟩

theorem pushBack_flat {t : Tree α} (h : t.root.Sized) (x : α) :
    (t.pushBack x).toList = t.toList ++ [x] := by
  simp only [pushBack]
  split
  · simp [toList]
  · rw [← (pushTail_flat h).1]; simp [toList]

theorem pushFront_flat {t : Tree α} (h : t.root.Sized) (x : α) :
    (t.pushFront x).toList = x :: t.toList := by
  simp only [pushFront]
  split
  · simp [toList]
  · rw [← (pushHead_flat h).1]; simp [toList]

theorem update_perm_part {t : Tree α} (h : t.root.Sized) (i : Nat) (x : α) :
    Within (t.update i x).toList (x :: t.toList) := by
  have swap : ∀ as bs cs : List α, (as ++ (x :: bs) ++ cs).Perm (x :: (as ++ bs ++ cs)) := by
    intro as bs cs
    simpa using (List.perm_middle (a := x) (l₁ := as) (l₂ := bs)).append_right cs
  simp only [update]
  split
  · exact (Within.refl _).left [x]
  · split
    · simp only [toList, List.append_assoc]
      exact (Within.set t.head i x).append (Within.refl _)
    · split
      · obtain ⟨_, h2⟩ := Node.update_spec t.root h (i - t.head.length) x
        simp only [toList, h2]
        exact (((Within.refl t.head).append (Within.set t.root.flat _ x)).append
          (Within.refl t.tail)).trans (Within.of_perm (swap _ _ _))
      · split
        · simp only [toList]
          refine ((Within.refl (t.head ++ t.root.flat)).append (Within.set t.tail _ x)).trans
            (Within.of_perm ?_)
          simpa using swap (t.head ++ t.root.flat) t.tail []
        · exact (Within.refl _).left [x]

theorem concatSame_flat {a b : Tree α} (ha : a.root.Sized) (hb : b.root.Sized) :
    (a.concatSameHeight b).toList = a.toList ++ b.toList := by
  have key : ∀ l r : Tree α, l.root.Sized → r.root.Sized → l.tail = [] → r.head = [] →
      l.toList = a.toList → r.toList = b.toList → ∀ hgt n,
      (Tree.mk (concatNodes l.root r.root) r.tail l.head hgt n).toList = a.toList ++ b.toList := by
    intro l r hl hr ht hh h1 h2 hgt n
    obtain ⟨_, c2⟩ := concatNodes_spec l.root hl r.root hr
    rw [← h1, ← h2]; simp [toList, c2, ht, hh]
  have hL : ∃ l, (if !a.tail.isEmpty then a.pushTailToTree else a) = l ∧ l.root.Sized ∧
      l.tail = [] ∧ l.toList = a.toList := by
    refine ⟨_, rfl, ?_⟩
    obtain ⟨h2, h3, _⟩ := pushTail_flat ha
    split
    · exact ⟨pushTail_sized ha, h3, h2⟩
    · rename_i he
      exact ⟨ha, by simpa using he, rfl⟩
  have hR : ∃ r, (if !b.head.isEmpty then b.pushHeadToTree else b) = r ∧ r.root.Sized ∧
      r.head = [] ∧ r.toList = b.toList := by
    refine ⟨_, rfl, ?_⟩
    obtain ⟨h2, h3, _⟩ := pushHead_flat hb
    split
    · exact ⟨pushHead_sized hb, h3, h2⟩
    · rename_i he
      exact ⟨hb, by simpa using he, rfl⟩
  obtain ⟨l, el, l1, l2, l3⟩ := hL
  obtain ⟨r, er, r1, r2, r3⟩ := hR
  simp only [concatSameHeight, el, er]
  exact key l r l1 r1 l2 r2 l3 r3 _ _

theorem concat_perm_part {a b : Tree α} (ha : a.root.Sized) (hb : b.root.Sized) :
    Within (a.concat b).toList (a.toList ++ b.toList) := by
  have he : ∀ (t : Tree α) k, t.root.Sized → (elevateTree t k).root.Sized ∧
      (elevateTree t k).toList = t.toList := fun t k h => by
    obtain ⟨h1, h2⟩ := elevateRoot_spec (k - t.height) t.root h
    exact ⟨h1, by simp [toList, elevateTree, h2]⟩
  simp only [concat, concatDifferentHeight]
  split
  · exact (Within.refl _).left _
  · split
    · exact (Within.refl _).right _
    · split
      · rw [concatSame_flat ha hb]; exact Within.refl _
      · split
        · simp only [Bool.false_eq_true, if_false]
          rw [concatSame_flat (he _ _ hb).1 ha, (he _ _ hb).2]
          exact Within.of_perm List.perm_append_comm
        · simp only [if_true]
          rw [concatSame_flat ha (he _ _ hb).1, (he _ _ hb).2]
          exact Within.refl _

theorem popBack_sub {t t' : Tree α} {x : α} (h : t.root.Sized) (hp : t.popBack = some (t', x)) :
    t'.toList.Sublist t.toList ∧ x ∈ t.toList := by
  simp only [popBack] at hp
  split at hp
  · cases hp
  · split at hp
    · rename_i y hy
      simp only [Option.some.injEq, Prod.mk.injEq] at hp
      obtain ⟨rfl, rfl⟩ := hp
      refine ⟨?_, ?_⟩
      · simp only [toList]
        exact List.Sublist.append (List.Sublist.refl _) (List.dropLast_sublist _)
      · have := List.mem_of_getLast? hy
        simp [toList, this]
    · simp only [popFromTree] at hp
      split at hp
      · cases hp
      · split at hp
        · cases hp
        · split at hp
          · cases hp
          · rename_i y hy
            simp only [Option.some.injEq, Prod.mk.injEq] at hp
            obtain ⟨rfl, rfl⟩ := hp
            refine ⟨?_, ?_⟩
            · simp only [toList]
              refine List.Sublist.append (List.Sublist.append (List.Sublist.refl _) ?_)
                (List.Sublist.refl _)
              split
              · simp
              · rcases Node.popBack_spec _ h with ⟨_, n', y', e, hn, hf⟩ | ⟨_, e⟩
                · rw [e, hf]; simp
                · rw [e]; exact List.Sublist.refl _
            · rw [Node.get_eq _ h] at hy
              have := List.mem_of_getElem? hy
              simp [toList, this]

theorem popFront_perm_part {t t' : Tree α} {x : α} (h : t.root.Sized)
    (hp : t.popFront = some (t', x)) : Within (x :: t'.toList) t.toList := by
  have htail : ∀ t' x, t.popFrontFromTail = some (t', x) → Within (x :: t'.toList) t.toList := by
    intro t' x hp
    simp only [popFrontFromTail] at hp
    split at hp
    · rename_i y hy
      simp only [Option.some.injEq, Prod.mk.injEq] at hp
      obtain ⟨rfl, rfl⟩ := hp
      simp only [toList, flat_leaf, List.append_nil]
      have hne : t.tail.reverse ≠ [] := by intro e; simp [e] at hy
      rw [List.getLast?_eq_some_getLast hne] at hy
      simp only [Option.some.injEq] at hy
      refine Within.left _ (Within.of_perm ?_)
      have e := List.dropLast_concat_getLast hne
      rw [hy] at e
      have p1 : (y :: t.tail.reverse.dropLast).Perm (t.tail.reverse.dropLast ++ [y]) := by
        simpa using (List.perm_append_comm (l₁ := [y]) (l₂ := t.tail.reverse.dropLast))
      rw [e] at p1
      exact p1.trans (List.reverse_perm _)
    · cases hp
  simp only [popFront] at hp
  split at hp
  · cases hp
  · split at hp
    · rename_i y ys hh
      simp only [Option.some.injEq, Prod.mk.injEq] at hp
      obtain ⟨rfl, rfl⟩ := hp
      simp only [toList, hh, List.cons_append]
      exact Within.refl _
    · rename_i hh
      simp only [popFrontFromTree] at hp
      split at hp
      · rcases Node.popFront_spec _ h with ⟨_, n', y, e, hn, hf⟩ | ⟨_, e⟩
        · rw [e] at hp
          simp only [Option.some.injEq, Prod.mk.injEq] at hp
          obtain ⟨rfl, rfl⟩ := hp
          simp only [toList, hh, hf, List.nil_append, List.cons_append]
          exact Within.refl _
        · rw [e] at hp; exact htail _ _ hp
      · exact htail _ _ hp

end Tree

/-! ## What a vector yields is stored in it -/

/-- If `g` reads `ys` through positions `f i` that increase with `i`, then the values of `g`, in
order, are a part of `ys`. -/
theorem filterMap_range_sub (g : Nat → Option α) (f : Nat → Nat) (ys : List α)
    (hg : ∀ i x, g i = some x → ys[f i]? = some x)
    (hf : ∀ i j x y, i < j → g i = some x → g j = some y → f i < f j) : ∀ k n,
    (∀ i x, i < k → g i = some x → f i < n) →
    ((List.range k).filterMap g).Sublist (ys.take n) := by
  intro k
  induction k with
  | zero => intro n _; simp
  | succ k ih =>
    intro n hn
    rw [List.range_succ, List.filterMap_append]
    cases e : g k with
    | none =>
      simp only [List.filterMap_cons, e, List.filterMap_nil, List.append_nil]
      exact ih n fun i x hi hx => hn i x (by omega) hx
    | some x =>
      simp only [List.filterMap_cons, e, List.filterMap_nil]
      have h1 := ih (f k) fun i y hi hy => hf i k y x hi hy e
      have h2 := hn k x (by omega) e
      have h3 : ys.take (f k) ++ [x] = ys.take (f k + 1) := by
        rw [List.take_add_one, hg k x e]; rfl
      refine (List.Sublist.append h1 (List.Sublist.refl [x])).trans ?_
      rw [h3]
      exact List.take_sublist_take_left (by omega)

namespace PV

/-- Specification: what `get` finds at the positions below `k`, in order. -/
def readUpTo (v : PV α) (k : Nat) : List α := (List.range k).filterMap v.get

theorem readUpTo_sub {v : PV α} (h : v.Lax) (k : Nat) : (v.readUpTo k).Sublist v.abs := by
  have fin : ∀ f : Nat → Nat, (∀ i x, v.get i = some x → v.abs[f i]? = some x) →
      (∀ i j x y, i < j → v.get i = some x → v.get j = some y → f i < f j) →
      (v.readUpTo k).Sublist v.abs := by
    intro f h1 h2
    have := filterMap_range_sub v.get f v.abs h1 h2 k v.abs.length fun i x _ hx =>
      (List.getElem?_eq_some_iff.1 (h1 i x hx)).1
    rwa [List.take_length] at this
  unfold Lax at h
  cases hin : v.inner with
  | inline es =>
    refine fin id ?_ fun i j _ _ hij _ _ => hij
    intro i x hx
    unfold get at hx; unfold abs
    rw [hin] at hx ⊢
    split at hx
    · cases hx
    · exact hx
  | tree t =>
    rw [hin] at h
    have hget : ∀ i x, v.get i = some x → t.get i = some x := by
      intro i x hx
      unfold get at hx
      rw [hin] at hx
      split at hx
      · cases hx
      · exact hx
    have habs : v.abs = t.toList := by unfold abs; rw [hin]
    let a := t.head.length
    let b := t.treeSize
    let c := t.root.flat.length
    have zones : ∀ i x, v.get i = some x →
        (i < a ∧ t.head[i]? = some x) ∨
        (a ≤ i ∧ i - a < b ∧ i - a < c ∧ t.root.flat[i - a]? = some x) ∨
        (a ≤ i ∧ b ≤ i - a ∧ t.tail[i - a - b]? = some x) := by
      intro i x hx
      have hx := hget i x hx
      simp only [Tree.get] at hx
      split at hx
      · cases hx
      · split at hx
        · rename_i h1; exact Or.inl ⟨h1, hx⟩
        · rename_i h1
          split at hx
          · rename_i h2
            rw [Tree.getFromTree, Tree.getFromNode_eq _ h] at hx
            exact Or.inr (Or.inl ⟨Nat.le_of_not_lt h1, h2,
              (List.getElem?_eq_some_iff.1 hx).1, hx⟩)
          · rename_i h2
            exact Or.inr (Or.inr ⟨Nat.le_of_not_lt h1, Nat.le_of_not_lt h2, hx⟩)
    refine fin (fun i => if i < a then i else if i - a < b then i else a + c + (i - a - b)) ?_ ?_
    · intro i x hx
      rw [habs]
      simp only [Tree.toList]
      rcases zones i x hx with ⟨h1, e⟩ | ⟨h1, h2, h3, e⟩ | ⟨h1, h2, e⟩
      · simp only [h1, if_true]
        rw [List.append_assoc, List.getElem?_append_left h1, e]
      · have h1' : ¬ i < a := by omega
        simp only [h1', h2, if_false, if_true]
        rw [List.append_assoc, List.getElem?_append_right h1, List.getElem?_append_left h3, e]
      · have h1' : ¬ i < a := by omega
        have h2' : ¬ i - a < b := by omega
        simp only [h1', h2', if_false]
        rw [List.getElem?_append_right (by simp [a, c])]
        rw [show a + c + (i - a - b) - (t.head ++ t.root.flat).length = i - a - b by
          simp [a, c], e]
    · intro i j x y hij hx hy
      rcases zones i x hx with ⟨h1, e⟩ | ⟨h1, h2, h3, e⟩ | ⟨h1, h2, e⟩ <;>
      rcases zones j y hy with ⟨k1, e'⟩ | ⟨k1, k2, k3, e'⟩ | ⟨k1, k2, e'⟩ <;>
      · show (if i < a then i else if i - a < b then i else a + c + (i - a - b)) <
          (if j < a then j else if j - a < b then j else a + c + (j - a - b))
        clear zones fin hget habs hx hy e e'
        repeat' split
        all_goals omega

theorem collect_sub (v : PV α) : ∀ fuel p,
    (Iter.collect fuel ⟨v, p⟩).Sublist ((List.range' p fuel).filterMap v.get) := by
  intro fuel
  induction fuel with
  | zero => intro p; simp [Iter.collect]
  | succ fuel ih =>
    intro p
    simp only [Iter.collect, Iter.next, List.range'_succ, List.filterMap_cons]
    by_cases hp : p < v.len
    · simp only [hp, if_true]
      cases e : v.get p with
      | none => simp
      | some x => exact List.Sublist.cons_cons _ (ih (p + 1))
    · simp [hp]

/-- Iteration yields nothing that `get` does not find. -/
theorem toVec_sub (v : PV α) : v.toVec.Sublist (v.readUpTo (v.len + 1)) := by
  have := collect_sub v (v.len + 1) 0
  rw [← List.range_eq_range'] at this
  exact this

/-! ## The operations -/

theorem pushBack_abs {v : PV α} (h : v.Lax) (x : α) : (v.pushBack x).abs = v.abs ++ [x] := by
  unfold Lax at h
  unfold pushBack abs
  cases hin : v.inner with
  | inline es =>
    by_cases hc : es.length < ADAPTIVE_INLINE_SIZE
    · simp only [hc, if_true]
    · simp only [hc, if_false, transitionToTree, hin, treePushBack]
      obtain ⟨h1, h2, _⟩ := Tree.fromElements_spec es
      rw [Tree.pushBack_flat h1.sized, h2]
  | tree t =>
    rw [hin] at h
    simp only [treePushBack, hin]
    exact Tree.pushBack_flat h x

theorem pushFront_abs {v : PV α} (h : v.Lax) (x : α) : (v.pushFront x).abs = x :: v.abs := by
  unfold Lax at h
  unfold pushFront abs
  cases hin : v.inner with
  | inline es =>
    by_cases hc : es.length < ADAPTIVE_INLINE_SIZE
    · simp only [hc, if_true]
    · simp only [hc, if_false, transitionToTree, hin, treePushFront]
      obtain ⟨h1, h2, _⟩ := Tree.fromElements_spec es
      rw [Tree.pushFront_flat h1.sized, h2]
  | tree t =>
    rw [hin] at h
    simp only [treePushFront, hin]
    exact Tree.pushFront_flat h x

theorem extend_abs {v : PV α} (h : v.Lax) (xs : List α) : (v.extend xs).abs = v.abs ++ xs := by
  unfold extend
  induction xs generalizing v with
  | nil => simp
  | cons x xs ih => rw [List.foldl_cons, ih (h.pushBack x), pushBack_abs h]; simp

theorem update_abs {v : PV α} (h : v.Lax) (i : Nat) (x : α) :
    Within (v.update i x).abs (x :: v.abs) := by
  unfold Lax at h
  unfold update
  split
  · exact (Within.refl _).left [x]
  · unfold abs
    cases hin : v.inner with
    | inline es => exact Within.set es i x
    | tree t => rw [hin] at h; exact Tree.update_perm_part h i x

theorem concat_abs {v w : PV α} (hv : v.Lax) (hw : w.Lax) :
    Within (v.concat w).abs (v.abs ++ w.abs) := by
  unfold Lax at hv hw
  cases e1 : v.inner with
  | inline es =>
    obtain ⟨f1, f2, _⟩ := Tree.fromElements_spec es
    cases e2 : w.inner with
    | inline fs =>
      have : (v.concat w) = fromIter (es ++ fs) := by unfold concat; rw [e1, e2]
      rw [this, (fromIter_spec _).2.1]
      simp only [abs, e1, e2]; exact Within.refl _
    | tree u =>
      rw [e2] at hw
      simp only [concat, abs, e1, e2]
      have := Tree.concat_perm_part f1.sized hw
      rwa [f2] at this
  | tree t =>
    rw [e1] at hv
    cases e2 : w.inner with
    | inline fs =>
      obtain ⟨f1, f2, _⟩ := Tree.fromElements_spec fs
      simp only [concat, abs, e1, e2]
      have := Tree.concat_perm_part hv f1.sized
      rwa [f2] at this
    | tree u =>
      rw [e2] at hw
      simp only [concat, abs, e1, e2]
      exact Tree.concat_perm_part hv hw

theorem popBack_abs {v w : PV α} {x : α} (h : v.Lax) (hp : v.popBack = some (w, x)) :
    w.abs.Sublist v.abs ∧ x ∈ v.abs := by
  unfold Lax at h
  unfold popBack at hp
  split at hp
  · cases hp
  · unfold abs
    cases hin : v.inner with
    | inline es =>
      rw [hin] at hp
      simp only at hp
      split at hp
      · rename_i y hy
        simp only [Option.some.injEq, Prod.mk.injEq] at hp
        obtain ⟨rfl, rfl⟩ := hp
        exact ⟨List.dropLast_sublist _, List.mem_of_getLast? hy⟩
      · cases hp
    | tree t =>
      rw [hin] at h hp
      simp only [Option.map_eq_some_iff, Prod.mk.injEq] at hp
      obtain ⟨⟨t', y⟩, e, rfl, rfl⟩ := hp
      exact Tree.popBack_sub h e

theorem popFront_abs {v w : PV α} {x : α} (h : v.Lax) (hp : v.popFront = some (w, x)) :
    Within (x :: w.abs) v.abs := by
  unfold Lax at h
  unfold popFront at hp
  split at hp
  · cases hp
  · unfold abs
    cases hin : v.inner with
    | inline es =>
      rw [hin] at hp
      simp only at hp
      split at hp
      · simp only [Option.some.injEq, Prod.mk.injEq] at hp
        obtain ⟨rfl, rfl⟩ := hp
        exact Within.refl _
      · cases hp
    | tree t =>
      rw [hin] at h hp
      simp only [Option.map_eq_some_iff, Prod.mk.injEq] at hp
      obtain ⟨⟨t', y⟩, e, rfl, rfl⟩ := hp
      exact Tree.popFront_perm_part h e

theorem splitAt_abs (v : PV α) (i : Nat) :
    ((v.splitAt i).1.abs ++ (v.splitAt i).2.abs).Sublist v.abs := by
  unfold splitAt
  split
  · simp
  · split
    · simp
    · cases hin : v.inner with
      | inline es => simp [abs, hin]
      | tree t =>
        simp only [abs, hin]
        exact Tree.splitAt_sub t i

theorem take_abs (v : PV α) (n : Nat) : (v.take n).abs.Sublist v.abs := by
  unfold take; split
  · exact List.Sublist.refl _
  · exact (List.sublist_append_left _ _).trans (splitAt_abs v n)

theorem skip_abs (v : PV α) (n : Nat) : (v.skip n).abs.Sublist v.abs := by
  unfold skip; split
  · simp
  · exact (List.sublist_append_right _ _).trans (splitAt_abs v n)

theorem insert_abs {v : PV α} (h : v.Lax) (i : Nat) (x : α) :
    Within (v.insert i x).abs (x :: v.abs) := by
  unfold insert
  split
  · rw [pushBack_abs h]
    exact Within.of_perm (by simpa using (List.perm_append_comm (l₁ := v.abs) (l₂ := [x])))
  · split
    · rw [pushFront_abs h]; exact Within.refl _
    · obtain ⟨l1, l2⟩ := h.splitAt i
      refine (concat_abs (l1.pushBack x) l2).trans ?_
      rw [pushBack_abs l1]
      refine Within.trans (Within.of_perm ?_)
        (Within.cons x (Within.of_sublist (splitAt_abs v i)))
      simpa using (List.perm_middle (a := x) (l₁ := (v.splitAt i).1.abs)
        (l₂ := (v.splitAt i).2.abs))

theorem remove_abs {v w : PV α} (h : v.Lax) {i : Nat} (hp : v.remove i = some w) :
    Within w.abs v.abs := by
  unfold remove at hp
  split at hp
  · cases hp
  · split at hp
    · cases hp; exact Within.of_sublist (by simp)
    · simp only [Option.some.injEq] at hp
      subst hp
      obtain ⟨l1, l2⟩ := h.splitAt i
      refine (concat_abs l1 (l2.skip 1)).trans (Within.of_sublist ?_)
      exact (List.Sublist.append (List.Sublist.refl _) (skip_abs _ 1)).trans (splitAt_abs v i)

end PV

/-! ## Histories -/

/-- All histories of API calls, with the elements that the calls put in.  Nothing is excluded. -/
inductive Made {α : Type} : List α → PV α → Prop where
  | new : Made [] PV.new
  | unit (x : α) : Made [x] (PV.unit x)
  | fromIter (xs : List α) : Made xs (PV.fromIter xs)
  | pushBack {is : List α} {v : PV α} (x : α) : Made is v → Made (is ++ [x]) (v.pushBack x)
  | pushFront {is : List α} {v : PV α} (x : α) : Made is v → Made (is ++ [x]) (v.pushFront x)
  | extend {is : List α} {v : PV α} (xs : List α) : Made is v → Made (is ++ xs) (v.extend xs)
  | update {is : List α} {v : PV α} (i : Nat) (x : α) : Made is v → Made (is ++ [x]) (v.update i x)
  | concat {is js : List α} {v w : PV α} : Made is v → Made js w → Made (is ++ js) (v.concat w)
  | popBack {is : List α} {v w : PV α} {x : α} : Made is v → v.popBack = some (w, x) → Made is w
  | popFront {is : List α} {v w : PV α} {x : α} : Made is v → v.popFront = some (w, x) → Made is w
  | splitLeft {is : List α} {v : PV α} (i : Nat) : Made is v → Made is (v.splitAt i).1
  | splitRight {is : List α} {v : PV α} (i : Nat) : Made is v → Made is (v.splitAt i).2
  | take {is : List α} {v : PV α} (n : Nat) : Made is v → Made is (v.take n)
  | skip {is : List α} {v : PV α} (n : Nat) : Made is v → Made is (v.skip n)
  | insert {is : List α} {v : PV α} (i : Nat) (x : α) : Made is v → Made (is ++ [x]) (v.insert i x)
  | remove {is : List α} {v w : PV α} (i : Nat) : Made is v → v.remove i = some w → Made is w

namespace Made

theorem reach {is : List α} {v : PV α} (h : Made is v) : Reach v := by
  induction h with
  | new => exact .new
  | unit x => exact .unit x
  | fromIter xs => exact .fromIter xs
  | pushBack x _ ih => exact .pushBack x ih
  | pushFront x _ ih => exact .pushFront x ih
  | extend xs _ ih => exact .extend xs ih
  | update i x _ ih => exact .update i x ih
  | concat _ _ ih1 ih2 => exact .concat ih1 ih2
  | popBack _ hp ih => exact .popBack ih hp
  | popFront _ hp ih => exact .popFront ih hp
  | splitLeft i _ ih => exact .splitLeft i ih
  | splitRight i _ ih => exact .splitRight i ih
  | take n _ ih => exact .take n ih
  | skip n _ ih => exact .skip n ih
  | insert i x _ ih => exact .insert i x ih
  | remove i _ hp ih => exact .remove i ih hp

/-- Every reachable vector has such a history. -/
theorem of_reach {v : PV α} (h : Reach v) : ∃ is, Made is v := by
  induction h with
  | new => exact ⟨_, .new⟩
  | unit x => exact ⟨_, .unit x⟩
  | fromIter xs => exact ⟨_, .fromIter xs⟩
  | pushBack x _ ih => exact ih.elim fun _ h => ⟨_, .pushBack x h⟩
  | pushFront x _ ih => exact ih.elim fun _ h => ⟨_, .pushFront x h⟩
  | extend xs _ ih => exact ih.elim fun _ h => ⟨_, .extend xs h⟩
  | update i x _ ih => exact ih.elim fun _ h => ⟨_, .update i x h⟩
  | concat _ _ ih1 ih2 => exact ih1.elim fun _ h1 => ih2.elim fun _ h2 => ⟨_, .concat h1 h2⟩
  | popBack _ hp ih => exact ih.elim fun _ h => ⟨_, .popBack h hp⟩
  | popFront _ hp ih => exact ih.elim fun _ h => ⟨_, .popFront h hp⟩
  | splitLeft i _ ih => exact ih.elim fun _ h => ⟨_, .splitLeft i h⟩
  | splitRight i _ ih => exact ih.elim fun _ h => ⟨_, .splitRight i h⟩
  | take n _ ih => exact ih.elim fun _ h => ⟨_, .take n h⟩
  | skip n _ ih => exact ih.elim fun _ h => ⟨_, .skip n h⟩
  | insert i x _ ih => exact ih.elim fun _ h => ⟨_, .insert i x h⟩
  | remove i _ hp ih => exact ih.elim fun _ h => ⟨_, .remove i h hp⟩

theorem stored {is : List α} {v : PV α} (h : Made is v) : Within v.abs is := by
  have back : ∀ {is : List α} (x : α), Within (x :: is) (is ++ [x]) := fun x =>
    Within.of_perm (by simpa using (List.perm_append_comm (l₁ := [x])))
  induction h with
  | new => exact Within.of_sublist (by simp)
  | unit x => exact Within.refl _
  | fromIter xs => rw [(PV.fromIter_spec xs).2.1]; exact Within.refl _
  | pushBack x h ih => rw [PV.pushBack_abs h.reach.lax]; exact ih.append (Within.refl _)
  | pushFront x h ih => rw [PV.pushFront_abs h.reach.lax]; exact (Within.cons x ih).trans (back x)
  | extend xs h ih => rw [PV.extend_abs h.reach.lax]; exact ih.append (Within.refl _)
  | update i x h ih => exact ((PV.update_abs h.reach.lax i x).trans (Within.cons x ih)).trans (back x)
  | concat h1 h2 ih1 ih2 => exact (PV.concat_abs h1.reach.lax h2.reach.lax).trans (ih1.append ih2)
  | popBack h hp ih => exact (Within.of_sublist (PV.popBack_abs h.reach.lax hp).1).trans ih
  | popFront h hp ih =>
    exact ((Within.of_sublist (List.sublist_cons_self _ _)).trans
      (PV.popFront_abs h.reach.lax hp)).trans ih
  | splitLeft i h ih =>
    exact (Within.of_sublist ((List.sublist_append_left _ _).trans (PV.splitAt_abs _ i))).trans ih
  | splitRight i h ih =>
    exact (Within.of_sublist ((List.sublist_append_right _ _).trans (PV.splitAt_abs _ i))).trans ih
  | take n h ih => exact (Within.of_sublist (PV.take_abs _ n)).trans ih
  | skip n h ih => exact (Within.of_sublist (PV.skip_abs _ n)).trans ih
  | insert i x h ih => exact ((PV.insert_abs h.reach.lax i x).trans (Within.cons x ih)).trans (back x)
  | remove i h hp ih => exact (PV.remove_abs h.reach.lax hp).trans ih

/-- C76, random access: whatever the history, what `get` finds at all positions together was put in by
the calls, and no element is found more often than it was put in. -/
theorem c76_reads {is : List α} {v : PV α} (h : Made is v) (k : Nat) : Within (v.readUpTo k) is :=
  (Within.of_sublist (PV.readUpTo_sub h.reach.lax k)).trans h.stored

/-- A damaged vector: read at all 70 positions it claims to have. -/
example : Within (PV.cut.readUpTo 70) (List.range 65 ++ List.range 65) :=
  c76_reads (.splitLeft 70 (.concat (.fromIter _) (.fromIter _))) 70

/-- C76, iteration. -/
theorem c76_to_vec {is : List α} {v : PV α} (h : Made is v) : Within v.toVec is :=
  (Within.of_sublist (PV.toVec_sub v)).trans (h.c76_reads _)

example : Within PV.cut.toVec (List.range 65 ++ List.range 65) :=
  c76_to_vec (.splitLeft 70 (.concat (.fromIter _) (.fromIter _)))

/-- C76, `split_at`: the two parts together. -/
theorem c76_split {is : List α} {v : PV α} (h : Made is v) (i : Nat) :
    Within ((v.splitAt i).1.toVec ++ (v.splitAt i).2.toVec) is := by
  obtain ⟨l1, l2⟩ := h.reach.lax.splitAt i
  have sub : ∀ {w : PV α}, w.Lax → w.toVec.Sublist w.abs := fun hw =>
    (PV.toVec_sub _).trans (PV.readUpTo_sub hw _)
  exact (Within.of_sublist ((List.Sublist.append (sub l1) (sub l2)).trans
    (PV.splitAt_abs v i))).trans h.stored

example : Within ((PV.cut.splitAt 30).1.toVec ++ (PV.cut.splitAt 30).2.toVec) (List.range 65 ++ List.range 65) :=
  c76_split (.splitLeft 70 (.concat (.fromIter _) (.fromIter _))) 30

/-- C76, `pop_front`: the element returned together with those left. -/
theorem c76_pop_front {is : List α} {v w : PV α} {x : α} (h : Made is v)
    (hp : v.popFront = some (w, x)) : Within (x :: w.toVec) is := by
  have hl := h.reach.lax
  have hw := hl.popFront hp
  exact ((Within.cons x (Within.of_sublist ((PV.toVec_sub w).trans
    (PV.readUpTo_sub hw _)))).trans (PV.popFront_abs hl hp)).trans h.stored

example (w : PV Nat) (x : Nat) (h : PV.cut.popFront = some (w, x)) :
    Within (x :: w.toVec) (List.range 65 ++ List.range 65) :=
  c76_pop_front (.splitLeft 70 (.concat (.fromIter _) (.fromIter _))) h

/-- C76, `pop_back`: the element returned had been put in (it may stay, see
`c76_pop_back_false`). -/
theorem c76_pop_back_partial {is : List α} {v w : PV α} {x : α} (h : Made is v)
    (hp : v.popBack = some (w, x)) : x ∈ is :=
  h.stored.mem (PV.popBack_abs h.reach.lax hp).2

example : ∃ w x, PV.cut.popBack = some (w, x) ∧ x ∈ List.range 65 ++ List.range 65 :=
  match h : PV.cut.popBack with
  | some (w, x) => ⟨w, x, rfl, c76_pop_back_partial (.splitLeft 70 (.concat (.fromIter _) (.fromIter _))) h⟩
  | none => absurd h (by decide +kernel)

end Made

/-! ## A popped element can come back -/

/-- 20 elements left over from a split, 65 pushed at the front, one popped there, 20 at the back:
a vector of 64 elements whose last leaf is empty. -/
def PV.hollow : PV Nat :=
  PV.times 20 PV.dropBack (PV.dropFront
    ((List.range 65).foldl (fun v i => v.pushFront (1000 + i))
      ((PV.fromIter (List.range 100)).splitAt 80).2))

/-- What was put in to make it: every element once. -/
def PV.hollowIns : List Nat := List.range 100 ++ (List.range 65).map (1000 + ·)

theorem made_dropBack {is : List α} {v : PV α} (h : Made is v) : Made is v.dropBack := by
  unfold PV.dropBack
  cases e : v.popBack with
  | none => exact h
  | some p => exact .popBack h e

theorem made_dropFront {is : List α} {v : PV α} (h : Made is v) : Made is v.dropFront := by
  unfold PV.dropFront
  cases e : v.popFront with
  | none => exact h
  | some p => exact .popFront h e

theorem made_times {is : List α} {f : PV α → PV α} (hf : ∀ v, Made is v → Made is (f v)) :
    ∀ n v, Made is v → Made is (PV.times n f v) := by
  intro n
  induction n with
  | zero => intro v h; exact h
  | succ n ih => intro v h; exact ih _ (hf v h)

theorem hollow_made : Made PV.hollowIns PV.hollow := by
  refine made_times (fun _ => made_dropBack) _ _ (made_dropFront ?_)
  have key : ∀ (js : List Nat) is (v : PV Nat), Made is v →
      Made (is ++ js.map (1000 + ·)) (js.foldl (fun v i => v.pushFront (1000 + i)) v) := by
    intro js
    induction js with
    | nil => intro is v h; simpa using h
    | cons j js ih =>
      intro is v h
      have := ih _ _ (.pushFront (1000 + j) h)
      simpa using this
  exact key _ _ _ (.splitRight 80 (.fromIter _))

/-- C76 fails for `pop_back`: the element it returns can stay in the tree, out of sight, and be found
again after more elements are pushed.  Here each element is put in once, 1000 is popped, and after
70 other elements are added, 1000 is back. -/
theorem c76_pop_back_false : ¬ ∀ (is : List Nat) (v w : PV Nat) (x : Nat) (ys : List Nat),
    Made is v → v.popBack = some (w, x) → Within (x :: (w.extend ys).toVec) (is ++ ys) := by
  intro h
  obtain ⟨w, hp, hc⟩ : ∃ w, PV.hollow.popBack = some (w, 1000) ∧
      (w.extend (List.range 70)).toVec.count 1000 = 1 := by
    have h1 : PV.hollow.popBack.map (·.2) = some 1000 := by decide +kernel
    have h2 : PV.hollow.popBack.map (fun p => (p.1.extend (List.range 70)).toVec.count 1000) =
        some 1 := by decide +kernel
    cases e : PV.hollow.popBack with
    | none => rw [e] at h1; cases h1
    | some p =>
      obtain ⟨w, x⟩ := p
      rw [e] at h1 h2
      simp only [Option.map_some, Option.some.injEq] at h1 h2
      exact ⟨w, by rw [← h1], h2⟩
  have := (h _ _ _ _ (List.range 70) hollow_made hp).count 1000
  rw [List.count_cons_self, hc] at this
  revert this
  decide +kernel

/-! ## Keeping accounts of what was put in and taken out -/

/-- All histories of API calls in which `pop_back` is only called on readable vectors and not at a
stale end, with the elements put in and the elements that the pops returned. -/
inductive Ledger {α : Type} : (ins outs : List α) → PV α → Prop where
  | new : Ledger [] [] PV.new
  | unit (x : α) : Ledger [x] [] (PV.unit x)
  | fromIter (xs : List α) : Ledger xs [] (PV.fromIter xs)
  | pushBack {is os : List α} {v : PV α} (x : α) : Ledger is os v →
      Ledger (is ++ [x]) os (v.pushBack x)
  | pushFront {is os : List α} {v : PV α} (x : α) : Ledger is os v →
      Ledger (is ++ [x]) os (v.pushFront x)
  | extend {is os : List α} {v : PV α} (xs : List α) : Ledger is os v →
      Ledger (is ++ xs) os (v.extend xs)
  | update {is os : List α} {v : PV α} (i : Nat) (x : α) : Ledger is os v →
      Ledger (is ++ [x]) os (v.update i x)
  | concat {is os js ps : List α} {v w : PV α} : Ledger is os v → Ledger js ps w →
      Ledger (is ++ js) (os ++ ps) (v.concat w)
  | popBack {is os : List α} {v w : PV α} {x : α} : Ledger is os v → v.Readable → ¬ v.StaleEnd →
      v.popBack = some (w, x) → Ledger is (os ++ [x]) w
  | popFront {is os : List α} {v w : PV α} {x : α} : Ledger is os v → v.popFront = some (w, x) →
      Ledger is (os ++ [x]) w
  | splitLeft {is os : List α} {v : PV α} (i : Nat) : Ledger is os v → Ledger is os (v.splitAt i).1
  | splitRight {is os : List α} {v : PV α} (i : Nat) : Ledger is os v → Ledger is os (v.splitAt i).2
  | take {is os : List α} {v : PV α} (n : Nat) : Ledger is os v → Ledger is os (v.take n)
  | skip {is os : List α} {v : PV α} (n : Nat) : Ledger is os v → Ledger is os (v.skip n)
  | insert {is os : List α} {v : PV α} (i : Nat) (x : α) : Ledger is os v →
      Ledger (is ++ [x]) os (v.insert i x)
  | remove {is os : List α} {v w : PV α} (i : Nat) : Ledger is os v → v.remove i = some w →
      Ledger is os w

namespace Ledger

theorem made {is os : List α} {v : PV α} (h : Ledger is os v) : Made is v := by
  induction h with
  | new => exact .new
  | unit x => exact .unit x
  | fromIter xs => exact .fromIter xs
  | pushBack x _ ih => exact .pushBack x ih
  | pushFront x _ ih => exact .pushFront x ih
  | extend xs _ ih => exact .extend xs ih
  | update i x _ ih => exact .update i x ih
  | concat _ _ ih1 ih2 => exact .concat ih1 ih2
  | popBack _ _ _ hp ih => exact .popBack ih hp
  | popFront _ hp ih => exact .popFront ih hp
  | splitLeft i _ ih => exact .splitLeft i ih
  | splitRight i _ ih => exact .splitRight i ih
  | take n _ ih => exact .take n ih
  | skip n _ ih => exact .skip n ih
  | insert i x _ ih => exact .insert i x ih
  | remove i _ hp ih => exact .remove i ih hp

theorem stored {is os : List α} {v : PV α} (h : Ledger is os v) : Within (os ++ v.abs) is := by
  -- an operation that adds `x` and otherwise keeps a part
  have add : ∀ {is os ws vs : List α} (x : α), Within ws (x :: vs) → Within (os ++ vs) is →
      Within (os ++ ws) (is ++ [x]) := by
    intro is os ws vs x h1 h2
    refine ((Within.refl os).append h1).trans ?_
    refine (Within.of_perm List.perm_middle).trans ?_
    exact (Within.cons x h2).trans
      (Within.of_perm (List.perm_append_comm (l₁ := [x]) (l₂ := is)))
  have keep : ∀ {is os ws vs : List α}, Within ws vs → Within (os ++ vs) is →
      Within (os ++ ws) is := fun h1 h2 => ((Within.refl _).append h1).trans h2
  have out : ∀ {is os ws vs : List α} (x : α), Within (x :: ws) vs → Within (os ++ vs) is →
      Within (os ++ [x] ++ ws) is := by
    intro is os ws vs x h1 h2
    rw [List.append_assoc]
    exact keep (by simpa using h1) h2
  have comm : ∀ (x : α) (vs : List α), Within (vs ++ [x]) (x :: vs) := fun x vs =>
    Within.of_perm (List.perm_append_comm (l₁ := vs) (l₂ := [x]))
  induction h with
  | new => exact Within.of_sublist (by simp)
  | unit x => exact Within.refl _
  | fromIter xs => rw [(PV.fromIter_spec xs).2.1]; exact Within.refl _
  | pushBack x h ih =>
    rw [PV.pushBack_abs h.made.reach.lax]
    exact add x (comm x _) ih
  | pushFront x h ih =>
    rw [PV.pushFront_abs h.made.reach.lax]
    exact add x (Within.refl _) ih
  | extend xs h ih =>
    rw [PV.extend_abs h.made.reach.lax, ← List.append_assoc]
    exact ih.append (Within.refl _)
  | update i x h ih => exact add x (PV.update_abs h.made.reach.lax i x) ih
  | @concat is os js ps v w h1 h2 ih1 ih2 =>
    refine keep (PV.concat_abs h1.made.reach.lax h2.made.reach.lax) (Within.trans ?_ (ih1.append ih2))
    refine Within.of_perm ?_
    simp only [List.append_assoc]
    refine List.Perm.append_left _ ?_
    rw [← List.append_assoc, ← List.append_assoc]
    exact List.perm_append_comm.append_right _
  | @popBack is os v w x h hr hs hp ih =>
    obtain ⟨_, h2, _⟩ := hr.popBack hs hp
    refine out x ?_ ih
    rw [h2]
    exact Within.of_perm (List.perm_append_comm (l₁ := [x]))
  | popFront h hp ih => exact out _ (PV.popFront_abs h.made.reach.lax hp) ih
  | splitLeft i h ih =>
    exact keep (Within.of_sublist ((List.sublist_append_left _ _).trans (PV.splitAt_abs _ i))) ih
  | splitRight i h ih =>
    exact keep (Within.of_sublist ((List.sublist_append_right _ _).trans (PV.splitAt_abs _ i))) ih
  | take n h ih => exact keep (Within.of_sublist (PV.take_abs _ n)) ih
  | skip n h ih => exact keep (Within.of_sublist (PV.skip_abs _ n)) ih
  | insert i x h ih => exact add x (PV.insert_abs h.made.reach.lax i x) ih
  | remove i h hp ih => exact keep (PV.remove_abs h.made.reach.lax hp) ih

/-- C76 in full, where no `pop_back` meets a vector with wrong lengths or a stale end: everything
that the pops of a history returned, together with everything that can still be read, contains no
element more often than it was put in.  So nothing that was popped comes back. -/
theorem c76_ledger_partial {is os : List α} {v : PV α} (h : Ledger is os v) (k : Nat) :
    Within (os ++ v.readUpTo k) is ∧ Within (os ++ v.toVec) is := by
  have hl := h.made.reach.lax
  have key : ∀ ws : List α, ws.Sublist v.abs → Within (os ++ ws) is := fun ws hs =>
    ((Within.refl os).append (Within.of_sublist hs)).trans h.stored
  exact ⟨key _ (PV.readUpTo_sub hl k), key _ ((PV.toVec_sub v).trans (PV.readUpTo_sub hl _))⟩

end Ledger

/-! ## Sample cases -/

/-- A history with a bad cut: 130 elements put in, 64 can be read on the left. -/
example : Made (List.range 65 ++ List.range 65) PV.cut :=
  .splitLeft 70 (.concat (.fromIter _) (.fromIter _))
example : PV.cut.toVec.length = 64 ∧ PV.hollowIns.Nodup ∧ PV.hollow.len = 64 ∧
    PV.hollow.toVec = ((List.range 65).map (1000 + ·)).reverse.tail := by decide +kernel
example : ∃ w x, PV.cut.popFront = some (w, x) :=
  match h : PV.cut.popFront with
  | some (w, x) => ⟨w, x, rfl⟩
  | none => absurd h (by decide +kernel)

/-- An account: three put in, one taken out at either end. -/
example : ∃ v : PV Nat, Ledger [1, 2, 3] [3, 1] v ∧ v.toVec = [2] := by
  refine ⟨⟨.inline [2], 1, 2⟩, ?_, by decide⟩
  have h3 : Ledger [1, 2, 3] [] (PV.fromIter [1, 2, 3]) := .fromIter _
  have h2 : Ledger [1, 2, 3] [3] ⟨.inline [1, 2], 2, 1⟩ :=
    .popBack h3 (.of_intact (PV.intact_fromIter _)) (fun ⟨_, h, _⟩ => by cases h) rfl
  exact .popFront h2 rfl

end Rustica.PVec
