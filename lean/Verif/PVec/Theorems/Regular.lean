import Verif.PVec.Theorems.Capacity
import Verif.PVec.Checked

/-!
# C61: the code for branches without a size table

`c61_size_tables` says that this code never runs.  Here is what it would do.
-/

namespace Rustica.PVec
namespace Node
variable {α : Type}

mutual
/-- The same tree without size tables. -/
def bare : Node α → Node α
  | .leaf es => .leaf es
  | .branch cs _ => .branch (bareL cs) none
/-- The same trees without size tables. -/
def bareL : List (Node α) → List (Node α)
  | [] => []
  | c :: cs => bare c :: bareL cs
end

theorem bareL_eq (cs : List (Node α)) : bareL cs = cs.map bare := by
  induction cs with
  | nil => rfl
  | cons c cs ih => simp [bareL, ih]

/-- C61: without tables `calculate_size` counts the elements one by one, so removing all tables does not change it. -/
theorem c61_bare_size (n : Node α) : n.bare.calculateSize = n.flat.length ∧ n.bare.flat = n.flat := by
  induction n using Node.induct with
  | hleaf es => exact ⟨rfl, rfl⟩
  | hbranch cs s ih =>
    have key : ∀ cs : List (Node α),
        (∀ c ∈ cs, c.bare.calculateSize = c.flat.length ∧ c.bare.flat = c.flat) →
        calculateSizeL (bareL cs) = (flatL cs).length ∧ flatL (bareL cs) = flatL cs := by
      intro cs
      induction cs with
      | nil => intro _; exact ⟨rfl, rfl⟩
      | cons c cs ih2 =>
        intro h
        obtain ⟨h1, h2⟩ := h c (by simp)
        obtain ⟨h3, h4⟩ := ih2 fun d hd => h d (by simp [hd])
        exact ⟨by simp [bareL, calculateSizeL, flatL, h1, h3], by simp [bareL, flatL, h2, h4]⟩
    obtain ⟨h1, h2⟩ := key cs ih
    exact ⟨by simpa [bare, calculateSize, flat] using h1, by simpa [bare, flat] using h2⟩

theorem flatL_drop {cap : Nat} : ∀ (cs : List (Node α)) (k : Nat), (∀ c ∈ cs.take k, c.flat.length = cap) →
    k ≤ cs.length → (flatL cs).drop (k * cap) = flatL (cs.drop k) := by
  intro cs
  induction cs with
  | nil => intro k _ hk; simp at hk; subst hk; simp
  | cons c cs ih =>
    intro k h hk
    cases k with
    | zero => simp
    | succ k =>
      have hc := h c (by simp)
      have : (k + 1) * cap = c.flat.length + k * cap := by rw [hc, Nat.add_mul]; omega
      rw [this, flatL, List.drop_append, List.drop_of_length_le (by omega), List.nil_append]
      have e : c.flat.length + k * cap - c.flat.length = k * cap := by omega
      rw [e, List.drop_succ_cons]
      exact ih k (fun d hd => h d (by simp [hd])) (by simpa using hk)

theorem flatL_length_ge {cap : Nat} (cs : List (Node α)) (k : Nat) (h : ∀ c ∈ cs.take k, c.flat.length = cap)
    (hk : k ≤ cs.length) : k * cap ≤ (flatL cs).length := by
  induction cs generalizing k with
  | nil => simp at hk; subst hk; simp
  | cons c cs ih =>
    cases k with
    | zero => simp
    | succ k =>
      have hc := h c (by simp)
      have := ih k (fun d hd => h d (by simp [hd])) (by simpa using hk)
      have e : (k + 1) * cap = c.flat.length + k * cap := by rw [hc, Nat.add_mul]; omega
      rw [e, flatL, List.length_append]
      omega

/-- C61: `find_child_regular(i, height)` is right for regular branches: if every child but the last holds exactly
`64 · 32^height` elements and the last at most as many, the answer is the child holding element `i` and the place in it,
and there is an answer for every `i` that exists. -/
theorem c61_regular (pre : List (Node α)) (last : Node α) (height i : Nat)
    (hpre : ∀ c ∈ pre, c.flat.length = 64 * 32 ^ height) (hlast : last.flat.length ≤ 64 * 32 ^ height)
    (hi : i < (flatL (pre ++ [last])).length) :
    ∃ k s c, findChildRegular (pre ++ [last]) i height = some (k, s) ∧ (pre ++ [last])[k]? = some c ∧
      c.flat[s]? = (flatL (pre ++ [last]))[i]? := by
  have hpos : 0 < 64 * 32 ^ height := Nat.mul_pos (by omega) (Nat.pow_pos (by omega))
  generalize hcap : 64 * 32 ^ height = cap at *
  have hc : (if height = 0 then LEAF_CAPACITY else LEAF_CAPACITY * BRANCHING_FACTOR ^ height) = cap := by
    by_cases h : height = 0
    · subst h; simpa using hcap
    · simp only [h, if_false]; exact hcap
  have htake : ∀ k, k ≤ pre.length → ∀ c ∈ (pre ++ [last]).take k, c.flat.length = cap := by
    intro k hk c hcm
    rw [List.take_append_of_le_length hk] at hcm
    exact hpre c (List.mem_of_mem_take hcm)
  have hk : i / cap ≤ pre.length := by
    apply Nat.le_of_not_lt
    intro hgt
    have h1 : pre.length * cap + last.flat.length = (flatL (pre ++ [last])).length := by
      have := congrArg List.length (flatL_drop (cap := cap) (pre ++ [last]) pre.length (htake _ (Nat.le_refl _)) (by simp))
      have h2 := flatL_length_ge (cap := cap) (pre ++ [last]) pre.length (htake _ (Nat.le_refl _)) (by simp)
      simp only [List.length_drop, List.drop_left, flatL, List.append_nil] at this
      omega
    have h3 : (pre.length + 1) * cap ≤ i := by
      calc (pre.length + 1) * cap ≤ i / cap * cap := Nat.mul_le_mul_right _ (by omega)
        _ ≤ i := Nat.div_mul_le_self i cap
    rw [Nat.add_mul] at h3
    omega
  have hlen : i / cap < (pre ++ [last]).length := by simp; omega
  refine ⟨i / cap, i % cap, (pre ++ [last])[i / cap], ?_, List.getElem?_eq_getElem hlen, ?_⟩
  · simp only [findChildRegular, hc, hlen, if_true]
  · have hd := flatL_drop (cap := cap) (pre ++ [last]) (i / cap) (htake _ hk) (by omega)
    have e : (flatL (pre ++ [last]))[i]? = ((flatL (pre ++ [last])).drop (i / cap * cap))[i % cap]? := by
      rw [List.getElem?_drop]; congr 1
      have := Nat.div_add_mod i cap
      rw [Nat.mul_comm] at this; exact this.symm
    rw [e, hd, List.drop_eq_getElem_cons hlen, flatL]
    by_cases hl : i % cap < ((pre ++ [last])[i / cap]).flat.length
    · rw [List.getElem?_append_left hl]
    · -- only the last child can be short, and nothing comes after it
      have hlast' : i / cap = pre.length := by
        apply Nat.le_antisymm hk
        apply Nat.le_of_not_lt
        intro hlt
        have hm : (pre ++ [last])[i / cap] ∈ pre := by
          rw [List.getElem_append_left hlt]; exact List.getElem_mem _
        have := hpre _ hm
        have := Nat.mod_lt i hpos
        omega
      have hdrop : (pre ++ [last]).drop (i / cap + 1) = [] := by
        apply List.drop_of_length_le; simp; omega
      rw [hdrop, flatL, List.append_nil]

/-- C61: `find_child_regular` answers `None` exactly past the capacity of the branch. -/
theorem c61_regular_range (cs : List (Node α)) (height i : Nat) :
    findChildRegular cs i height = none ↔ cs.length * (64 * 32 ^ height) ≤ i := by
  have hpos : 0 < 64 * 32 ^ height := Nat.mul_pos (by omega) (Nat.pow_pos (by omega))
  have hc : (if height = 0 then LEAF_CAPACITY else LEAF_CAPACITY * BRANCHING_FACTOR ^ height) = 64 * 32 ^ height := by
    by_cases h : height = 0
    · subst h; rfl
    · simp only [h, if_false]
  simp only [findChildRegular, hc]
  rw [← Nat.le_div_iff_mul_le hpos]
  by_cases h : i / (64 * 32 ^ height) < cs.length
  · simp only [h, if_true]
    constructor
    · intro h'; cases h'
    · intro h'; omega
  · simp only [h, if_false, true_iff]
    omega

/-- C61: what the size table becomes when a child is removed: the entry of the first child (index 0) or of the last one
goes; an emptied table disappears; removing from an empty table would panic, and no branch has one
(`c61_size_tables`). -/
theorem c61_removal (x : Nat) (xs : List Nat) (i : Nat) :
    updateSizeTableAfterRemovalC (some (x :: xs)) 0 = .ok (if xs = [] then none else some xs) ∧
    updateSizeTableAfterRemovalC (some (xs ++ [x])) (i + 1) = .ok (if xs = [] then none else some xs) ∧
    updateSizeTableAfterRemovalC none i = .ok none ∧
    updateSizeTableAfterRemovalC (some []) 0 = .error .removeIndex ∧
    updateSizeTableAfterRemovalC (some []) (i + 1) = .ok none := by
  refine ⟨?_, ?_, rfl, rfl, rfl⟩
  · cases xs <;> simp [updateSizeTableAfterRemovalC, updateSizeTableAfterRemoval]
  · cases xs with
    | nil => rfl
    | cons y ys =>
      have h : ((y :: ys) ++ [x]).dropLast = y :: ys := List.dropLast_concat
      simp only [List.cons_append] at h ⊢
      simp only [updateSizeTableAfterRemovalC, updateSizeTableAfterRemoval, Nat.add_one_ne_zero, if_false, h]
      rfl

theorem scanSizes_iff (sizes : List Nat) : ∀ (k0 cum i k s : Nat), cum ≤ i →
    (scanSizes sizes k0 cum i = some (k, s) ↔
      k0 ≤ k ∧ i = cum + (sizes.take (k - k0)).sum + s ∧ ∃ n, sizes[k - k0]? = some n ∧ s < n) := by
  induction sizes with
  | nil => intro k0 cum i k s _; simp [scanSizes]
  | cons n sizes ih =>
    intro k0 cum i k s hle
    simp only [scanSizes]
    by_cases h : i < cum + n
    · simp only [h, if_true, Option.some.injEq, Prod.mk.injEq]
      constructor
      · rintro ⟨rfl, rfl⟩
        refine ⟨Nat.le_refl _, ?_, n, ?_, ?_⟩
        · simp; omega
        · simp
        · omega
      · rintro ⟨hk, e, m, hm, hs⟩
        have : k - k0 = 0 := by
          cases hd : k - k0 with
          | zero => rfl
          | succ d => rw [hd, List.take_succ_cons, List.sum_cons] at e; omega
        rw [this] at e
        simp only [List.take_zero, List.sum_nil] at e
        omega
    · simp only [h, if_false]
      rw [ih (k0 + 1) (cum + n) i k s (by omega)]
      constructor
      · rintro ⟨hk, e, m, hm, hs⟩
        have hd : k - k0 = (k - (k0 + 1)) + 1 := by omega
        refine ⟨by omega, ?_, m, ?_, hs⟩
        · rw [hd, List.take_succ_cons, List.sum_cons]; omega
        · rw [hd, List.getElem?_cons_succ]; exact hm
      · rintro ⟨hk, e, m, hm, hs⟩
        cases hd : k - k0 with
        | zero =>
          rw [hd] at e hm
          simp only [List.take_zero, List.sum_nil, List.getElem?_cons_zero, Option.some.injEq] at e hm
          omega
        | succ d =>
          have hd' : k - (k0 + 1) = d := by omega
          rw [hd, List.take_succ_cons, List.sum_cons] at e
          rw [hd, List.getElem?_cons_succ] at hm
          rw [hd']
          exact ⟨by omega, by omega, m, hm, hs⟩

/-- C61: with a size table, `find_child_relaxed` and `find_child` answer the one child, and place in it, at which the
index lies when the sizes are laid end to end; and `None` exactly past their sum. -/
theorem c61_relaxed (cs : List (Node α)) (sizes : List Nat) (i k s : Nat) :
    (findChildRelaxed cs (some sizes) i = some (k, s) ↔
      i = (sizes.take k).sum + s ∧ ∃ n, sizes[k]? = some n ∧ s < n) ∧
    (findChildRelaxed cs (some sizes) i = none ↔ sizes.sum ≤ i) ∧
    findChild (some sizes) i = findChildRelaxed cs (some sizes) i := by
  refine ⟨?_, ?_, rfl⟩
  · have := scanSizes_iff sizes 0 0 i k s (Nat.zero_le _)
    simpa [findChildRelaxed] using this
  · have key : ∀ (sizes : List Nat) (k0 cum i : Nat), cum ≤ i →
        (scanSizes sizes k0 cum i = none ↔ cum + sizes.sum ≤ i) := by
      intro sizes
      induction sizes with
      | nil => intro k0 cum i h; simp [scanSizes, h]
      | cons n sizes ih =>
        intro k0 cum i hle
        simp only [scanSizes, List.sum_cons]
        by_cases h : i < cum + n
        · simp only [h, if_true]
          constructor
          · intro h'; cases h'
          · intro h'; omega
        · simp only [h, if_false]
          rw [ih _ _ _ (by omega)]
          omega
    have := key sizes 0 0 i (Nat.zero_le _)
    simpa [findChildRelaxed] using this

example : findChildRelaxed ([] : List (Node Nat)) (some [3, 0, 64, 2]) 67 = some (3, 0) := by decide

/-- A regular branch of two full leaves and a short one, without table. -/
def regular : Node Nat := .branch [.leaf (List.range 64), .leaf (List.range 64), .leaf [7, 8]] none

/-- C61: the two fallbacks do not agree on which height they stand for.  On a regular branch of leaves without table,
`find_child` (used by `update`) is right, and `find_child_relaxed` and `get`, which pass height 1, are not: they look for
element 64 in the first leaf.  The defect is latent: no vector has such a branch (`c61_size_tables`). -/
theorem c61_fallback_latent :
    regular.flat[64]? = some 0 ∧ regular.get 64 = none ∧ (regular.update 64 9).flat[64]? = some 9 ∧
    findChild none 64 = some (1, 0) ∧ findChildRelaxed [Node.leaf (List.range 64), .leaf [1]] none 64 = some (0, 64) := by
  refine ⟨by decide, by decide, by decide, by decide, by decide⟩

/-- C61: for every branch without table, `find_child_relaxed` counts 2048 elements per child, whatever the children are. -/
theorem c61_fallback_exact {α : Type} (cs : List (Node α)) (i : Nat) :
    findChildRelaxed cs none i = if i / 2048 < cs.length then some (i / 2048, i % 2048) else none := by
  simp [findChildRelaxed, findChildRegular, LEAF_CAPACITY, BRANCHING_FACTOR]

/-- `c61_regular` on that branch: element 129 is the second one of the third leaf. -/
example : (∀ c ∈ [Node.leaf (List.range 64), .leaf (List.range 64)], c.flat.length = 64 * 32 ^ 0) ∧
    findChildRegular [Node.leaf (List.range 64), .leaf (List.range 64), .leaf [7, 8]] 129 0 = some (2, 1) := by
  refine ⟨?_, by decide⟩
  intro c hc
  simp at hc
  rw [hc]; rfl

/-- C61: `update_size_table_after_update` replaces one entry, and nothing when there is no such entry. -/
theorem c61_table_update (sizes : List Nat) (i n : Nat) :
    updateSizeTableAfterUpdate (some sizes) i n = some (sizes.set i n) ∧ updateSizeTableAfterUpdate none i n = none := by
  refine ⟨?_, rfl⟩
  simp only [updateSizeTableAfterUpdate]
  split
  · rfl
  · rw [List.set_eq_of_length_le (by omega)]

theorem findPathL_eq (cs : List (Node α)) : ∀ (k h j : Nat) (c : Node α), cs[k]? = some c →
    Tree.findPathL cs k h j = Tree.findPath c h j := by
  induction cs with
  | nil => intro k h j c e; simp at e
  | cons d cs ih =>
    intro k h j c e
    cases k with
    | zero => simp only [List.getElem?_cons_zero, Option.some.injEq] at e; rw [Tree.findPathL, e]
    | succ k => rw [Tree.findPathL]; exact ih k h j c (by simpa using e)

/-- C61: `find_path_to_index` is right for regular branches: the first step of the path is the child that holds the
element, and the rest is the path to the place in that child. -/
theorem c61_regular_path (pre : List (Node α)) (last : Node α) (height i : Nat)
    (hpre : ∀ c ∈ pre, c.flat.length = 64 * 32 ^ height) (hlast : last.flat.length ≤ 64 * 32 ^ height)
    (hi : i < (flatL (pre ++ [last])).length) :
    ∃ k s c, Tree.findPath (.branch (pre ++ [last]) none) (height + 1) i = k :: Tree.findPath c height s ∧
      (pre ++ [last])[k]? = some c ∧ c.flat[s]? = (flatL (pre ++ [last]))[i]? := by
  obtain ⟨k, s, c, h1, h2, h3⟩ := c61_regular pre last height i hpre hlast hi
  refine ⟨k, s, c, ?_, h2, h3⟩
  simp only [Tree.findPath, Nat.add_one_ne_zero, if_false, Nat.add_sub_cancel, h1, Option.getD_some]
  rw [findPathL_eq _ _ _ _ _ h2]

/-- C61: `calculate_adjusted_index`, which `split_at` calls with the height of the children, is one level off on branches
without table.  It finds the place inside the child that `find_child_regular` found only when the children are leaves or
the child is the first one; called with one more than that height it is right.  Latent for the same reason as above. -/
theorem c61_adjusted_latent (cs : List (Node α)) (height i k s : Nat)
    (h : findChildRegular cs i height = some (k, s)) :
    (Tree.calculateAdjustedIndex i k none height = s ↔ height = 0 ∨ k = 0) ∧
    Tree.calculateAdjustedIndex i k none (height + 1) = s := by
  have hpos : 0 < 64 * 32 ^ height := Nat.mul_pos (by omega) (Nat.pow_pos (by omega))
  have hc : (if height = 0 then LEAF_CAPACITY else LEAF_CAPACITY * BRANCHING_FACTOR ^ height) = 64 * 32 ^ height := by
    by_cases h : height = 0
    · subst h; rfl
    · simp only [h, if_false]
  simp only [findChildRegular, hc] at h
  split at h
  · simp only [Option.some.injEq, Prod.mk.injEq] at h
    obtain ⟨rfl, rfl⟩ := h
    have hm : i / (64 * 32 ^ height) * (64 * 32 ^ height) + i % (64 * 32 ^ height) = i := by
      rw [Nat.mul_comm]; exact Nat.div_add_mod _ _
    constructor
    · cases height with
      | zero =>
        simp only [Tree.calculateAdjustedIndex, Nat.zero_le, if_true, true_or, iff_true]
        simp only [Nat.pow_zero, Nat.mul_one] at hm ⊢
        show i - i / 64 * 64 = _
        omega
      | succ g =>
        have e : (if g + 1 ≤ 1 then LEAF_CAPACITY else LEAF_CAPACITY * BRANCHING_FACTOR ^ (g + 1 - 1)) = 64 * 32 ^ g := by
          by_cases hg : g = 0
          · subst hg; rfl
          · rw [if_neg (by omega)]; rfl
        simp only [Tree.calculateAdjustedIndex, e]
        have e2 : 64 * 32 ^ (g + 1) = 32 * (64 * 32 ^ g) := by rw [Nat.pow_succ]; omega
        have hp : 0 < 64 * 32 ^ g := Nat.mul_pos (by omega) (Nat.pow_pos (by omega))
        rw [e2] at hm hpos ⊢
        generalize 64 * 32 ^ g = cap at *
        generalize i / (32 * cap) = k at *
        generalize i % (32 * cap) = s at *
        have e3 : k * (32 * cap) = 32 * (k * cap) := by rw [Nat.mul_left_comm]
        constructor
        · intro h
          refine .inr (Classical.byContradiction fun hk => ?_)
          have : 0 < k * cap := Nat.mul_pos (Nat.pos_of_ne_zero hk) hp
          omega
        · rintro (h | rfl)
          · cases h
          · omega
    · have e : (if height + 1 ≤ 1 then LEAF_CAPACITY else LEAF_CAPACITY * BRANCHING_FACTOR ^ (height + 1 - 1)) =
          64 * 32 ^ height := by
        by_cases hg : height = 0
        · subst hg; rfl
        · rw [if_neg (by omega)]; rfl
      simp only [Tree.calculateAdjustedIndex, e]
      omega
  · cases h

/-- Not vacuous: element 129 of `regular`, and an element of a second child of height 1. -/
example : findChildRegular [Node.leaf (List.range 64), .leaf (List.range 64), .leaf [7, 8]] 129 0 = some (2, 1) ∧
    findChildRegular [Node.leaf [1], .leaf [2]] 2050 1 = some (1, 2) ∧
    Tree.calculateAdjustedIndex 2050 1 none 1 = 1986 := by
  refine ⟨by decide, by decide, by decide⟩

example : ∃ k s c, Tree.findPath (.branch ([Node.leaf (List.range 64), .leaf (List.range 64)] ++ [.leaf [7, 8]]) none) 1 129 =
    k :: Tree.findPath c 0 s ∧ c.flat[s]? = some 8 := by
  obtain ⟨k, s, c, h1, _, h2⟩ := c61_regular_path [Node.leaf (List.range 64), .leaf (List.range 64)] (.leaf [7, 8]) 0 129
    (by intro c hc; simp at hc; rw [hc]; rfl) (by decide) (by decide +kernel)
  exact ⟨k, s, c, h1, h2.trans (by decide +kernel)⟩

end Node
end Rustica.PVec
