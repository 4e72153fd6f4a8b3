import Verif.Data.Numbers

/-!
# C88: `Sum` and `Product` of machine integers

Specification: a bracketing (`Brackets`) is an order in which a list of values can be combined; its result should depend
on the list alone.  `total` and `times` are the exact sum and product.
-/

namespace Rustica.Numbers

/-- A way of combining the values at the leaves. -/
inductive Brackets where
  | leaf : Int → Brackets
  | node : Brackets → Brackets → Brackets

namespace Brackets

/-- The values combined, from left to right. -/
def leaves : Brackets → List Int
  | leaf a => [a]
  | node l r => l.leaves ++ r.leaves

/-- The result of combining in this order with an operation that may panic. -/
def eval {M : Type} (mk : Int → M) (combine : M → M → Option M) : Brackets → Option M
  | leaf a => some (mk a)
  | node l r => match l.eval mk combine, r.eval mk combine with
    | some x, some y => combine x y
    | _, _ => none

/-- The result with an operation that does not panic. -/
def evalW {M : Type} (mk : Int → M) (combine : M → M → M) : Brackets → M
  | leaf a => mk a
  | node l r => combine (l.evalW mk combine) (r.evalW mk combine)

theorem leaves_ne_nil : ∀ t : Brackets, t.leaves ≠ []
  | leaf _ => by simp [leaves]
  | node l r => by simp [leaves, leaves_ne_nil l]

end Brackets

/-- The exact sum. -/
def total (xs : List Int) : Int := xs.foldr (· + ·) 0
/-- The exact product. -/
def times (xs : List Int) : Int := xs.foldr (· * ·) 1

theorem total_append (xs ys : List Int) : total (xs ++ ys) = total xs + total ys := by
  induction xs with
  | nil => simp [total]
  | cons x xs ih =>
    simp only [total, List.cons_append, List.foldr_cons] at ih ⊢
    rw [ih]; omega

theorem times_append (xs ys : List Int) : times (xs ++ ys) = times xs * times ys := by
  induction xs with
  | nil => simp [times]
  | cons x xs ih =>
    simp only [times, List.cons_append, List.foldr_cons] at ih ⊢
    rw [ih, Int.mul_assoc]

theorem total_perm {xs ys : List Int} (h : xs.Perm ys) : total xs = total ys := by
  induction h with
  | nil => rfl
  | cons x _ ih => simp only [total, List.foldr_cons] at ih ⊢; rw [ih]
  | swap x y l => simp only [total, List.foldr_cons]; omega
  | trans _ _ h1 h2 => rw [h1, h2]

theorem times_perm {xs ys : List Int} (h : xs.Perm ys) : times xs = times ys := by
  induction h with
  | nil => rfl
  | cons x _ ih => simp only [times, List.foldr_cons] at ih ⊢; rw [ih]
  | swap x y l => simp only [times, List.foldr_cons, ← Int.mul_assoc, Int.mul_comm x y]
  | trans _ _ h1 h2 => rw [h1, h2]

variable (r : Range)

theorem checked_some {i j : Int} (h : r.checked i = some j) : j = i ∧ r.Has i := by
  unfold Range.checked at h
  split at h
  · next hh => cases h; exact ⟨rfl, hh⟩
  · cases h

theorem checked_of_has {i : Int} (h : r.Has i) : r.checked i = some i := if_pos h
theorem checked_of_not {i : Int} (h : ¬ r.Has i) : r.checked i = none := if_neg h

/-! ## With overflow checks -/

/-- C88: a result is never wrong: whatever order the values are added in, if it does not panic the result is their exact
sum. -/
theorem c88_sum_exact (t : Brackets) (x : Sum Int) (h : t.eval Sum.mk (sumCombine r) = some x) :
    x = ⟨total t.leaves⟩ := by
  induction t generalizing x with
  | leaf a => cases h; simp [Brackets.leaves, total]
  | node l s ihl ihs =>
    simp only [Brackets.eval] at h
    split at h
    · next y z hy hz =>
      rw [ihl y hy, ihs z hz] at h
      simp only [sumCombine, Option.map_eq_some_iff] at h
      obtain ⟨j, hj, rfl⟩ := h
      rw [(checked_some r hj).1, Brackets.leaves, total_append]
    · cases h

/-- `(100 + 27) + -128` over `i8`. -/
example : (Brackets.node (.node (.leaf 100) (.leaf 27)) (.leaf (-128))).eval Sum.mk (sumCombine .i8) = some ⟨-1⟩ := by
  decide

/-- C88: the same for products. -/
theorem c88_product_exact (t : Brackets) (x : Product Int) (h : t.eval Product.mk (productCombine r) = some x) :
    x = ⟨times t.leaves⟩ := by
  induction t generalizing x with
  | leaf a => cases h; simp [Brackets.leaves, times]
  | node l s ihl ihs =>
    simp only [Brackets.eval] at h
    split at h
    · next y z hy hz =>
      rw [ihl y hy, ihs z hz] at h
      simp only [productCombine, Option.map_eq_some_iff] at h
      obtain ⟨j, hj, rfl⟩ := h
      rw [(checked_some r hj).1, Brackets.leaves, times_append]
    · cases h

/-- `(-16 * 8) * 1` over `i8`. -/
example : (Brackets.node (.node (.leaf (-16)) (.leaf 8)) (.leaf 1)).eval Product.mk (productCombine .i8) = some ⟨-128⟩ := by
  decide

namespace Brackets

/-- The brackets inside, from the innermost outwards: those of the left half, those of the right half, the whole. -/
def inner : Brackets → List Brackets
  | leaf _ => []
  | node l r => l.inner ++ r.inner ++ [node l r]

end Brackets

/-- C88, for every order of combining: the additions panic exactly when the exact sum inside some pair of brackets does
not fit. -/
theorem c88_sum_panic_iff (t : Brackets) :
    t.eval Sum.mk (sumCombine r) = none ↔ ∃ b ∈ t.inner, ¬ r.Has (total b.leaves) := by
  induction t with
  | leaf a => simp [Brackets.eval, Brackets.inner]
  | node l s ihl ihs =>
    simp only [Brackets.eval, Brackets.inner, List.mem_append, List.mem_singleton]
    cases hl : l.eval Sum.mk (sumCombine r) with
    | none =>
      obtain ⟨b, hb, hn⟩ := ihl.1 hl
      exact ⟨fun _ => ⟨b, .inl (.inl hb), hn⟩, fun _ => rfl⟩
    | some x =>
      cases hs : s.eval Sum.mk (sumCombine r) with
      | none =>
        obtain ⟨b, hb, hn⟩ := ihs.1 hs
        exact ⟨fun _ => ⟨b, .inl (.inr hb), hn⟩, fun _ => rfl⟩
      | some y =>
        have nl : ¬ ∃ b ∈ l.inner, ¬ r.Has (total b.leaves) := fun h => by rw [ihl.2 h] at hl; cases hl
        have ns : ¬ ∃ b ∈ s.inner, ¬ r.Has (total b.leaves) := fun h => by rw [ihs.2 h] at hs; cases hs
        rw [c88_sum_exact r l x hl, c88_sum_exact r s y hs]
        simp only [sumCombine, ← total_append]
        constructor
        · intro h
          refine ⟨_, .inr rfl, fun hf => ?_⟩
          rw [Brackets.leaves] at hf
          rw [checked_of_has r hf] at h
          cases h
        · rintro ⟨b, (hb | hb) | rfl, hn⟩
          · exact absurd ⟨b, hb, hn⟩ nl
          · exact absurd ⟨b, hb, hn⟩ ns
          · rw [Brackets.leaves] at hn
            rw [checked_of_not r hn]; rfl

/-- C88: the same for products. -/
theorem c88_product_panic_iff (t : Brackets) :
    t.eval Product.mk (productCombine r) = none ↔ ∃ b ∈ t.inner, ¬ r.Has (times b.leaves) := by
  induction t with
  | leaf a => simp [Brackets.eval, Brackets.inner]
  | node l s ihl ihs =>
    simp only [Brackets.eval, Brackets.inner, List.mem_append, List.mem_singleton]
    cases hl : l.eval Product.mk (productCombine r) with
    | none =>
      obtain ⟨b, hb, hn⟩ := ihl.1 hl
      exact ⟨fun _ => ⟨b, .inl (.inl hb), hn⟩, fun _ => rfl⟩
    | some x =>
      cases hs : s.eval Product.mk (productCombine r) with
      | none =>
        obtain ⟨b, hb, hn⟩ := ihs.1 hs
        exact ⟨fun _ => ⟨b, .inl (.inr hb), hn⟩, fun _ => rfl⟩
      | some y =>
        have nl : ¬ ∃ b ∈ l.inner, ¬ r.Has (times b.leaves) := fun h => by rw [ihl.2 h] at hl; cases hl
        have ns : ¬ ∃ b ∈ s.inner, ¬ r.Has (times b.leaves) := fun h => by rw [ihs.2 h] at hs; cases hs
        rw [c88_product_exact r l x hl, c88_product_exact r s y hs]
        simp only [productCombine, ← times_append]
        constructor
        · intro h
          refine ⟨_, .inr rfl, fun hf => ?_⟩
          rw [Brackets.leaves] at hf
          rw [checked_of_has r hf] at h
          cases h
        · rintro ⟨b, (hb | hb) | rfl, hn⟩
          · exact absurd ⟨b, hb, hn⟩ nl
          · exact absurd ⟨b, hb, hn⟩ ns
          · rw [Brackets.leaves] at hn
            rw [checked_of_not r hn]; rfl

/-- `(100 + 28) + -128` over `i8` panics at the first plus. -/
example : (Brackets.node (.node (.leaf 100) (.leaf 28)) (.leaf (-128))).eval Sum.mk (sumCombine .i8) = none ∧
    (Brackets.node (.node (.leaf 100) (.leaf 28)) (.leaf (-128))).inner.map (fun b => total b.leaves) = [128, 0] := by
  decide

/-- Values of one sign. -/
def OneSign (xs : List Int) : Prop := (∀ x ∈ xs, 0 ≤ x) ∨ (∀ x ∈ xs, x ≤ 0)

theorem total_nonneg {xs : List Int} (h : ∀ x ∈ xs, 0 ≤ x) : 0 ≤ total xs := by
  induction xs with
  | nil => simp [total]
  | cons x xs ih =>
    have h1 := h x (by simp)
    have h2 := ih (fun y hy => h y (by simp [hy]))
    simp only [total, List.foldr_cons] at h2 ⊢
    omega

theorem total_nonpos {xs : List Int} (h : ∀ x ∈ xs, x ≤ 0) : total xs ≤ 0 := by
  induction xs with
  | nil => simp [total]
  | cons x xs ih =>
    have h1 := h x (by simp)
    have h2 := ih (fun y hy => h y (by simp [hy]))
    simp only [total, List.foldr_cons] at h2 ⊢
    omega

/-- C88, partial: for values of one sign (so for every unsigned type) the order of the additions does not matter, not
even for whether they panic: they panic exactly when the exact sum does not fit. -/
theorem c88_sum_partial (t : Brackets) (hr : ∀ x ∈ t.leaves, r.Has x) (hs : OneSign t.leaves) :
    t.eval Sum.mk (sumCombine r) = (r.checked (total t.leaves)).map Sum.mk := by
  induction t with
  | leaf a =>
    have := hr a (by simp [Brackets.leaves])
    simp [Brackets.eval, Brackets.leaves, total, checked_of_has r this]
  | node l s ihl ihs =>
    simp only [Brackets.leaves, List.mem_append] at hr hs
    have sl : OneSign l.leaves :=
      hs.imp (fun h x hx => h x (by simp [hx])) (fun h x hx => h x (by simp [hx]))
    have ss : OneSign s.leaves :=
      hs.imp (fun h x hx => h x (by simp [hx])) (fun h x hx => h x (by simp [hx]))
    rw [Brackets.eval, ihl (fun x hx => hr x (.inl hx)) sl, ihs (fun x hx => hr x (.inr hx)) ss, Brackets.leaves,
      total_append]
    have hlo := r.lo_le
    have hhi := r.le_hi
    have bounds : r.Has (total l.leaves + total s.leaves) → r.Has (total l.leaves) ∧ r.Has (total s.leaves) := by
      intro h
      unfold Range.Has at h ⊢
      rcases hs with h' | h'
      · have h1 := total_nonneg (fun x hx => h' x (List.mem_append.2 (.inl hx)))
        have h2 := total_nonneg (fun x hx => h' x (List.mem_append.2 (.inr hx)))
        omega
      · have h1 := total_nonpos (fun x hx => h' x (List.mem_append.2 (.inl hx)))
        have h2 := total_nonpos (fun x hx => h' x (List.mem_append.2 (.inr hx)))
        omega
    by_cases hb : r.Has (total l.leaves + total s.leaves)
    · obtain ⟨h1, h2⟩ := bounds hb
      simp [checked_of_has r h1, checked_of_has r h2, sumCombine]
    · rw [checked_of_not r hb]
      by_cases h1 : r.Has (total l.leaves)
      · by_cases h2 : r.Has (total s.leaves)
        · simp [checked_of_has r h1, checked_of_has r h2, sumCombine, checked_of_not r hb]
        · simp [checked_of_not r h2]
      · simp [checked_of_not r h1]

/-- Three bytes in either order: 100 + 100 + 55 fits, 100 + 100 + 56 does not. -/
example : (∀ x ∈ (Brackets.node (.node (.leaf 100) (.leaf 100)) (.leaf 55)).leaves, Range.u8.Has x) ∧
    OneSign (Brackets.node (.node (.leaf 100) (.leaf 100)) (.leaf 55)).leaves ∧
    (Brackets.node (.node (.leaf 100) (.leaf 100)) (.leaf 55)).eval Sum.mk (sumCombine .u8) = some ⟨255⟩ ∧
    (Brackets.node (.leaf 100) (.node (.leaf 100) (.leaf 56))).eval Sum.mk (sumCombine .u8) = none :=
  ⟨by decide, .inl (by decide), by decide, by decide⟩

/-- C88: for an unsigned type, any two orders of the same values, permuted in any way, have the same outcome. -/
theorem c88_unsigned_sum (hu : r.lo = 0) (s t : Brackets) (hp : s.leaves.Perm t.leaves)
    (hr : ∀ x ∈ s.leaves, r.Has x) : s.eval Sum.mk (sumCombine r) = t.eval Sum.mk (sumCombine r) := by
  have hr' : ∀ x ∈ t.leaves, r.Has x := fun x hx => hr x (hp.mem_iff.2 hx)
  have one : ∀ u : Brackets, (∀ x ∈ u.leaves, r.Has x) → OneSign u.leaves :=
    fun u h => .inl (fun x hx => by have := (h x hx).1; omega)
  rw [c88_sum_partial r s hr (one s hr), c88_sum_partial r t hr' (one t hr'), total_perm hp]

/-- `(1 + 2) + 255` and `2 + (255 + 1)` both overflow a byte. -/
example : Range.u8.lo = 0 ∧ (Brackets.node (.node (.leaf 1) (.leaf 2)) (.leaf 255)).leaves.Perm
    (Brackets.node (.leaf 2) (.node (.leaf 255) (.leaf 1))).leaves ∧
    (∀ x ∈ (Brackets.node (.node (.leaf 1) (.leaf 2)) (.leaf 255)).leaves, Range.u8.Has x) :=
  ⟨rfl, by decide, by decide⟩

/-- C88 is false for signed sums: for every signed type `(MAX + 1) + (-1)` panics and `MAX + (1 + (-1))` is `MAX`. -/
theorem c88_sum_false (hs : r.lo ≤ -1) (hh : 1 ≤ r.hi) :
    (Brackets.node (.node (.leaf r.hi) (.leaf 1)) (.leaf (-1))).eval Sum.mk (sumCombine r) = none ∧
    (Brackets.node (.leaf r.hi) (.node (.leaf 1) (.leaf (-1)))).eval Sum.mk (sumCombine r) = some ⟨r.hi⟩ := by
  have h1 : ¬ r.Has (r.hi + 1) := by unfold Range.Has; omega
  have h2 : r.Has (1 + -1) := by unfold Range.Has; omega
  have h3 : r.Has (r.hi + (1 + -1)) := by unfold Range.Has; omega
  constructor
  · simp [Brackets.eval, sumCombine, checked_of_not r h1]
  · simp only [Brackets.eval, sumCombine, checked_of_has r h2, Option.map_some, checked_of_has r h3]
    rw [show r.hi + (1 + -1) = r.hi by omega]

/-- `i32` is such a type. -/
example : Range.i32.lo ≤ -1 ∧ 1 ≤ Range.i32.hi := by decide

/-- C88, the exact condition for three values of any integer type: the two orders agree exactly when the inner sums both
fit or both do not fit, or the total does not fit. -/
theorem c88_sum_iff (a b c : Int) :
    (Brackets.node (.node (.leaf a) (.leaf b)) (.leaf c)).eval Sum.mk (sumCombine r) =
      (Brackets.node (.leaf a) (.node (.leaf b) (.leaf c))).eval Sum.mk (sumCombine r) ↔
    ((r.Has (a + b) ↔ r.Has (b + c)) ∨ ¬ r.Has (a + b + c)) := by
  have e : a + (b + c) = a + b + c := by omega
  simp only [Brackets.eval, sumCombine]
  by_cases h1 : r.Has (a + b) <;> by_cases h2 : r.Has (b + c) <;> by_cases h3 : r.Has (a + b + c) <;>
    simp [checked_of_has r, checked_of_not r, h1, h2, h3, e]

/-- C88 is false for products, of unsigned types too: `(MAX * 2) * 0` panics and `MAX * (2 * 0)` is `0`. -/
theorem c88_product_false (hh : 1 ≤ r.hi) :
    (Brackets.node (.node (.leaf r.hi) (.leaf 2)) (.leaf 0)).eval Product.mk (productCombine r) = none ∧
    (Brackets.node (.leaf r.hi) (.node (.leaf 2) (.leaf 0))).eval Product.mk (productCombine r) = some ⟨0⟩ := by
  have hlo := r.lo_le
  have h1 : ¬ r.Has (r.hi * 2) := by unfold Range.Has; omega
  have h2 : r.Has 0 := by unfold Range.Has; omega
  constructor
  · simp [Brackets.eval, productCombine, checked_of_not r h1]
  · simp [Brackets.eval, productCombine, checked_of_has r h2]

/-- A byte. -/
example : 1 ≤ Range.u8.hi := by decide

theorem times_pos {xs : List Int} (h : ∀ x ∈ xs, 1 ≤ x) : 1 ≤ times xs := by
  induction xs with
  | nil => simp [times]
  | cons x xs ih =>
    have h1 := h x (by simp)
    have h2 := ih (fun y hy => h y (by simp [hy]))
    simp only [times, List.foldr_cons] at h2 ⊢
    have := Int.mul_le_mul h1 h2 (by omega) (by omega)
    omega

/-- C88, partial: for values of at least one the order of the multiplications does not matter: they panic exactly when the
exact product does not fit. -/
theorem c88_product_partial (t : Brackets) (hr : ∀ x ∈ t.leaves, r.Has x) (hs : ∀ x ∈ t.leaves, 1 ≤ x) :
    t.eval Product.mk (productCombine r) = (r.checked (times t.leaves)).map Product.mk := by
  induction t with
  | leaf a =>
    have := hr a (by simp [Brackets.leaves])
    simp [Brackets.eval, Brackets.leaves, times, checked_of_has r this]
  | node l s ihl ihs =>
    simp only [Brackets.leaves, List.mem_append] at hr hs
    rw [Brackets.eval, ihl (fun x hx => hr x (.inl hx)) (fun x hx => hs x (.inl hx)),
      ihs (fun x hx => hr x (.inr hx)) (fun x hx => hs x (.inr hx)), Brackets.leaves, times_append]
    have hlo := r.lo_le
    have p1 := times_pos (fun x hx => hs x (.inl hx))
    have p2 := times_pos (fun x hx => hs x (.inr hx))
    have bounds : r.Has (times l.leaves * times s.leaves) → r.Has (times l.leaves) ∧ r.Has (times s.leaves) := by
      intro h
      unfold Range.Has at h ⊢
      have q1 := Int.mul_le_mul_of_nonneg_left p2 (show 0 ≤ times l.leaves by omega)
      have q2 := Int.mul_le_mul_of_nonneg_right p1 (show 0 ≤ times s.leaves by omega)
      omega
    by_cases hb : r.Has (times l.leaves * times s.leaves)
    · obtain ⟨h1, h2⟩ := bounds hb
      simp [checked_of_has r h1, checked_of_has r h2, productCombine]
    · rw [checked_of_not r hb]
      by_cases h1 : r.Has (times l.leaves)
      · by_cases h2 : r.Has (times s.leaves)
        · simp [checked_of_has r h1, checked_of_has r h2, productCombine, checked_of_not r hb]
        · simp [checked_of_not r h2]
      · simp [checked_of_not r h1]

/-- `5 * (3 * 17) = 255`. -/
example : (∀ x ∈ (Brackets.node (.leaf 5) (.node (.leaf 3) (.leaf 17))).leaves, Range.u8.Has x) ∧
    (∀ x ∈ (Brackets.node (.leaf 5) (.node (.leaf 3) (.leaf 17))).leaves, 1 ≤ x) ∧
    (Brackets.node (.leaf 5) (.node (.leaf 3) (.leaf 17))).eval Product.mk (productCombine .u8) = some ⟨255⟩ := by
  decide

/-- C88: without zeros a signed product can still depend on the order: `(64 * 2) * (-1)` panics over `i8` and
`64 * (2 * (-1))` is `-128`. -/
theorem c88_product_sign_false :
    (Brackets.node (.node (.leaf 64) (.leaf 2)) (.leaf (-1))).eval Product.mk (productCombine .i8) = none ∧
    (Brackets.node (.leaf 64) (.node (.leaf 2) (.leaf (-1)))).eval Product.mk (productCombine .i8) = some ⟨-128⟩ := by
  decide

/-- C88, the exact condition for the product of three values: the same, with products in place of sums. -/
theorem c88_product_iff (a b c : Int) :
    (Brackets.node (.node (.leaf a) (.leaf b)) (.leaf c)).eval Product.mk (productCombine r) =
      (Brackets.node (.leaf a) (.node (.leaf b) (.leaf c))).eval Product.mk (productCombine r) ↔
    ((r.Has (a * b) ↔ r.Has (b * c)) ∨ ¬ r.Has (a * b * c)) := by
  have e : a * (b * c) = a * b * c := (Int.mul_assoc a b c).symm
  simp only [Brackets.eval, productCombine]
  by_cases h1 : r.Has (a * b) <;> by_cases h2 : r.Has (b * c) <;> by_cases h3 : r.Has (a * b * c) <;>
    simp [checked_of_has r, checked_of_not r, h1, h2, h3, e]

/-- C88: combining with `empty` never panics and changes nothing. -/
theorem c88_identity (a : Int) (h : r.Has a) :
    sumCombine r sumEmpty ⟨a⟩ = some ⟨a⟩ ∧ sumCombine r ⟨a⟩ sumEmpty = some ⟨a⟩ ∧
    productCombine r productEmpty ⟨a⟩ = some ⟨a⟩ ∧ productCombine r ⟨a⟩ productEmpty = some ⟨a⟩ := by
  simp [sumCombine, productCombine, sumEmpty, productEmpty, checked_of_has r h]

/-- The smallest `i32`. -/
example : Range.i32.Has (-2147483648) := by decide

/-! ## Folds -/

theorem foldCombine_sum (acc : Int) (xs : List Int) :
    foldCombine (sumCombine r) ⟨acc⟩ (xs.map Sum.mk) =
      if ∀ n, n < xs.length → r.Has (acc + total (xs.take (n + 1))) then some ⟨acc + total xs⟩ else none := by
  induction xs generalizing acc with
  | nil => simp [foldCombine, total]
  | cons x xs ih =>
    simp only [List.map_cons, foldCombine, sumCombine]
    have tcons : ∀ ys, total (x :: ys) = x + total ys := fun ys => rfl
    by_cases hx : r.Has (acc + x)
    · rw [checked_of_has r hx]
      simp only [Option.map_some]
      rw [ih]
      have : (∀ n, n < xs.length → r.Has (acc + x + total (xs.take (n + 1)))) ↔
          (∀ n, n < (x :: xs).length → r.Has (acc + total ((x :: xs).take (n + 1)))) := by
        constructor
        · intro h n hn
          rw [List.take_succ_cons, tcons, ← Int.add_assoc]
          cases n with
          | zero => simpa [total] using hx
          | succ n => exact h n (by simpa using hn)
        · intro h n hn
          have := h (n + 1) (by simpa using hn)
          rwa [List.take_succ_cons, tcons, ← Int.add_assoc] at this
      rw [tcons, ← Int.add_assoc]
      by_cases hb : ∀ n, n < xs.length → r.Has (acc + x + total (xs.take (n + 1)))
      · rw [if_pos hb, if_pos (this.1 hb)]
      · rw [if_neg hb, if_neg (fun h => hb (this.2 h))]
    · rw [checked_of_not r hx, if_neg]
      · rfl
      · intro h
        have := h 0 (by simp)
        simp [total] at this
        exact hx this

/-- C88: `combine_all` and `mconcat` of sums add from left to right: they return the exact sum when every beginning of the
list has a sum that fits, and panic otherwise. -/
theorem c88_combine_all_sum (xs : List Int) (hr : ∀ x ∈ xs, r.Has x) :
    combineAll (sumCombine r) sumEmpty (xs.map Sum.mk) =
      if ∀ n, n ≤ xs.length → r.Has (total (xs.take n)) then some ⟨total xs⟩ else none := by
  have h0 : r.Has 0 := ⟨r.lo_le, r.le_hi⟩
  cases xs with
  | nil => simp [combineAll, sumEmpty, total, h0]
  | cons x xs =>
    have tcons : ∀ ys, total (x :: ys) = x + total ys := fun ys => rfl
    simp only [List.map_cons, combineAll]
    rw [foldCombine_sum]
    have : (∀ n, n < xs.length → r.Has (x + total (xs.take (n + 1)))) ↔
        (∀ n, n ≤ (x :: xs).length → r.Has (total ((x :: xs).take n))) := by
      constructor
      · intro h n hn
        cases n with
        | zero => simpa [total] using h0
        | succ n =>
          rw [List.take_succ_cons, tcons]
          cases n with
          | zero => simpa [total] using hr x (by simp)
          | succ n => exact h n (by simp at hn; omega)
      · intro h n hn
        have := h (n + 2) (by simp; omega)
        rwa [List.take_succ_cons, tcons] at this
    simp only [this, tcons]

/-- `[100, 27, -128]` fits in `i8` at every step; `[100, 28, -128]` does not. -/
example : (∀ x ∈ ([100, 27, -128] : List Int), Range.i8.Has x) ∧
    combineAll (sumCombine .i8) sumEmpty ([100, 27, -128].map Sum.mk) = some ⟨-1⟩ ∧
    combineAll (sumCombine .i8) sumEmpty ([100, 28, -128].map Sum.mk) = none := by decide

theorem foldCombine_times (acc : Int) (xs : List Int) :
    foldCombine (productCombine r) ⟨acc⟩ (xs.map Product.mk) =
      if ∀ n, n < xs.length → r.Has (acc * times (xs.take (n + 1))) then some ⟨acc * times xs⟩ else none := by
  induction xs generalizing acc with
  | nil => simp [foldCombine, times]
  | cons x xs ih =>
    simp only [List.map_cons, foldCombine, productCombine]
    have tcons : ∀ ys, times (x :: ys) = x * times ys := fun ys => rfl
    by_cases hx : r.Has (acc * x)
    · rw [checked_of_has r hx]
      simp only [Option.map_some]
      rw [ih]
      have : (∀ n, n < xs.length → r.Has (acc * x * times (xs.take (n + 1)))) ↔
          (∀ n, n < (x :: xs).length → r.Has (acc * times ((x :: xs).take (n + 1)))) := by
        constructor
        · intro h n hn
          rw [List.take_succ_cons, tcons, ← Int.mul_assoc]
          cases n with
          | zero => simpa [times] using hx
          | succ n => exact h n (by simpa using hn)
        · intro h n hn
          have := h (n + 1) (by simpa using hn)
          rwa [List.take_succ_cons, tcons, ← Int.mul_assoc] at this
      rw [tcons, ← Int.mul_assoc]
      by_cases hb : ∀ n, n < xs.length → r.Has (acc * x * times (xs.take (n + 1)))
      · rw [if_pos hb, if_pos (this.1 hb)]
      · rw [if_neg hb, if_neg (fun h => hb (this.2 h))]
    · rw [checked_of_not r hx, if_neg]
      · rfl
      · intro h
        have := h 0 (by simp)
        simp [times] at this
        exact hx this

/-- C88: `combine_all` and `mconcat` of products multiply from left to right: they return the exact product when every beginning of the
list has a product that fits, and panic otherwise. -/
theorem c88_combine_all_product (h1 : r.Has 1) (xs : List Int) (hr : ∀ x ∈ xs, r.Has x) :
    combineAll (productCombine r) productEmpty (xs.map Product.mk) =
      if ∀ n, n ≤ xs.length → r.Has (times (xs.take n)) then some ⟨times xs⟩ else none := by
  cases xs with
  | nil => simp [combineAll, productEmpty, times, h1]
  | cons x xs =>
    have tcons : ∀ ys, times (x :: ys) = x * times ys := fun ys => rfl
    simp only [List.map_cons, combineAll]
    rw [foldCombine_times]
    have : (∀ n, n < xs.length → r.Has (x * times (xs.take (n + 1)))) ↔
        (∀ n, n ≤ (x :: xs).length → r.Has (times ((x :: xs).take n))) := by
      constructor
      · intro h n hn
        cases n with
        | zero => simpa [times] using h1
        | succ n =>
          rw [List.take_succ_cons, tcons]
          cases n with
          | zero => simpa [times] using hr x (by simp)
          | succ n => exact h n (by simp at hn; omega)
      · intro h n hn
        have := h (n + 2) (by simp; omega)
        rwa [List.take_succ_cons, tcons] at this
    simp only [this, tcons]

/-- `[-16, 8, 1]` fits in `i8` at every step; `[16, 8, -1]` does not. -/
example : Range.i8.Has 1 ∧ (∀ x ∈ ([-16, 8, 1] : List Int), Range.i8.Has x) ∧
    combineAll (productCombine .i8) productEmpty ([-16, 8, 1].map Product.mk) = some ⟨-128⟩ ∧
    combineAll (productCombine .i8) productEmpty ([16, 8, -1].map Product.mk) = none := by decide

theorem total_replicate (a : Int) (n : Nat) : total (List.replicate n a) = n * a := by
  induction n with
  | zero => simp [total]
  | succ n ih =>
    simp only [List.replicate_succ, total, List.foldr_cons] at ih ⊢
    rw [ih, Int.natCast_add, Int.add_mul]
    omega

/-- C88: `repeat(Sum(a), n)` and `power` are `n * a` exactly when this fits. -/
theorem c88_repeat_sum (a : Int) (n : Nat) (h : r.Has a) :
    repeat' (sumCombine r) sumEmpty ⟨a⟩ n = (r.checked (n * a)).map Sum.mk := by
  have h0 : r.Has 0 := ⟨r.lo_le, r.le_hi⟩
  unfold repeat'
  split
  · next hn => subst hn; simp [sumEmpty, checked_of_has r h0]
  · split
    · next hn => subst hn; simp [checked_of_has r h]
    · next h1 h2 =>
      obtain ⟨m, rfl⟩ : ∃ m, n = m + 2 := ⟨n - 2, by omega⟩
      rw [show m + 2 - 1 = m + 1 from rfl,
        show List.replicate (m + 1) (Sum.mk a) = (List.replicate (m + 1) a).map Sum.mk by simp, foldCombine_sum,
        total_replicate]
      have e : a + ((m + 1 : Nat) : Int) * a = ((m + 2 : Nat) : Int) * a := by
        rw [show ((m + 2 : Nat) : Int) = 1 + ((m + 1 : Nat) : Int) by omega, Int.add_mul, Int.one_mul]
      by_cases hb : r.Has (((m + 2 : Nat) : Int) * a)
      · rw [checked_of_has r hb, if_pos, e]
        · rfl
        · intro k hk
          rw [List.take_replicate, total_replicate]
          simp only [List.length_replicate] at hk
          rw [Nat.min_eq_left (by omega)]
          have hle : ((k + 1 : Nat) : Int) ≤ ((m + 1 : Nat) : Int) := by omega
          have hlo := r.lo_le
          have hhi := r.le_hi
          have ek : a + ((k + 1 : Nat) : Int) * a = (1 + ((k + 1 : Nat) : Int)) * a := by
            rw [Int.add_mul, Int.one_mul]
          rw [ek]
          unfold Range.Has at hb h ⊢
          rcases Int.le_total 0 a with ha | ha
          · have q := Int.mul_le_mul_of_nonneg_right
              (show (1 + ((k + 1 : Nat) : Int)) ≤ ((m + 2 : Nat) : Int) by omega) ha
            have q2 := Int.mul_nonneg (show 0 ≤ 1 + ((k + 1 : Nat) : Int) by omega) ha
            omega
          · have q := Int.mul_le_mul_of_nonpos_right
              (show (1 + ((k + 1 : Nat) : Int)) ≤ ((m + 2 : Nat) : Int) by omega) ha
            have q2 := Int.mul_nonpos_of_nonneg_of_nonpos (show 0 ≤ 1 + ((k + 1 : Nat) : Int) by omega) ha
            omega
      · rw [checked_of_not r hb, if_neg]
        · rfl
        · intro hh
          have := hh m (by simp)
          rw [List.take_replicate, Nat.min_self, total_replicate, e] at this
          exact hb this

/-- `repeat(Sum(-64), 2)` is `-128` over `i8`. -/
example : Range.i8.Has (-64) ∧ repeat' (sumCombine .i8) sumEmpty ⟨-64⟩ 2 = some ⟨-128⟩ ∧
    repeat' (sumCombine .i8) sumEmpty ⟨-64⟩ 3 = none := by decide

/-- C88: `combine_n` of a sum is the same for at least one copy; `combine_n_owned` doubles instead. -/
theorem c88_combine_n_sum (a : Int) (n : Nat) (h : r.Has a) :
    combineN (sumCombine r) ⟨a⟩ (n + 1) = (r.checked ((n + 1 : Nat) * a)).map Sum.mk ∧
    combineNOwned (sumCombine r) ⟨a⟩ (n + 1) = (r.checked (2 ^ n * a)).map Sum.mk := by
  constructor
  · rw [← c88_repeat_sum r a (n + 1) h]
    unfold combineN repeat'
    cases n with
    | zero => simp [foldCombine]
    | succ n => simp
  · simp only [combineNOwned, Nat.add_one_ne_zero, if_false, Nat.add_sub_cancel]
    induction n generalizing a with
    | zero => simp [doubling, checked_of_has r h]
    | succ n ih =>
      simp only [doubling, sumCombine]
      have e : (2 : Int) ^ (n + 1) * a = 2 ^ n * (a + a) := by
        rw [Int.pow_succ, Int.mul_assoc]
        congr 1
        omega
      by_cases hb : r.Has (a + a)
      · rw [checked_of_has r hb]
        simp only [Option.map_some]
        rw [ih (a + a) hb, e]
      · rw [checked_of_not r hb, e, checked_of_not]
        · rfl
        · intro hc
          apply hb
          have hlo := r.lo_le
          have hhi := r.le_hi
          have hp : (1 : Int) ≤ 2 ^ n := Int.add_one_le_iff.2 (Int.pow_pos (by omega))
          unfold Range.Has at hc ⊢
          rcases Int.le_total 0 (a + a) with ha | ha
          · have := Int.mul_le_mul_of_nonneg_right hp ha
            omega
          · have := Int.mul_le_mul_of_nonpos_right hp ha
            omega

/-- Nine times one in a byte is 9 one way and overflows the other way. -/
example : Range.u8.Has 1 ∧ combineN (sumCombine .u8) ⟨1⟩ 9 = some ⟨9⟩ ∧
    combineNOwned (sumCombine .u8) ⟨1⟩ 9 = none ∧ combineNOwned (sumCombine .u8) ⟨1⟩ 8 = some ⟨128⟩ := by decide

/-- C88: zero copies are, for both and without a panic, the value itself. -/
theorem c88_combine_n_zero {M : Type} (combine : M → M → Option M) (x : M) :
    combineN combine x 0 = some x ∧ combineNOwned combine x 0 = some x := ⟨rfl, rfl⟩

/-- The ranges of the primitive integer types: unsigned or two's complement, with at least one and zero. -/
def Range.Machine (r : Range) : Prop := 1 ≤ r.hi ∧ (r.lo = 0 ∨ r.lo = -r.hi - 1)

theorem pow_neg_one (n : Nat) : (-1 : Int) ^ n = 1 ∨ (-1 : Int) ^ n = -1 := by
  induction n with
  | zero => simp
  | succ n ih => rw [Int.pow_succ]; omega

/-- A power that fits only has smaller powers that fit. -/
theorem has_pow_down (hm : r.Machine) {a : Int} (ha : r.Has a) (n : Nat) (h : r.Has (a ^ (n + 2))) :
    r.Has (a ^ (n + 1)) := by
  obtain ⟨hhi, hlo⟩ := hm
  rw [Int.pow_succ] at h
  generalize hp : a ^ (n + 1) = p at h
  unfold Range.Has at *
  rcases Int.lt_trichotomy a 0 with h0 | h0 | h0
  · by_cases h1 : a = -1
    · subst h1
      rcases pow_neg_one (n + 1) with e | e <;> omega
    · rcases Int.le_total 0 p with q | q
      · have := Int.mul_le_mul_of_nonneg_left (show a ≤ -2 by omega) q
        omega
      · have := Int.mul_le_mul_of_nonpos_left q (show a ≤ -2 by omega)
        omega
  · subst h0
    have : p = 0 := by rw [← hp, Int.pow_succ]; simp
    omega
  · rcases Int.le_total 0 p with q | q
    · have := Int.mul_le_mul_of_nonneg_left (show 1 ≤ a by omega) q
      omega
    · have := Int.mul_le_mul_of_nonpos_left q (show 1 ≤ a by omega)
      omega

theorem foldCombine_product (hm : r.Machine) {a : Int} (ha : r.Has a) (k m : Nat) (hk : r.Has (a ^ (k + 1))) :
    foldCombine (productCombine r) ⟨a ^ (k + 1)⟩ (List.replicate m ⟨a⟩) =
      (r.checked (a ^ (k + 1 + m))).map Product.mk := by
  induction m generalizing k with
  | zero => simp [foldCombine, checked_of_has r hk]
  | succ m ih =>
    simp only [List.replicate_succ, foldCombine, productCombine, ← Int.pow_succ]
    by_cases hb : r.Has (a ^ (k + 1 + 1))
    · rw [checked_of_has r hb]
      simp only [Option.map_some]
      rw [ih (k + 1) hb]
      congr 3
      omega
    · rw [checked_of_not r hb, checked_of_not]
      · rfl
      · intro hc
        have down : ∀ j, r.Has (a ^ (k + 2 + j)) → r.Has (a ^ (k + 2)) := by
          intro j
          induction j with
          | zero => exact id
          | succ j ihj =>
            intro h
            apply ihj
            have := has_pow_down r hm ha (k + 1 + j) (by rwa [show k + 1 + j + 2 = k + 2 + (j + 1) by omega])
            rwa [show k + 1 + j + 1 = k + 2 + j by omega] at this
        exact hb (down m (by rwa [show k + 2 + m = k + 1 + (m + 1) by omega]))

/-- C88: `repeat(Product(a), n)` and `power` are the `n`th power exactly when this fits. -/
theorem c88_power_product (hm : r.Machine) (a : Int) (n : Nat) (h : r.Has a) :
    repeat' (productCombine r) productEmpty ⟨a⟩ n = (r.checked (a ^ n)).map Product.mk := by
  have p1 : a ^ 1 = a := by rw [Int.pow_succ, Int.pow_zero, Int.one_mul]
  unfold repeat'
  split
  · next hn =>
    subst hn
    have h1 : r.Has 1 := ⟨Int.le_trans r.lo_le (by omega), hm.1⟩
    simp [productEmpty, checked_of_has r h1]
  · split
    · next hn => subst hn; simp [p1, checked_of_has r h]
    · next h1 h2 =>
      have := foldCombine_product r hm h 0 (n - 1) (by simpa [p1] using h)
      simp only [Nat.zero_add, p1] at this
      rw [this, show 1 + (n - 1) = n by omega]

/-- `power(Product(-2), 7)` is the smallest `i8`. -/
example : Range.i8.Machine ∧ Range.i8.Has (-2) ∧
    repeat' (productCombine .i8) productEmpty ⟨-2⟩ 7 = some ⟨-128⟩ ∧
    repeat' (productCombine .i8) productEmpty ⟨-2⟩ 8 = none := by
  refine ⟨⟨by decide, .inr (by decide)⟩, by decide, by decide, by decide⟩

/-- C88: `combine_n` of a product is the power for at least one copy; `combine_n_owned` squares instead. -/
theorem c88_combine_n_product (hm : r.Machine) (a : Int) (n : Nat) (h : r.Has a) :
    combineN (productCombine r) ⟨a⟩ (n + 1) = (r.checked (a ^ (n + 1))).map Product.mk ∧
    combineNOwned (productCombine r) ⟨a⟩ (n + 1) = (r.checked (a ^ 2 ^ n)).map Product.mk := by
  constructor
  · rw [← c88_power_product r hm a (n + 1) h]
    unfold combineN repeat'
    cases n with
    | zero => simp [foldCombine]
    | succ n => simp
  · simp only [combineNOwned, Nat.add_one_ne_zero, if_false, Nat.add_sub_cancel]
    induction n generalizing a with
    | zero => simp [doubling, Int.pow_succ, checked_of_has r h]
    | succ n ih =>
      simp only [doubling, productCombine]
      have p2 : a * a = a ^ 2 := by simp [Int.pow_succ]
      have e : a ^ 2 ^ (n + 1) = (a * a) ^ 2 ^ n := by
        rw [p2, ← Int.pow_mul, Nat.pow_succ, Nat.mul_comm]
      by_cases hb : r.Has (a * a)
      · rw [checked_of_has r hb]
        simp only [Option.map_some]
        rw [ih (a * a) hb, e]
      · rw [checked_of_not r hb, checked_of_not]
        · rfl
        · intro hc
          have down : ∀ j, r.Has (a ^ (2 + j)) → r.Has (a ^ 2) := by
            intro j
            induction j with
            | zero => exact id
            | succ j ihj =>
              intro hj
              apply ihj
              have := has_pow_down r hm h (1 + j) (by rwa [show 1 + j + 2 = 2 + (j + 1) by omega])
              rwa [show 1 + j + 1 = 2 + j by omega] at this
          have two : 2 ≤ 2 ^ (n + 1) := by
            have := Nat.one_le_two_pow (n := n)
            omega
          rw [p2] at hb
          exact hb (down (2 ^ (n + 1) - 2) (by rwa [show 2 + (2 ^ (n + 1) - 2) = 2 ^ (n + 1) by omega]))

/-- Three copies of -2 in `i8` are -8 one way and 16 the other way; four copies of 4 overflow both ways. -/
example : Range.i8.Machine ∧ Range.i8.Has (-2) ∧ combineN (productCombine .i8) ⟨-2⟩ 3 = some ⟨-8⟩ ∧
    combineNOwned (productCombine .i8) ⟨-2⟩ 3 = some ⟨16⟩ ∧ combineN (productCombine .i8) ⟨4⟩ 4 = none ∧
    combineNOwned (productCombine .i8) ⟨4⟩ 4 = none :=
  ⟨⟨by decide, .inr (by decide)⟩, by decide, by decide, by decide, by decide, by decide⟩

/-! ## Without overflow checks -/

theorem wrapped_has (i : Int) : r.Has (r.wrapped i) := by
  have hlo := r.lo_le
  have hhi := r.le_hi
  unfold Range.Has Range.wrapped
  have h1 := Int.emod_nonneg (i - r.lo) (show r.hi - r.lo + 1 ≠ 0 by omega)
  have h2 := Int.emod_lt_of_pos (i - r.lo) (show 0 < r.hi - r.lo + 1 by omega)
  omega

theorem wrapped_of_has {i : Int} (h : r.Has i) : r.wrapped i = i := by
  unfold Range.Has at h
  unfold Range.wrapped
  rw [Int.emod_eq_of_lt (by omega) (by omega)]
  omega

/-- Reducing keeps the value up to a multiple of the size of the type. -/
theorem wrapped_eq (i : Int) : ∃ k, r.wrapped i = i + k * (r.hi - r.lo + 1) := by
  refine ⟨-((i - r.lo) / (r.hi - r.lo + 1)), ?_⟩
  have h := Int.emod_add_mul_ediv (i - r.lo) (r.hi - r.lo + 1)
  rw [Int.mul_comm] at h
  unfold Range.wrapped
  rw [Int.neg_mul]
  omega

theorem wrapped_add_mul (i k : Int) : r.wrapped (i + k * (r.hi - r.lo + 1)) = r.wrapped i := by
  unfold Range.wrapped
  rw [show i + k * (r.hi - r.lo + 1) - r.lo = i - r.lo + k * (r.hi - r.lo + 1) by omega, Int.add_mul_emod_self_right]

theorem wrapped_add (i j : Int) : r.wrapped (r.wrapped i + r.wrapped j) = r.wrapped (i + j) := by
  obtain ⟨k, hk⟩ := wrapped_eq r i
  obtain ⟨l, hl⟩ := wrapped_eq r j
  rw [hk, hl, show i + k * (r.hi - r.lo + 1) + (j + l * (r.hi - r.lo + 1)) = i + j + (k + l) * (r.hi - r.lo + 1) by
    rw [Int.add_mul]; omega, wrapped_add_mul]

theorem wrapped_mul (i j : Int) : r.wrapped (r.wrapped i * r.wrapped j) = r.wrapped (i * j) := by
  obtain ⟨k, hk⟩ := wrapped_eq r i
  obtain ⟨l, hl⟩ := wrapped_eq r j
  rw [hk, hl]
  have : (i + k * (r.hi - r.lo + 1)) * (j + l * (r.hi - r.lo + 1)) =
      i * j + (i * l + k * j + k * l * (r.hi - r.lo + 1)) * (r.hi - r.lo + 1) := by
    generalize r.hi - r.lo + 1 = w
    simp only [Int.add_mul, Int.mul_add, Int.mul_assoc, Int.mul_comm w]
    omega
  rw [this, wrapped_add_mul]

/-- C88: without overflow checks no order of additions panics, and every order gives the exact sum reduced to the
range. -/
theorem c88_sum_wrapped (t : Brackets) (hr : ∀ x ∈ t.leaves, r.Has x) :
    t.evalW Sum.mk (sumCombineW r) = ⟨r.wrapped (total t.leaves)⟩ := by
  induction t with
  | leaf a =>
    have := hr a (by simp [Brackets.leaves])
    simp [Brackets.evalW, Brackets.leaves, total, wrapped_of_has r this]
  | node l s ihl ihs =>
    simp only [Brackets.leaves, List.mem_append] at hr
    rw [Brackets.evalW, ihl (fun x hx => hr x (.inl hx)), ihs (fun x hx => hr x (.inr hx)), Brackets.leaves,
      total_append, sumCombineW, wrapped_add]

/-- `(127 + 1) + -1` over `i8` goes to -128 and back. -/
example : (∀ x ∈ (Brackets.node (.node (.leaf 127) (.leaf 1)) (.leaf (-1))).leaves, Range.i8.Has x) ∧
    (Brackets.node (.node (.leaf 127) (.leaf 1)) (.leaf (-1))).evalW Sum.mk (sumCombineW .i8) = ⟨127⟩ := by decide

/-- C88: the same for products. -/
theorem c88_product_wrapped (t : Brackets) (hr : ∀ x ∈ t.leaves, r.Has x) :
    t.evalW Product.mk (productCombineW r) = ⟨r.wrapped (times t.leaves)⟩ := by
  induction t with
  | leaf a =>
    have := hr a (by simp [Brackets.leaves])
    simp [Brackets.evalW, Brackets.leaves, times, wrapped_of_has r this]
  | node l s ihl ihs =>
    simp only [Brackets.leaves, List.mem_append] at hr
    rw [Brackets.evalW, ihl (fun x hx => hr x (.inl hx)), ihs (fun x hx => hr x (.inr hx)), Brackets.leaves,
      times_append, productCombineW, wrapped_mul]

/-- `64 * (2 * 3) = 384` is -128 over `i8`. -/
example : (∀ x ∈ (Brackets.node (.leaf 64) (.node (.leaf 2) (.leaf 3))).leaves, Range.i8.Has x) ∧
    (Brackets.node (.leaf 64) (.node (.leaf 2) (.leaf 3))).evalW Product.mk (productCombineW .i8) = ⟨-128⟩ := by decide

/-- C88: so without overflow checks the law holds: two orders of the same values, permuted in any way, have equal
results. -/
theorem c88_release_laws (s t : Brackets) (hp : s.leaves.Perm t.leaves) (hr : ∀ x ∈ s.leaves, r.Has x) :
    s.evalW Sum.mk (sumCombineW r) = t.evalW Sum.mk (sumCombineW r) ∧
    s.evalW Product.mk (productCombineW r) = t.evalW Product.mk (productCombineW r) := by
  have hr' : ∀ x ∈ t.leaves, r.Has x := fun x hx => hr x (hp.mem_iff.2 hx)
  rw [c88_sum_wrapped r s hr, c88_sum_wrapped r t hr', c88_product_wrapped r s hr, c88_product_wrapped r t hr',
    total_perm hp, times_perm hp]
  exact ⟨rfl, rfl⟩

/-- Two orders of three `i8`. -/
example : (Brackets.node (.node (.leaf 127) (.leaf 1)) (.leaf (-1))).leaves.Perm
    (Brackets.node (.leaf (-1)) (.node (.leaf 1) (.leaf 127))).leaves ∧
    (∀ x ∈ (Brackets.node (.node (.leaf 127) (.leaf 1)) (.leaf (-1))).leaves, Range.i8.Has x) := by decide

/-- C88: the two builds agree wherever the checked one does not panic, in every order of combining. -/
theorem c88_builds_agree (t : Brackets) (hr : ∀ x ∈ t.leaves, r.Has x) :
    (∀ x, t.eval Sum.mk (sumCombine r) = some x → t.evalW Sum.mk (sumCombineW r) = x) ∧
    (∀ x, t.eval Product.mk (productCombine r) = some x → t.evalW Product.mk (productCombineW r) = x) := by
  have fitsS : ∀ (t : Brackets) (x : Sum Int), (∀ y ∈ t.leaves, r.Has y) → t.eval Sum.mk (sumCombine r) = some x →
      r.Has x.val := by
    intro t x hr h
    cases t with
    | leaf a => cases h; exact hr a (by simp [Brackets.leaves])
    | node l s =>
      simp only [Brackets.eval] at h
      split at h
      · simp only [sumCombine, Option.map_eq_some_iff] at h
        obtain ⟨j, hj, rfl⟩ := h
        have := checked_some r hj
        rw [this.1]; exact this.2
      · cases h
  have fitsP : ∀ (t : Brackets) (x : Product Int), (∀ y ∈ t.leaves, r.Has y) →
      t.eval Product.mk (productCombine r) = some x → r.Has x.val := by
    intro t x hr h
    cases t with
    | leaf a => cases h; exact hr a (by simp [Brackets.leaves])
    | node l s =>
      simp only [Brackets.eval] at h
      split at h
      · simp only [productCombine, Option.map_eq_some_iff] at h
        obtain ⟨j, hj, rfl⟩ := h
        have := checked_some r hj
        rw [this.1]; exact this.2
      · cases h
  constructor
  · intro x h
    have e := c88_sum_exact r t x h
    have f := fitsS t x hr h
    rw [c88_sum_wrapped r t hr, e]
    rw [e] at f
    exact congrArg Sum.mk (wrapped_of_has r f)
  · intro x h
    have e := c88_product_exact r t x h
    have f := fitsP t x hr h
    rw [c88_product_wrapped r t hr, e]
    rw [e] at f
    exact congrArg Product.mk (wrapped_of_has r f)

/-- `100 + 27` over `i8`. -/
example : (∀ x ∈ (Brackets.node (.leaf 100) (.leaf 27)).leaves, Range.i8.Has x) ∧
    (Brackets.node (.leaf 100) (.leaf 27)).eval Sum.mk (sumCombine .i8) = some ⟨127⟩ := by decide

end Rustica.Numbers
