import Verif.Spec.Laws
import Verif.Data.Std
import Verif.Data.Maps
import Verif.Data.Wrappers
import Verif.Data.Id
import Verif.Data.Writer
import Verif.Data.Validated
import Verif.Data.Choice
import Verif.Traits.Helpers

/-!
# C16–C21: semigroups, monoids, repetition, folding, map merges
-/

namespace Rustica
open Rustica

/-! ## C16: associativity -/

theorem c16_vec {T : Type} : SemigroupLaw (List T) := fun a b c => List.append_assoc a b c

theorem c16_string : SemigroupLaw String := fun _ _ _ => String.append_assoc

theorem c16_option {T : Type} [RSemigroup T] (h : SemigroupLaw T) : SemigroupLaw (Option T) := by
  intro a b c
  cases a <;> cases b <;> cases c <;> simp only [combine]
  exact congrArg some (h _ _ _)

theorem c16_pair {A B : Type} [RSemigroup A] [RSemigroup B] (hA : SemigroupLaw A) (hB : SemigroupLaw B) :
    SemigroupLaw (A × B) := by
  intro a b c
  exact Prod.ext (hA _ _ _) (hB _ _ _)

theorem c16_triple {A B C : Type} [RSemigroup A] [RSemigroup B] [RSemigroup C]
    (hA : SemigroupLaw A) (hB : SemigroupLaw B) (hC : SemigroupLaw C) : SemigroupLaw (Triple A B C) := by
  intro a b c
  show Triple.mk _ _ _ = Triple.mk _ _ _
  exact congr (congr (congrArg Triple.mk (hA _ _ _)) (hB _ _ _)) (hC _ _ _)

theorem c16_quad {A B C D : Type} [RSemigroup A] [RSemigroup B] [RSemigroup C] [RSemigroup D]
    (hA : SemigroupLaw A) (hB : SemigroupLaw B) (hC : SemigroupLaw C) (hD : SemigroupLaw D) :
    SemigroupLaw (Quad A B C D) := by
  intro a b c
  show Quad.mk _ _ _ _ = Quad.mk _ _ _ _
  exact congr (congr (congr (congrArg Quad.mk (hA _ _ _)) (hB _ _ _)) (hC _ _ _)) (hD _ _ _)

theorem c16_first {T : Type} : SemigroupLaw (First T) := by
  rintro ⟨_ | a⟩ ⟨_ | b⟩ ⟨_ | c⟩ <;> rfl

theorem c16_last {T : Type} : SemigroupLaw (Last T) := by
  rintro ⟨_ | a⟩ ⟨_ | b⟩ ⟨_ | c⟩ <;> rfl

section ord
variable {T : Type} [ROrd T] (h : ROrdLaws T)
include h

theorem cmp_gt_iff (a b : T) : ROrd.cmp a b = .gt ↔ ROrd.cmp b a = .lt := by
  rw [h.swap a b]
  cases ROrd.cmp a b <;> simp [Ordering.swap]

theorem cmp_trans_gt {a b c : T} (hab : ROrd.cmp a b = .gt) (hbc : ROrd.cmp b c = .gt) :
    ROrd.cmp a c = .gt := by
  -- c ≤ b ≤ a, and equality is impossible
  have h1 : ROrd.cmp c b ≠ .gt := by rw [(cmp_gt_iff h b c).1 hbc]; simp
  have h2 : ROrd.cmp b a ≠ .gt := by rw [(cmp_gt_iff h a b).1 hab]; simp
  have h3 := h.trans _ _ _ h1 h2
  rcases hc : ROrd.cmp c a with _ | _ | _
  · exact (cmp_gt_iff h a c).2 hc
  · have : c = a := (h.eq_iff _ _).1 hc
    subst this
    rw [(cmp_gt_iff h _ _).1 hbc] at hab
    cases hab
  · exact absurd hc h3

theorem c16_min : SemigroupLaw (Min T) := by
  rintro ⟨a⟩ ⟨b⟩ ⟨c⟩
  simp only [combine]
  rcases hab : ROrd.cmp a b with _ | _ | _ <;> rcases hbc : ROrd.cmp b c with _ | _ | _ <;>
    simp only [hab, hbc]
  all_goals rcases hac : ROrd.cmp a c with _ | _ | _ <;> simp only
  all_goals first
    | rfl
    | exact absurd hac (h.trans a b c (by rw [hab]; simp) (by rw [hbc]; simp))
    | (rw [(cmp_trans_gt h hab hbc)] at hac; cases hac)
    | (have := (h.eq_iff _ _).1 hac; subst this; rfl)

theorem c16_max : SemigroupLaw (Max T) := by
  rintro ⟨a⟩ ⟨b⟩ ⟨c⟩
  have tr : ∀ x y z : T, ROrd.cmp x y = .lt → ROrd.cmp y z = .lt → ROrd.cmp x z = .lt := by
    intro x y z hxy hyz
    exact (cmp_gt_iff h _ _).1 (cmp_trans_gt h ((cmp_gt_iff h _ _).2 hyz) ((cmp_gt_iff h _ _).2 hxy))
  have ge : ∀ x y z : T, ROrd.cmp x y ≠ .lt → ROrd.cmp y z ≠ .lt → ROrd.cmp x z ≠ .lt := by
    intro x y z hxy hyz hxz
    have h1 : ROrd.cmp z y ≠ .gt := fun hh => hyz ((cmp_gt_iff h _ _).1 hh)
    have h2 : ROrd.cmp y x ≠ .gt := fun hh => hxy ((cmp_gt_iff h _ _).1 hh)
    exact h.trans _ _ _ h1 h2 ((cmp_gt_iff h _ _).2 hxz)
  simp only [combine]
  rcases hab : ROrd.cmp a b with _ | _ | _ <;> rcases hbc : ROrd.cmp b c with _ | _ | _ <;>
    simp only [hab, hbc]
  all_goals rcases hac : ROrd.cmp a c with _ | _ | _ <;> simp only
  all_goals first
    | rfl
    | exact absurd hac (ge a b c (by rw [hab]; simp) (by rw [hbc]; simp))
    | (rw [(tr _ _ _ hab hbc)] at hac; cases hac)
    | (have := (h.eq_iff _ _).1 hac; subst this; rfl)
end ord

theorem c16_sum {T : Type} [Add T] (h : ∀ a b c : T, a + b + c = a + (b + c)) : SemigroupLaw (Sum T) :=
  fun a b c => congrArg Sum.mk (h a.val b.val c.val)

theorem c16_product {T : Type} [Mul T] (h : ∀ a b c : T, a * b * c = a * (b * c)) :
    SemigroupLaw (Product T) :=
  fun a b c => congrArg Product.mk (h a.val b.val c.val)

theorem c16_predicate {A : Type} : SemigroupLaw (Predicate A) := by
  intro p q r
  simp only [combine, Predicate.union, Bool.or_assoc]

theorem c16_id {T : Type} [RSemigroup T] (h : SemigroupLaw T) : SemigroupLaw (RId T) :=
  fun a b c => congrArg RId.mk (h a.value b.value c.value)

theorem c16_writer {W A : Type} [RMonoid W] [RMonoid A] (hW : SemigroupLaw W) (hA : SemigroupLaw A) :
    SemigroupLaw (Writer W A) := by
  intro a b c
  show Writer.mk _ _ = Writer.mk _ _
  exact congr (congrArg Writer.mk (hW _ _ _)) (hA _ _ _)

theorem c16_validated {E A : Type} : SemigroupLaw (Validated E A) := by
  intro a b c
  cases a <;> cases b <;> cases c <;> simp [combine]

namespace Choice
theorem combine_values {T : Type} (a b : Choice T) : (combine a b).values = a.values ++ b.values := by
  obtain ⟨a⟩ := a
  obtain ⟨b⟩ := b
  simp only [combine, combine']
  cases a <;> cases b <;> simp [new]

theorem ext' {T : Type} {a b : Choice T} (h : a.values = b.values) : a = b := by
  cases a; cases b; exact congrArg _ h
end Choice

theorem c16_choice {T : Type} : SemigroupLaw (Choice T) := by
  intro a b c
  apply Choice.ext'
  simp only [Choice.combine_values, List.append_assoc]

/-- The instances for built-up types have non-trivial instances of their own. -/
example : SemigroupLaw (Option (List Nat)) ∧ SemigroupLaw (List Nat × String) ∧ SemigroupLaw (Triple (List Nat) String (First Nat)) ∧
    SemigroupLaw (Quad (List Nat) String (First Nat) (Last Nat)) ∧ SemigroupLaw (RId String) ∧
    SemigroupLaw (Writer (List Nat) String) :=
  ⟨c16_option c16_vec, c16_pair c16_vec c16_string, c16_triple c16_vec c16_string c16_first,
    c16_quad c16_vec c16_string c16_first c16_last, c16_id c16_string, c16_writer c16_vec c16_string⟩

example : SemigroupLaw (Sum Nat) ∧ SemigroupLaw (Product Nat) := ⟨c16_sum Nat.add_assoc, c16_product Nat.mul_assoc⟩

/-! `Nat` and `Int` with their usual comparison satisfy the ordering laws assumed above, so the hypotheses
are satisfiable, and concrete triples of every kind exist. -/

theorem ordLaws_int : ROrdLaws Int where
  eq_iff := by intro a b; show compare a b = .eq ↔ a = b; simp
  swap := by intro a b; show compare b a = (compare a b).swap; rw [← Int.compare_swap]
  trans := by
    intro a b c
    show compare a b ≠ .gt → compare b c ≠ .gt → compare a c ≠ .gt
    simp only [ne_eq, Int.compare_eq_gt]
    omega

example : SemigroupLaw (Max Int) := c16_max ordLaws_int

example : combine (combine (Min.mk (5 : Int)) ⟨-2⟩) ⟨7⟩ = combine (Min.mk 5) (combine ⟨-2⟩ ⟨7⟩) :=
  c16_min ordLaws_int _ _ _
example : combine (Max.mk (5 : Int)) ⟨-2⟩ = ⟨5⟩ ∧ combine (Min.mk (5 : Int)) ⟨-2⟩ = ⟨-2⟩ := by decide
example : combine (combine (Validated.Invalid ["a"] : Validated String Nat) (.Invalid ["b"])) (.Invalid ["c"])
    = .Invalid ["a", "b", "c"] := by decide

/-! ## C17: identities -/

theorem c17_vec {T : Type} : MonoidLaw (List T) := fun a => ⟨rfl, List.append_nil a⟩

theorem c17_string : MonoidLaw String := fun _ => ⟨String.empty_append, String.append_empty⟩

theorem c17_first {T : Type} : MonoidLaw (First T) := by
  rintro ⟨_ | a⟩ <;> exact ⟨rfl, rfl⟩

theorem c17_last {T : Type} : MonoidLaw (Last T) := by
  rintro ⟨_ | a⟩ <;> exact ⟨rfl, rfl⟩

/-- `Sum`: exactly when `T::default()` is a zero of `+`. -/
theorem c17_sum {T : Type} [Add T] [Inhabited T] :
    MonoidLaw (Sum T) ↔ ∀ a : T, default + a = a ∧ a + default = a :=
  ⟨fun h a => ⟨congrArg Sum.val (h ⟨a⟩).1, congrArg Sum.val (h ⟨a⟩).2⟩,
    fun h a => ⟨congrArg Sum.mk (h a.val).1, congrArg Sum.mk (h a.val).2⟩⟩

/-- `Product`: exactly when `T::from(1)` is a one of `*`. -/
theorem c17_product {T : Type} [Mul T] [RFromU8 T] :
    MonoidLaw (Product T) ↔ ∀ a : T, RFromU8.ofU8 1 * a = a ∧ a * RFromU8.ofU8 1 = a :=
  ⟨fun h a => ⟨congrArg Product.val (h ⟨a⟩).1, congrArg Product.val (h ⟨a⟩).2⟩,
    fun h a => ⟨congrArg Product.mk (h a.val).1, congrArg Product.mk (h a.val).2⟩⟩

theorem c17_predicate {A : Type} : MonoidLaw (Predicate A) := by
  intro p
  simp [combine, Predicate.union, RMonoid.empty]

theorem c17_id {T : Type} [RMonoid T] (h : MonoidLaw T) : MonoidLaw (RId T) :=
  fun a => ⟨congrArg RId.mk (h a.value).1, congrArg RId.mk (h a.value).2⟩

theorem c17_writer {W A : Type} [RMonoid W] [RMonoid A] (hW : MonoidLaw W) (hA : MonoidLaw A) :
    MonoidLaw (Writer W A) := by
  intro a
  obtain ⟨l, v⟩ := a
  exact ⟨congr (congrArg Writer.mk (hW l).1) (hA v).1, congr (congrArg Writer.mk (hW l).2) (hA v).2⟩

theorem c17_validated {E A : Type} : MonoidLaw (Validated E A) := by
  intro a
  cases a <;> simp [combine, RMonoid.empty]

theorem c17_choice {T : Type} : MonoidLaw (Choice T) := by
  intro a
  constructor <;> apply Choice.ext' <;> rw [Choice.combine_values] <;> simp [RMonoid.empty, Choice.newEmpty]

example : MonoidLaw (RId String) := c17_id c17_string

example : MonoidLaw (Sum Int) := c17_sum.2 (fun a => ⟨Int.zero_add a, Int.add_zero a⟩)
example : MonoidLaw (Product Int) := c17_product.2 (fun a => ⟨Int.one_mul a, Int.mul_one a⟩)
example : MonoidLaw (Writer (List Nat) String) := c17_writer c17_vec c17_string

/-- `Min::empty()` is `Min(T::default())`.  For integers (default `0`) it is not an identity. -/
theorem c17_min_false : ¬ MonoidLaw (Min Int) := by
  intro h
  exact absurd (h ⟨5⟩).1 (by decide)

/-- `Max::empty()` is `Max(T::default())`.  For signed integers it is not an identity. -/
theorem c17_max_false : ¬ MonoidLaw (Max Int) := by
  intro h
  exact absurd (h ⟨-5⟩).1 (by decide)

/-- Even for natural numbers (unsigned integers) `Min` has no identity this way. -/
theorem c17_min_unsigned_false : ¬ MonoidLaw (Min Nat) := by
  intro h
  exact absurd (h ⟨5⟩).1 (by decide)

/-- `Min`: the identity laws hold exactly when the default value is the greatest element. -/
theorem c17_min_iff_partial {T : Type} [ROrd T] [Inhabited T] (h : ROrdLaws T) :
    MonoidLaw (Min T) ↔ ∀ a : T, ROrd.cmp a default ≠ .gt := by
  constructor
  · intro hm a hgt
    have := congrArg Min.val (hm ⟨a⟩).2
    simp only [combine, RMonoid.empty, hgt] at this
    have h2 := (h.eq_iff a default).2 this.symm
    rw [h2] at hgt; cases hgt
  · rintro ha ⟨a⟩
    have h1 := ha a
    have h2 := h.swap a default
    constructor <;> simp only [combine, RMonoid.empty]
    · rcases hc : ROrd.cmp a default with _ | _ | _
      · rw [hc] at h2; simp only [Ordering.swap] at h2; rw [h2]
      · rw [hc] at h2; simp only [Ordering.swap] at h2; rw [h2]
        rw [(h.eq_iff _ _).1 hc]
      · exact absurd hc h1
    · rcases hc : ROrd.cmp a default with _ | _ | _ <;> first | rfl | exact absurd hc h1

/-- `Max`: the identity laws hold exactly when the default value is the least element (true for unsigned
integers). -/
theorem c17_max_iff_partial {T : Type} [ROrd T] [Inhabited T] (h : ROrdLaws T) :
    MonoidLaw (Max T) ↔ ∀ a : T, ROrd.cmp a default ≠ .lt := by
  constructor
  · intro hm a hlt
    have := congrArg Max.val (hm ⟨a⟩).2
    simp only [combine, RMonoid.empty, hlt] at this
    have h2 := (h.eq_iff a default).2 this.symm
    rw [h2] at hlt; cases hlt
  · rintro ha ⟨a⟩
    have h1 := ha a
    have h2 := h.swap a default
    constructor <;> simp only [combine, RMonoid.empty]
    · rcases hc : ROrd.cmp a default with _ | _ | _
      · exact absurd hc h1
      · rw [hc] at h2; simp only [Ordering.swap] at h2; rw [h2]
        rw [(h.eq_iff _ _).1 hc]
      · rw [hc] at h2; simp only [Ordering.swap] at h2; rw [h2]
    · rcases hc : ROrd.cmp a default with _ | _ | _ <;> first | rfl | exact absurd hc h1

theorem ordLaws_nat : ROrdLaws Nat where
  eq_iff := by intro a b; show compare a b = .eq ↔ a = b; simp
  swap := by intro a b; show compare b a = (compare a b).swap; rw [← Nat.compare_swap]
  trans := by
    intro a b c
    show compare a b ≠ .gt → compare b c ≠ .gt → compare a c ≠ .gt
    simp only [ne_eq, Nat.compare_eq_gt]
    omega

example : ¬ ∀ a : Nat, ROrd.cmp a default ≠ .gt := fun h => c17_min_unsigned_false ((c17_min_iff_partial ordLaws_nat).2 h)
example : MonoidLaw (Max Nat) :=
  (c17_max_iff_partial ordLaws_nat).2 (fun a => by
    show compare a 0 ≠ .lt
    simp only [ne_eq, Nat.compare_eq_lt]; omega)

/-! ## C18: `combine_owned` agrees with `combine` -/

theorem c18_vec {T : Type} : OwnedAgrees (List T) := fun _ _ => rfl
theorem c18_string : OwnedAgrees String := fun _ _ => rfl
theorem c18_option {T : Type} [RSemigroup T] (h : OwnedAgrees T) : OwnedAgrees (Option T) := by
  intro a b
  cases a <;> cases b <;> simp only [combine, combineOwned]
  exact congrArg some (h _ _)
theorem c18_pair {A B : Type} [RSemigroup A] [RSemigroup B] (hA : OwnedAgrees A) (hB : OwnedAgrees B) :
    OwnedAgrees (A × B) := fun _ _ => Prod.ext (hA _ _) (hB _ _)
theorem c18_triple {A B C : Type} [RSemigroup A] [RSemigroup B] [RSemigroup C] (hA : OwnedAgrees A)
    (hB : OwnedAgrees B) (hC : OwnedAgrees C) : OwnedAgrees (Triple A B C) := fun a b => by
  show Triple.mk _ _ _ = Triple.mk _ _ _
  exact congr (congr (congrArg Triple.mk (hA _ _)) (hB _ _)) (hC _ _)
theorem c18_quad {A B C D : Type} [RSemigroup A] [RSemigroup B] [RSemigroup C] [RSemigroup D]
    (hA : OwnedAgrees A) (hB : OwnedAgrees B) (hC : OwnedAgrees C) (hD : OwnedAgrees D) :
    OwnedAgrees (Quad A B C D) := fun a b => by
  show Quad.mk _ _ _ _ = Quad.mk _ _ _ _
  exact congr (congr (congr (congrArg Quad.mk (hA _ _)) (hB _ _)) (hC _ _)) (hD _ _)
theorem c18_first {T : Type} : OwnedAgrees (First T) := by rintro ⟨_ | a⟩ ⟨_ | b⟩ <;> rfl
theorem c18_last {T : Type} : OwnedAgrees (Last T) := by rintro ⟨_ | a⟩ ⟨_ | b⟩ <;> rfl
theorem c18_min {T : Type} [ROrd T] : OwnedAgrees (Min T) := by
  rintro ⟨a⟩ ⟨b⟩
  simp only [combine, combineOwned]
theorem c18_max {T : Type} [ROrd T] : OwnedAgrees (Max T) := by
  rintro ⟨a⟩ ⟨b⟩
  simp only [combine, combineOwned]
theorem c18_sum {T : Type} [Add T] : OwnedAgrees (Sum T) := fun _ _ => rfl
theorem c18_product {T : Type} [Mul T] : OwnedAgrees (Product T) := fun _ _ => rfl
theorem c18_predicate {A : Type} : OwnedAgrees (Predicate A) := fun _ _ => rfl
theorem c18_id {T : Type} [RSemigroup T] (h : OwnedAgrees T) : OwnedAgrees (RId T) :=
  fun a b => congrArg RId.mk (h a.value b.value)
theorem c18_writer {W A : Type} [RMonoid W] [RMonoid A] (hW : OwnedAgrees W) (hA : OwnedAgrees A) :
    OwnedAgrees (Writer W A) := fun a b => by
  show Writer.mk _ _ = Writer.mk _ _
  exact congr (congrArg Writer.mk (hW _ _)) (hA _ _)
theorem c18_validated {E A : Type} : OwnedAgrees (Validated E A) := by
  intro a b
  cases a <;> cases b <;> rfl
theorem c18_choice {T : Type} : OwnedAgrees (Choice T) := by
  rintro ⟨a⟩ ⟨b⟩
  cases a <;> cases b <;> rfl

example : OwnedAgrees (Option (List Nat)) ∧ OwnedAgrees (List Nat × String) ∧ OwnedAgrees (Triple (List Nat) String (First Nat)) ∧
    OwnedAgrees (Quad (List Nat) String (First Nat) (Last Nat)) ∧ OwnedAgrees (RId String) :=
  ⟨c18_option c18_vec, c18_pair c18_vec c18_string, c18_triple c18_vec c18_string c18_first,
    c18_quad c18_vec c18_string c18_first c18_last, c18_id c18_string⟩

example : OwnedAgrees (Writer (List Nat) String) := c18_writer c18_vec c18_string

/-! ## C19: repetition -/

/-- The specification: `n` copies of `x` (`n ≥ 1`), bracketed to the left. -/
def copies {T : Type} [RSemigroup T] (x : T) : Nat → T
  | 0 => x
  | n + 1 => combine (copies x n) x

theorem loopFrom1_succ {S : Type} (step : S → S) (acc : S) (n : Nat) :
    loopFrom1 (n + 2) step acc = step (loopFrom1 (n + 1) step acc) := by
  simp [loopFrom1, List.range_succ]

theorem loopFrom1_one {S : Type} (step : S → S) (acc : S) : loopFrom1 1 step acc = acc := rfl

/-- `combine_n(n)` combines exactly `n` copies, for every `n ≥ 1` (`copies x k` has `k + 1` copies). -/
theorem c19_combine_n {T : Type} [RSemigroup T] (x : T) (n : Nat) :
    combineN x (n + 1) = copies x n := by
  simp only [combineN, Nat.add_one_ne_zero, if_false]
  induction n with
  | zero => rfl
  | succ n ih => rw [loopFrom1_succ, ih]; rfl

/-- In the free monoid: `combine_n(n)` of a list is `n` copies of it, written independently of `copies`. -/
theorem c19_combine_n_list {A : Type} (x : List A) (n : Nat) (hn : 1 ≤ n) :
    combineN x n = (List.replicate n x).flatten := by
  obtain ⟨k, rfl⟩ : ∃ k, n = k + 1 := ⟨n - 1, by omega⟩
  rw [c19_combine_n]
  clear hn
  induction k with
  | zero => simp [copies]
  | succ k ih =>
    rw [List.replicate_succ', List.flatten_append, ← ih]
    simp [copies, combine]

example : combineN [1, 2] 3 = [1, 2, 1, 2, 1, 2] := c19_combine_n_list [1, 2] 3 (by decide)

/-- `combine_n_owned` doubles instead: with `n = 3` it combines four copies. -/
theorem c19_combine_n_owned_false :
    ¬ ∀ (x : List Nat) (n : Nat), 1 ≤ n → combineNOwned x n = (List.replicate n x).flatten := by
  intro h
  exact absurd (h [7] 3 (by decide)) (by decide)

/-- What `combine_n_owned` computes for a list: `2 ^ (n - 1)` copies. -/
theorem c19_combine_n_owned_list {A : Type} (x : List A) (n : Nat) (hn : 1 ≤ n) :
    combineNOwned x n = (List.replicate (2 ^ (n - 1)) x).flatten := by
  obtain ⟨k, rfl⟩ : ∃ k, n = k + 1 := ⟨n - 1, by omega⟩
  simp only [combineNOwned, Nat.add_one_ne_zero, if_false, Nat.add_sub_cancel]
  clear hn
  induction k with
  | zero => simp [loopFrom1]
  | succ k ih =>
    rw [loopFrom1_succ, ih, Nat.pow_succ, Nat.mul_two, ← List.replicate_append_replicate, List.flatten_append]
    rfl

example : combineNOwned [1, 2] 3 = [1, 2, 1, 2, 1, 2, 1, 2] := c19_combine_n_owned_list [1, 2] 3 (by decide)

/-- `combine_n_owned` is right for `n ≤ 2`, and in general for exactly the `n` with `2 ^ (n-1) = n`:
for a one-element list the number of copies is the length. -/
theorem c19_combine_n_owned_partial {A : Type} (a : A) (n : Nat) (hn : 1 ≤ n) :
    combineNOwned [a] n = (List.replicate n [a]).flatten ↔ n ≤ 2 := by
  rw [c19_combine_n_owned_list _ _ hn]
  have key : ∀ m : Nat, (List.replicate m [a]).flatten = List.replicate m a := by
    intro m
    induction m with
    | zero => rfl
    | succ m ih => simp [List.replicate_succ, ih]
  rw [key, key]
  constructor
  · intro h
    have hl := congrArg List.length h
    simp only [List.length_replicate] at hl
    have hk : ∀ k : Nat, 2 ≤ k → k + 1 < 2 ^ k := by
      intro k hk
      induction k with
      | zero => omega
      | succ k ih =>
        by_cases h2 : k = 1
        · subst h2; decide
        · have := ih (by omega); rw [Nat.pow_succ]; omega
    rcases Nat.lt_or_ge 2 n with h3 | h3
    · have := hk (n - 1) (by omega); omega
    · exact h3
  · intro h
    have : n = 1 ∨ n = 2 := by omega
    rcases this with rfl | rfl <;> rfl

example : combineNOwned [7] 3 ≠ [7, 7, 7] := fun h => absurd ((c19_combine_n_owned_partial 7 3 (by decide)).1 h) (by decide)

/-- `n = 0` returns the value itself in both. -/
theorem c19_zero {T : Type} [RSemigroup T] (x : T) : combineN x 0 = x ∧ combineNOwned x 0 = x := ⟨rfl, rfl⟩

/-- `repeat(x, n)` and `power(x, n)`: `empty()` for 0, otherwise exactly `n` copies. -/
theorem c19_repeat {M : Type} [RMonoid M] (ho : OwnedAgrees M) (x : M) :
    repeat' x 0 = RMonoid.empty ∧ power x 0 = RMonoid.empty ∧
    ∀ n, repeat' x (n + 1) = copies x n ∧ power x (n + 1) = copies x n := by
  refine ⟨rfl, rfl, ?_⟩
  have hrep : ∀ n, repeat' x (n + 1) = copies x n := by
    intro n
    rw [← c19_combine_n]
    cases n with
    | zero => rfl
    | succ n =>
      have hf : (fun result : M => combineOwned result x) = fun acc => combine acc x := by
        funext r; exact ho r x
      simp [repeat', combineN, hf]
  intro n
  refine ⟨hrep n, ?_⟩
  cases n with
  | zero => rfl
  | succ n => exact hrep (n + 1)

example : repeat' "ab" 3 = "ababab" := ((c19_repeat c18_string "ab").2.2 2).1.trans (by decide +kernel)

/-- The same in the free monoid, for every `n ≥ 0`. -/
theorem c19_repeat_list {A : Type} (x : List A) (n : Nat) :
    repeat' x n = (List.replicate n x).flatten ∧ power x n = (List.replicate n x).flatten := by
  cases n with
  | zero => exact ⟨rfl, rfl⟩
  | succ n =>
    have h := (c19_repeat c18_vec x).2.2 n
    rw [h.1, h.2, ← c19_combine_n, c19_combine_n_list x (n + 1) (by omega)]
    exact ⟨rfl, rfl⟩

example : combineN [1, 2] 3 = [1, 2, 1, 2, 1, 2] ∧ combineNOwned [1] 4 = [1, 1, 1, 1, 1, 1, 1, 1] := by
  decide

/-! ## C20: folding helpers -/

/-- The specification: left-to-right combine of a non-empty sequence. -/
def combineSeq {T : Type} [RSemigroup T] (x : T) : List T → T
  | [] => x
  | y :: ys => combineSeq (combine x y) ys

theorem foldl_owned {T : Type} [RSemigroup T] (ho : OwnedAgrees T) (xs : List T) (x : T) :
    xs.foldl (fun acc x => combineOwned acc x) x = combineSeq x xs := by
  induction xs generalizing x with
  | nil => rfl
  | cons y ys ih => rw [List.foldl_cons, ho, ih]; rfl

theorem foldl_combine {T : Type} [RSemigroup T] (xs : List T) (x : T) :
    xs.foldl (fun acc x => combine acc x) x = combineSeq x xs := by
  induction xs generalizing x with
  | nil => rfl
  | cons y ys ih => rw [List.foldl_cons, ih]; rfl

/-- All semigroup helpers are the left-to-right combine; the empty sequence gives `None` (or the panic of
`combine_all_owned`). -/
theorem c20_semigroup {T : Type} [RSemigroup T] (ho : OwnedAgrees T) (x : T) (xs : List T) :
    combineAllFrom x xs = combineSeq x xs ∧ combineValues x xs = combineSeq x xs ∧
    combineAllValues (x :: xs) = some (combineSeq x xs) ∧ combineAllOwned (x :: xs) = some (combineSeq x xs) ∧
    combineAllValues ([] : List T) = none ∧ combineAllOwned ([] : List T) = none := by
  refine ⟨foldl_owned ho _ _, foldl_owned ho _ _, ?_, ?_, rfl, rfl⟩ <;>
    exact congrArg some (foldl_owned ho _ _)

example : combineAllValues ["a", "b", "c"] = some (("a" ++ "b") ++ "c") := (c20_semigroup c18_string "a" ["b", "c"]).2.2.1

/-- All monoid helpers are the left-to-right combine; the empty sequence gives `empty()`. -/
theorem c20_monoid {M : Type} [RMonoid M] (ho : OwnedAgrees M) (x : M) (xs : List M) :
    combineAll (x :: xs) = combineSeq x xs ∧ mconcat (x :: xs) = combineSeq x xs ∧
    combineAll ([] : List M) = RMonoid.empty ∧ mconcat ([] : List M) = RMonoid.empty :=
  ⟨foldl_owned ho _ _, foldl_combine _ _, rfl, rfl⟩

example : mconcat ["a", "b", "c"] = ("a" ++ "b") ++ "c" := (c20_monoid c18_string "a" ["b", "c"]).2.1

theorem c20_fold_with {T M : Type} [RMonoid M] (f : T → M) (x : T) (xs : List T) :
    foldWith f (x :: xs) = combineSeq (f x) (xs.map f) ∧ foldWith f [] = RMonoid.empty := by
  refine ⟨?_, rfl⟩
  show xs.foldl (fun acc x => combine acc (f x)) (f x) = _
  rw [← foldl_combine, List.foldl_map]

theorem combineSeq_assoc {T : Type} [RSemigroup T] (h : SemigroupLaw T) (a b : T) (xs : List T) :
    combineSeq (combine a b) xs = combine a (combineSeq b xs) := by
  induction xs generalizing b with
  | nil => rfl
  | cons y ys ih =>
    show combineSeq (combine (combine a b) y) ys = _
    rw [h, ih]; rfl

theorem combineSeq_append {T : Type} [RSemigroup T] (h : SemigroupLaw T) (x y : T) (xs ys : List T) :
    combineSeq x (xs ++ y :: ys) = combine (combineSeq x xs) (combineSeq y ys) := by
  induction xs generalizing x with
  | nil => exact combineSeq_assoc h x y ys
  | cons z zs ih => exact ih (combine x z)

/-- `combine_all` over a concatenation is the combine of the two `combine_all`s. -/
theorem c20_append {M : Type} [RMonoid M] (ho : OwnedAgrees M) (ha : SemigroupLaw M) (hi : MonoidLaw M)
    (xs ys : List M) :
    combineAll (xs ++ ys) = combine (combineAll xs) (combineAll ys) ∧
    mconcat (xs ++ ys) = combine (mconcat xs) (mconcat ys) := by
  have hm : ∀ zs : List M, mconcat zs = combineAll zs := by
    intro zs
    cases zs with
    | nil => rfl
    | cons z zs => rw [(c20_monoid ho z zs).1, (c20_monoid ho z zs).2.1]
  have hc : combineAll (xs ++ ys) = combine (combineAll xs) (combineAll ys) := by
    cases xs with
    | nil => exact (hi _).1.symm
    | cons x xs =>
      cases ys with
      | nil => rw [List.append_nil]; exact (hi _).2.symm
      | cons y ys =>
        rw [List.cons_append, (c20_monoid ho _ _).1, (c20_monoid ho _ _).1, (c20_monoid ho _ _).1]
        exact combineSeq_append ha x y xs ys
  exact ⟨hc, by rw [hm, hm, hm]; exact hc⟩

example : mconcat (["a", "b"] ++ ["c", "d"]) = combine (mconcat ["a", "b"]) (mconcat ["c", "d"]) :=
  (c20_append c18_string c16_string c17_string _ _).2

/-- A binary bracketing of a sequence. -/
inductive Bracketing (T : Type) where
  | leaf : T → Bracketing T
  | node : Bracketing T → Bracketing T → Bracketing T

namespace Bracketing
/-- The sequence of leaves: first leaf and the rest. -/
def leaves {T : Type} : Bracketing T → List T
  | leaf x => [x]
  | node a b => a.leaves ++ b.leaves
/-- Combine following the brackets. -/
def eval {T : Type} [RSemigroup T] : Bracketing T → T
  | leaf x => x
  | node a b => combine a.eval b.eval
theorem leaves_ne {T : Type} (b : Bracketing T) : b.leaves ≠ [] := by
  induction b with
  | leaf x => simp [leaves]
  | node a b iha _ => simp [leaves, iha]
end Bracketing

/-- With associativity, every bracketing of the sequence gives what `combine_all_values` returns. -/
theorem c20_bracketing {T : Type} [RSemigroup T] (ho : OwnedAgrees T) (ha : SemigroupLaw T)
    (b : Bracketing T) : combineAllValues b.leaves = some b.eval := by
  induction b with
  | leaf x => rfl
  | node l r ihl ihr =>
    simp only [Bracketing.leaves, Bracketing.eval]
    rcases hl : l.leaves with _ | ⟨x, xs⟩
    · exact absurd hl l.leaves_ne
    rcases hr : r.leaves with _ | ⟨y, ys⟩
    · exact absurd hr r.leaves_ne
    rw [hl, (c20_semigroup ho x xs).2.2.1] at ihl
    rw [hr, (c20_semigroup ho y ys).2.2.1] at ihr
    rw [List.cons_append, (c20_semigroup ho _ _).2.2.1, combineSeq_append ha]
    rw [Option.some.inj ihl, Option.some.inj ihr]

example : combineAllValues (Bracketing.node (.leaf "a") (.node (.leaf "b") (.leaf "c"))).leaves = some ("a" ++ ("b" ++ "c")) :=
  c20_bracketing c18_string c16_string (.node (.leaf "a") (.node (.leaf "b") (.leaf "c")))

/-- `fold_map` over any foldable with contents `xs` is the combine of the images (starting at `empty()`). -/
theorem c20_fold_map {F : Type → Type} [RFoldable F] {A M : Type} [RMonoid M] (hi : MonoidLaw M)
    (x : F A) (xs : List A) (hx : ∀ {U : Type} (init : U) (f : U → A → U),
      RFoldable.foldLeft x init f = xs.foldl f init) (f : A → M) :
    foldMap x f = (match xs with | [] => RMonoid.empty | y :: ys => combineSeq (f y) (ys.map f)) ∧
    foldMonoid x f = foldMap x f := by
  refine ⟨?_, rfl⟩
  rw [foldMap, hx]
  cases xs with
  | nil => rfl
  | cons y ys =>
    rw [List.foldl_cons, (hi _).1]
    show _ = combineSeq (f y) (ys.map f)
    rw [← foldl_combine, List.foldl_map]

example : combineAll ["a", "b", "c"] = "abc" ∧ mconcat ["a", "b"] = "ab" ∧
    foldWith (fun n : Nat => [n, n]) [1, 2] = [1, 1, 2, 2] := by decide
example : (Bracketing.node (.leaf [1]) (.node (.leaf [2]) (.leaf [3]))).leaves = [[1], [2], [3]] := rfl

/-! ## C21 (and C16/C18 for maps): merging maps -/

namespace AMap
variable {K V : Type} [DecidableEq K]

theorem look_append (k : K) (es fs : List (K × V)) :
    look k (es ++ fs) = (look k es).or (look k fs) := by
  induction es with
  | nil => simp [look]
  | cons e es ih =>
    simp only [List.cons_append, look]
    split
    · simp
    · exact ih

theorem look_setAt (k j : K) (v : V) (es : List (K × V)) :
    look j (setAt k v es) = if k = j ∧ (look k es).isSome then some v else look j es := by
  induction es with
  | nil => simp [setAt, look]
  | cons e es ih =>
    rw [show setAt k v (e :: es) = if e.1 = k then (e.1, v) :: es else e :: setAt k v es from rfl]
    by_cases he : e.1 = k
    · by_cases hkj : k = j <;> simp [he, look, hkj]
    · by_cases hej : e.1 = j
      · have hkj : k ≠ j := fun hh => he (hej.trans hh.symm)
        rw [if_neg he]
        simp [look, hej, hkj]
      · simp only [he, if_false, look, hej, ih]

theorem get_insert (m : AMap K V) (k j : K) (v : V) :
    (m.insert k v).get j = if k = j then some v else m.get j := by
  unfold insert get
  split
  · rename_i h
    rw [look_append]
    by_cases hj : k = j
    · subst hj; simp [h, look]
    · simp [look, hj]
  · rename_i h
    rw [look_setAt]
    have : (look k m.entries).isSome = true := by
      rcases hl : look k m.entries with _ | _
      · exact absurd hl h
      · rfl
    simp [this]

/-- Two maps with the same lookups: what `==` on `HashMap`/`BTreeMap` compares. -/
def Same (a b : AMap K V) : Prop := ∀ k, a.get k = b.get k

/-- `order` lists the entries of `m` in some order: an admissible iteration order. -/
def Visits (m : AMap K V) (order : List (K × V)) : Prop := order.Perm m.entries

theorem look_mem {k : K} {v : V} {es : List (K × V)} (h : look k es = some v) : (k, v) ∈ es := by
  induction es with
  | nil => simp [look] at h
  | cons e es ih =>
    unfold look at h
    split at h
    · rename_i hk
      cases h
      subst hk
      exact List.mem_cons_self
    · exact List.mem_cons_of_mem _ (ih h)

theorem look_of_mem {k : K} {v : V} {es : List (K × V)} (hn : (es.map Prod.fst).Nodup) (h : (k, v) ∈ es) :
    look k es = some v := by
  induction es with
  | nil => cases h
  | cons e es ih =>
    rw [List.map_cons, List.nodup_cons] at hn
    unfold look
    rcases List.mem_cons.1 h with rfl | h'
    · simp
    · have : e.1 ≠ k := fun hh => hn.1 (hh ▸ List.mem_map.2 ⟨_, h', rfl⟩)
      simp [this, ih hn.2 h']

/-- Looking up in any admissible order of the entries gives the map's value. -/
theorem look_visits {m : AMap K V} {order : List (K × V)} (h : m.Visits order) (k : K) :
    look k order = m.get k := by
  have hn : (order.map Prod.fst).Nodup := (h.map Prod.fst).nodup_iff.2 m.nodup
  unfold get
  rcases ho : look k order with _ | v
  · rcases hm : look k m.entries with _ | w
    · rfl
    · exfalso
      have := look_of_mem hn (h.mem_iff.2 (look_mem hm))
      rw [ho] at this; cases this
  · exact (look_of_mem m.nodup (h.mem_iff.1 (look_mem ho))).symm

theorem foldl_step_get (step : AMap K V → K × V → AMap K V) (g : V → V → V)
    (hstep : ∀ m e j, (step m e).get j = if e.1 = j then
      (match m.get e.1 with | some old => some (g old e.2) | none => some e.2) else m.get j)
    (order : List (K × V)) (hn : (order.map Prod.fst).Nodup) (m : AMap K V) (k : K) :
    (order.foldl step m).get k = (match look k order with
      | none => m.get k
      | some v => match m.get k with | some old => some (g old v) | none => some v) := by
  induction order generalizing m with
  | nil => rfl
  | cons e es ih =>
    rw [List.map_cons, List.nodup_cons] at hn
    rw [List.foldl_cons, ih hn.2, show look k (e :: es) = if e.1 = k then some e.2 else look k es from rfl]
    by_cases hk : e.1 = k
    · have hnone : look k es = none := by
        rw [look_none_iff, ← hk]; exact hn.1
      rw [hnone, hstep]
      simp [hk]
    · simp only [hk, if_false]
      rw [hstep]
      simp [hk]

variable [RSemigroup V]

theorem entryStep_get (m : AMap K V) (e : K × V) (j : K) :
    (entryStep m e).get j = if e.1 = j then
      (match m.get e.1 with | some old => some (combine old e.2) | none => some e.2) else m.get j := by
  unfold entryStep
  rcases m.get e.1 with _ | old <;> simp only [get_insert]

theorem ownedStep_get (m : AMap K V) (e : K × V) (j : K) :
    (ownedStep m e).get j = if e.1 = j then
      (match m.get e.1 with | some old => some (combineOwned old e.2) | none => some e.2) else m.get j := by
  unfold ownedStep
  rcases m.get e.1 with _ | old <;> simp only [get_insert]

end AMap

/-- C21: the merged map at every key, whatever the iteration order: the combination of both values if the
key is in both, the single value if it is in one, absent otherwise. -/
theorem c21_merge {K V : Type} [DecidableEq K] [RSemigroup V] (a b : AMap K V) (order : List (K × V))
    (h : b.Visits order) (k : K) :
    (a.combineIn order).get k = (match a.get k, b.get k with
      | some x, some y => some (combine x y)
      | some x, none => some x
      | none, some y => some y
      | none, none => none) := by
  have hn : (order.map Prod.fst).Nodup := (h.map Prod.fst).nodup_iff.2 b.nodup
  rw [AMap.combineIn, AMap.foldl_step_get _ combine AMap.entryStep_get order hn, AMap.look_visits h]
  rcases a.get k with _ | x <;> rcases b.get k with _ | y <;> rfl

/-- C21: a key is in the result exactly if it is in one of the maps. -/
theorem c21_keys {K V : Type} [DecidableEq K] [RSemigroup V] (a b : AMap K V) (order : List (K × V))
    (h : b.Visits order) (k : K) :
    (a.combineIn order).get k ≠ none ↔ a.get k ≠ none ∨ b.get k ≠ none := by
  rw [c21_merge a b order h]
  rcases a.get k with _ | x <;> rcases b.get k with _ | y <;> simp

/-- C21: the result does not depend on the iteration order. -/
theorem c21_order_independent {K V : Type} [DecidableEq K] [RSemigroup V] (a b : AMap K V)
    (order order' : List (K × V)) (h : b.Visits order) (h' : b.Visits order') :
    (a.combineIn order).Same (a.combineIn order') := by
  intro k
  rw [c21_merge a b _ h, c21_merge a b _ h']

/-- C18 for maps: `combine_owned` agrees with `combine`, even with different iteration orders. -/
theorem c18_map {K V : Type} [DecidableEq K] [RSemigroup V] (ho : OwnedAgrees V) (a b : AMap K V)
    (order order' : List (K × V)) (h : b.Visits order) (h' : b.Visits order') :
    (a.combineOwnedIn order).Same (a.combineIn order') := by
  intro k
  have hn : (order.map Prod.fst).Nodup := (h.map Prod.fst).nodup_iff.2 b.nodup
  rw [c21_merge a b _ h', AMap.combineOwnedIn,
    AMap.foldl_step_get _ combineOwned AMap.ownedStep_get order hn, AMap.look_visits h]
  rcases a.get k with _ | x <;> rcases b.get k with _ | y <;> simp only
  rw [ho]

/-- C16 for maps, for all iteration orders used by the four merges. -/
theorem c16_map {K V : Type} [DecidableEq K] [RSemigroup V] (hV : SemigroupLaw V) (a b c : AMap K V)
    (ob oc oc' obc : List (K × V)) (hb : b.Visits ob) (hc : c.Visits oc) (hc' : c.Visits oc')
    (hbc : (b.combineIn oc').Visits obc) :
    ((a.combineIn ob).combineIn oc).Same (a.combineIn obc) := by
  intro k
  rw [c21_merge _ c _ hc, c21_merge a b _ hb, c21_merge a _ _ hbc, c21_merge b c _ hc']
  rcases a.get k with _ | x <;> rcases b.get k with _ | y <;> rcases c.get k with _ | z <;> simp only
  rw [hV]

/-- Union of sets, for every iteration order. -/
theorem c21_set_union {T : Type} [DecidableEq T] (a b : ASet T) (order : List T) (h : order.Perm b.elems)
    (t : T) :
    ((a.combineIn order).contains t ↔ a.contains t ∨ b.contains t) ∧
    ((a.combineOwnedIn order).contains t ↔ a.contains t ∨ b.contains t) := by
  have hins : ∀ (s : ASet T) (x : T), (s.insert x).contains t ↔ s.contains t ∨ t = x := by
    intro s x
    unfold ASet.insert ASet.contains
    split
    · rename_i hm
      constructor
      · exact Or.inl
      · rintro (h | rfl)
        · exact h
        · exact hm
    · simp
  have key : ∀ (l : List T) (s : ASet T), (l.foldl ASet.insert s).contains t ↔ s.contains t ∨ t ∈ l := by
    intro l
    induction l with
    | nil => intro s; simp
    | cons x xs ih =>
      intro s
      rw [List.foldl_cons, ih, hins, List.mem_cons, or_assoc]
  have hb : b.contains t ↔ t ∈ order := (h.mem_iff).symm
  rw [hb]
  exact ⟨key order a, key order a⟩

/-- C16 for sets, for all iteration orders. -/
theorem c16_set {T : Type} [DecidableEq T] (a b c : ASet T) (ob oc oc' obc : List T) (hb : ob.Perm b.elems)
    (hc : oc.Perm c.elems) (hc' : oc'.Perm c.elems) (hbc : obc.Perm (b.combineIn oc').elems) (t : T) :
    ((a.combineIn ob).combineIn oc).contains t ↔ (a.combineIn obc).contains t := by
  rw [(c21_set_union _ c _ hc t).1, (c21_set_union a b _ hb t).1, (c21_set_union a _ _ hbc t).1,
    (c21_set_union b c _ hc' t).1, or_assoc]

/-- Three sets that overlap, the union of the last two visited backwards. -/
example : (((⟨[1], by decide⟩ : ASet Nat).combineIn [2, 1]).combineIn [3]).contains 3 ↔
    ((⟨[1], by decide⟩ : ASet Nat).combineIn [3, 2, 1]).contains 3 :=
  c16_set _ ⟨[1, 2], by decide⟩ ⟨[3], by decide⟩ [2, 1] [3] [3] [3, 2, 1] (List.Perm.swap _ _ _) (.refl _) (.refl _)
    (by decide) 3

/-- C18 for sets, for all iteration orders. -/
theorem c18_set {T : Type} [DecidableEq T] (a b : ASet T) (o o' : List T) (h : o.Perm b.elems) (h' : o'.Perm b.elems)
    (t : T) : (a.combineOwnedIn o).contains t ↔ (a.combineIn o').contains t := by
  rw [(c21_set_union a b o h t).2, (c21_set_union a b o' h' t).1]

/-- Two sets that share 2, the second visited in two orders. -/
example : ((⟨[1, 2], by decide⟩ : ASet Nat).combineOwnedIn [3, 2]).contains 3 ↔
    ((⟨[1, 2], by decide⟩ : ASet Nat).combineIn [2, 3]).contains 3 :=
  c18_set _ ⟨[2, 3], by decide⟩ [3, 2] [2, 3] (List.Perm.swap _ _ _) (.refl _) 3

/-- Concrete maps with overlapping and separate keys, merged in both orders of the second one. -/
def mapA : AMap String (List Nat) := ⟨[("x", [1]), ("y", [2])], by decide⟩
def mapB : AMap String (List Nat) := ⟨[("y", [3]), ("z", [4])], by decide⟩
example : mapB.Visits [("z", [4]), ("y", [3])] := by
  unfold AMap.Visits mapB; exact List.Perm.swap _ _ _
example : (mapA.combineIn [("z", [4]), ("y", [3])]).get "y" = some [2, 3] ∧
    (mapA.combineIn mapB.entries).get "z" = some [4] ∧ (mapA.combineIn mapB.entries).get "w" = none := by
  decide

/-! Two maps that share the key 2, visited in two orders. -/

private def left2 : AMap Nat String := ⟨[(1, "a"), (2, "b")], by decide⟩
private def right2 : AMap Nat String := ⟨[(2, "c"), (3, "d")], by decide⟩
private theorem right2_back : right2.Visits [(3, "d"), (2, "c")] := List.Perm.swap _ _ _

example : (left2.combineIn [(3, "d"), (2, "c")]).get 2 = some ("b" ++ "c") := c21_merge left2 right2 _ right2_back 2
example : (left2.combineIn [(3, "d"), (2, "c")]).get 7 = none := Classical.byContradiction fun h =>
  ((c21_keys left2 right2 _ right2_back 7).1 h).elim (fun h => h rfl) fun h => h rfl
example : (left2.combineIn [(3, "d"), (2, "c")]).Same (left2.combineIn [(2, "c"), (3, "d")]) :=
  c21_order_independent left2 right2 _ _ right2_back (.refl _)
example : (left2.combineOwnedIn [(3, "d"), (2, "c")]).Same (left2.combineIn [(2, "c"), (3, "d")]) :=
  c18_map c18_string left2 right2 _ _ right2_back (.refl _)
example : ((left2.combineIn [(3, "d"), (2, "c")]).combineIn left2.entries).Same (left2.combineIn (right2.combineIn left2.entries).entries) :=
  c16_map c16_string left2 right2 left2 _ _ left2.entries _ right2_back (.refl _) (.refl _) (.refl _)
example : ((⟨[1, 2], by decide⟩ : ASet Nat).combineIn [3, 2]).contains 3 :=
  ((c21_set_union (⟨[1, 2], by decide⟩ : ASet Nat) ⟨[2, 3], by decide⟩ [3, 2] (List.Perm.swap _ _ _) 3).1).2 (.inr (by unfold ASet.contains; decide))

end Rustica
