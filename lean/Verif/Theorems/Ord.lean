import Verif.Data.Ord
import Verif.Error.Convert
import Verif.Theorems.Semigroup

/-!
# C86: the derived orderings of the data types

Specification: `ROrdLaws` (a total order whose `Equal` is equality), `Before` (the order of a dictionary, stated with the
common beginning of two lists) and, for conversions, that two values compare before and after in the same way.
-/

namespace Rustica

variable {T U E : Type}

/-- The order of a dictionary: one list is a proper beginning of the other, or after a common beginning the next
elements are `lt`. -/
def Before (lt : T → T → Prop) (xs ys : List T) : Prop :=
  (∃ y rest, ys = xs ++ y :: rest) ∨
  ∃ same a as b bs, xs = same ++ a :: as ∧ ys = same ++ b :: bs ∧ lt a b

/-! ## Comparison functions -/

/-- The laws of `ROrdLaws` for a function. -/
structure LinCmp (cmp : T → T → Ordering) : Prop where
  eq_iff : ∀ a b, cmp a b = .eq ↔ a = b
  swap : ∀ a b, cmp b a = (cmp a b).swap
  lt_trans : ∀ a b c, cmp a b = .lt → cmp b c = .lt → cmp a c = .lt

theorem cmpThen_eq (o p : Ordering) : cmpThen o p = .eq ↔ o = .eq ∧ p = .eq := by
  cases o <;> simp [cmpThen]

theorem cmpThen_lt (o p : Ordering) : cmpThen o p = .lt ↔ o = .lt ∨ (o = .eq ∧ p = .lt) := by
  cases o <;> simp [cmpThen]

theorem cmpThen_swap (o p : Ordering) : (cmpThen o p).swap = cmpThen o.swap p.swap := by
  cases o <;> rfl

theorem cmpThen_assoc (o p q : Ordering) : cmpThen (cmpThen o p) q = cmpThen o (cmpThen p q) := by
  cases o <;> rfl

theorem LinCmp.refl {cmp : T → T → Ordering} (h : LinCmp cmp) (a : T) : cmp a a = .eq := (h.eq_iff a a).2 rfl

theorem ROrdLaws.lin [ROrd T] (h : ROrdLaws T) : LinCmp (ROrd.cmp : T → T → Ordering) where
  eq_iff := h.eq_iff
  swap := h.swap
  lt_trans a b c hab hbc := by
    have h1 := h.trans a b c (by simp [hab]) (by simp [hbc])
    cases hac : ROrd.cmp a c with
    | lt => rfl
    | gt => exact absurd hac h1
    | eq =>
      have := (h.eq_iff a c).1 hac
      subst this
      rw [h.swap, hab] at hbc
      simp at hbc

theorem LinCmp.laws [ROrd T] (h : LinCmp (ROrd.cmp : T → T → Ordering)) : ROrdLaws T where
  eq_iff := h.eq_iff
  swap := h.swap
  trans a b c hab hbc hac := by
    have hca : ROrd.cmp c a = .lt := by rw [h.swap a c, hac]; rfl
    cases h1 : ROrd.cmp a b with
    | gt => exact hab h1
    | eq =>
      have := (h.eq_iff a b).1 h1
      subst this
      exact hbc hac
    | lt =>
      have := h.lt_trans c a b hca h1
      rw [h.swap c b, this] at hbc
      exact hbc rfl

/-- Comparing what an injective function gives. -/
theorem LinCmp.pull {cmp : T → T → Ordering} (h : LinCmp cmp) (f : U → T) (hf : ∀ a b, f a = f b → a = b) :
    LinCmp fun a b => cmp (f a) (f b) where
  eq_iff a b := by rw [h.eq_iff]; exact ⟨hf a b, fun h => h ▸ rfl⟩
  swap a b := h.swap _ _
  lt_trans a b c := h.lt_trans _ _ _

/-- First one component, then the other. -/
theorem LinCmp.pair {c : T → T → Ordering} {d : U → U → Ordering} (hc : LinCmp c) (hd : LinCmp d) :
    LinCmp fun (p q : T × U) => cmpThen (c p.1 q.1) (d p.2 q.2) where
  eq_iff a b := by simp [cmpThen_eq, hc.eq_iff, hd.eq_iff, Prod.ext_iff]
  swap a b := by rw [cmpThen_swap, ← hc.swap, ← hd.swap]
  lt_trans a b e h1 h2 := by
    rw [cmpThen_lt] at *
    simp only [hc.eq_iff] at *
    rcases h1 with h1 | ⟨h1, h1'⟩ <;> rcases h2 with h2 | ⟨h2, h2'⟩
    · exact .inl (hc.lt_trans _ _ _ h1 h2)
    · exact .inl (h2 ▸ h1)
    · exact .inl (h1 ▸ h2)
    · exact .inr ⟨h1.trans h2, hd.lt_trans _ _ _ h1' h2'⟩

/-! ## Slices -/

theorem sliceCmp_eq {cmp : T → T → Ordering} : ∀ xs ys : List T,
    (∀ x ∈ xs, ∀ y, cmp x y = .eq ↔ x = y) → (sliceCmp cmp xs ys = .eq ↔ xs = ys)
  | [], [], _ => by simp [sliceCmp]
  | [], _ :: _, _ => by simp [sliceCmp]
  | _ :: _, [], _ => by simp [sliceCmp]
  | x :: xs, y :: ys, h => by
    simp only [sliceCmp, cmpThen_eq, List.cons.injEq]
    rw [h x (by simp) y, sliceCmp_eq xs ys fun a ha => h a (by simp [ha])]

theorem sliceCmp_swap {cmp : T → T → Ordering} : ∀ xs ys : List T,
    (∀ x ∈ xs, ∀ y, cmp y x = (cmp x y).swap) → sliceCmp cmp ys xs = (sliceCmp cmp xs ys).swap
  | [], [], _ => rfl
  | [], _ :: _, _ => rfl
  | _ :: _, [], _ => rfl
  | x :: xs, y :: ys, h => by
    simp only [sliceCmp, cmpThen_swap]
    rw [h x (by simp) y, sliceCmp_swap xs ys fun a ha => h a (by simp [ha])]

theorem sliceCmp_lt_trans {cmp : T → T → Ordering} (heq : ∀ x y, cmp x y = .eq ↔ x = y) : ∀ xs ys zs : List T,
    (∀ x ∈ xs, ∀ y z, cmp x y = .lt → cmp y z = .lt → cmp x z = .lt) →
    sliceCmp cmp xs ys = .lt → sliceCmp cmp ys zs = .lt → sliceCmp cmp xs zs = .lt
  | [], [], _, _ => by simp [sliceCmp]
  | [], _ :: _, [], _ => by simp [sliceCmp]
  | [], _ :: _, _ :: _, _ => by simp [sliceCmp]
  | _ :: _, [], _, _ => by simp [sliceCmp]
  | _ :: _, _ :: _, [], _ => by simp [sliceCmp]
  | x :: xs, y :: ys, z :: zs, h => by
    simp only [sliceCmp, cmpThen_lt, heq]
    rintro (h1 | ⟨rfl, h1⟩) (h2 | ⟨rfl, h2⟩)
    · exact .inl (h x (by simp) y z h1 h2)
    · exact .inl h1
    · exact .inl h2
    · exact .inr ⟨rfl, sliceCmp_lt_trans heq xs ys zs (fun a ha => h a (by simp [ha])) h1 h2⟩

theorem LinCmp.slice {cmp : T → T → Ordering} (h : LinCmp cmp) : LinCmp (sliceCmp cmp) where
  eq_iff xs ys := sliceCmp_eq xs ys fun x _ => h.eq_iff x
  swap xs ys := sliceCmp_swap xs ys fun x _ => h.swap x
  lt_trans xs ys zs := sliceCmp_lt_trans h.eq_iff xs ys zs fun x _ => h.lt_trans x

theorem sliceCmp_append {cmp : T → T → Ordering} : ∀ as bs cs ds : List T, as.length = bs.length →
    sliceCmp cmp (as ++ cs) (bs ++ ds) = cmpThen (sliceCmp cmp as bs) (sliceCmp cmp cs ds)
  | [], [], _, _, _ => rfl
  | a :: as, b :: bs, cs, ds, h => by
    simp only [List.cons_append, sliceCmp, cmpThen_assoc]
    rw [sliceCmp_append as bs cs ds (by simpa using h)]

theorem sliceCmp_lt {cmp : T → T → Ordering} (h : LinCmp cmp) : ∀ xs ys : List T,
    sliceCmp cmp xs ys = .lt ↔ Before (fun a b => cmp a b = .lt) xs ys
  | [], [] => by simp [sliceCmp, Before]
  | [], y :: ys => by
    simp only [sliceCmp, true_iff]
    exact .inl ⟨y, ys, rfl⟩
  | x :: xs, [] => by simp [sliceCmp, Before]
  | x :: xs, y :: ys => by
    simp only [sliceCmp, cmpThen_lt, h.eq_iff, sliceCmp_lt h xs ys]
    constructor
    · rintro (h1 | ⟨rfl, h1⟩)
      · exact .inr ⟨[], x, xs, y, ys, rfl, rfl, h1⟩
      · rcases h1 with ⟨z, rest, rfl⟩ | ⟨same, a, as, b, bs, rfl, rfl, hab⟩
        · exact .inl ⟨z, rest, rfl⟩
        · exact .inr ⟨x :: same, a, as, b, bs, rfl, rfl, hab⟩
    · rintro (⟨z, rest, hz⟩ | ⟨same, a, as, b, bs, hx, hy, hab⟩)
      · simp only [List.cons_append, List.cons.injEq] at hz
        exact .inr ⟨hz.1.symm, .inl ⟨z, rest, hz.2⟩⟩
      · cases same with
        | nil =>
          simp only [List.nil_append, List.cons.injEq] at hx hy
          rw [hx.1, hy.1]
          exact .inl hab
        | cons s same =>
          simp only [List.cons_append, List.cons.injEq] at hx hy
          exact .inr ⟨hx.1.trans hy.1.symm, .inr ⟨same, a, as, b, bs, hx.2, hy.2, hab⟩⟩

/-! ## The orderings are total and agree with `==` -/

theorem ordLaws_list [ROrd T] (h : ROrdLaws T) : ROrdLaws (List T) := LinCmp.laws h.lin.slice

theorem ordLaws_option [ROrd T] (h : ROrdLaws T) : ROrdLaws (Option T) := LinCmp.laws <| by
  have h := h.lin
  refine ⟨?_, ?_, ?_⟩
  · intro a b; cases a <;> cases b <;> simp [ROrd.cmp, h.eq_iff]
  · intro a b; cases a <;> cases b <;> first | rfl | exact h.swap _ _
  · intro a b c; cases a <;> cases b <;> cases c <;> simp [ROrd.cmp]
    exact h.lt_trans _ _ _

/-- C86: the order of `Maybe` is total and agrees with `==`. -/
theorem c86_maybe_total [ROrd T] (h : ROrdLaws T) : ROrdLaws (Maybe T) := LinCmp.laws <| by
  have h := h.lin
  refine ⟨?_, ?_, ?_⟩
  · intro a b; cases a <;> cases b <;> simp [ROrd.cmp, h.eq_iff]
  · intro a b; cases a <;> cases b <;> first | rfl | exact h.swap _ _
  · intro a b c; cases a <;> cases b <;> cases c <;> simp [ROrd.cmp]
    exact h.lt_trans _ _ _

/-- C86: the order of `Either` is total and agrees with `==`. -/
theorem c86_either_total [ROrd T] [ROrd U] (h : ROrdLaws T) (k : ROrdLaws U) : ROrdLaws (Either T U) :=
  LinCmp.laws <| by
  have h := h.lin
  have k := k.lin
  refine ⟨?_, ?_, ?_⟩
  · intro a b; cases a <;> cases b <;> simp [ROrd.cmp, h.eq_iff, k.eq_iff]
  · intro a b; cases a <;> cases b <;> first | rfl | exact h.swap _ _ | exact k.swap _ _
  · intro a b c; cases a <;> cases b <;> cases c <;> simp [ROrd.cmp]
    · exact h.lt_trans _ _ _
    · exact k.lt_trans _ _ _

/-- C86: the order of `Validated` is total and agrees with `==`. -/
theorem c86_validated_total [ROrd T] [ROrd U] (h : ROrdLaws T) (k : ROrdLaws U) : ROrdLaws (Validated T U) :=
  LinCmp.laws <| by
  have h := h.lin.slice
  have k := k.lin
  refine ⟨?_, ?_, ?_⟩
  · intro a b; cases a <;> cases b <;> simp [ROrd.cmp, h.eq_iff, k.eq_iff]
  · intro a b; cases a <;> cases b <;> first | rfl | exact k.swap _ _ | exact h.swap _ _
  · intro a b c; cases a <;> cases b <;> cases c <;> simp [ROrd.cmp]
    · exact k.lt_trans _ _ _
    · exact h.lt_trans _ _ _

/-- C86: the order of `Writer` is total and agrees with `==`. -/
theorem c86_writer_total [ROrd T] [ROrd U] (h : ROrdLaws T) (k : ROrdLaws U) : ROrdLaws (Writer T U) :=
  LinCmp.laws <| (h.lin.pair k.lin).pull (fun w : Writer T U => (w.log, w.value)) <| by
    rintro ⟨_, _⟩ ⟨_, _⟩ h
    cases h
    rfl

/-- C86: the order of `Choice` is total and agrees with `==`. -/
theorem c86_choice_total [ROrd T] (h : ROrdLaws T) : ROrdLaws (Choice T) :=
  LinCmp.laws <| h.lin.slice.pull Choice.values <| by rintro ⟨_⟩ ⟨_⟩ rfl; rfl

/-- C86: the orders of the wrappers are total and agree with `==`. -/
theorem c86_wrappers_total [ROrd T] (h : ROrdLaws T) :
    ROrdLaws (RId T) ∧ ROrdLaws (Min T) ∧ ROrdLaws (Max T) ∧ ROrdLaws (Sum T) ∧ ROrdLaws (Product T) ∧
    ROrdLaws (First T) ∧ ROrdLaws (Last T) :=
  ⟨LinCmp.laws <| h.lin.pull RId.value <| by rintro ⟨_⟩ ⟨_⟩ rfl; rfl,
   LinCmp.laws <| h.lin.pull Min.val <| by rintro ⟨_⟩ ⟨_⟩ rfl; rfl,
   LinCmp.laws <| h.lin.pull Max.val <| by rintro ⟨_⟩ ⟨_⟩ rfl; rfl,
   LinCmp.laws <| h.lin.pull Sum.val <| by rintro ⟨_⟩ ⟨_⟩ rfl; rfl,
   LinCmp.laws <| h.lin.pull Product.val <| by rintro ⟨_⟩ ⟨_⟩ rfl; rfl,
   LinCmp.laws <| (ordLaws_option h).lin.pull First.val <| by rintro ⟨_⟩ ⟨_⟩ rfl; rfl,
   LinCmp.laws <| (ordLaws_option h).lin.pull Last.val <| by rintro ⟨_⟩ ⟨_⟩ rfl; rfl⟩

/-! ## `partial_cmp` -/

/-- `partial_cmp` returns what `cmp` returns. -/
def Agree (T : Type) [ROrd T] [RPartialOrd T] : Prop :=
  ∀ a b : T, RPartialOrd.partialCmp a b = some (ROrd.cmp a b)

theorem partialThen_some (o p : Ordering) : partialThen (some o) (some p) = some (cmpThen o p) := by
  cases o <;> rfl

theorem slicePartialCmp_some {pc : T → T → Option Ordering} {cmp : T → T → Ordering} : ∀ xs ys : List T,
    (∀ x ∈ xs, ∀ y, pc x y = some (cmp x y)) → slicePartialCmp pc xs ys = some (sliceCmp cmp xs ys)
  | [], [], _ => rfl
  | [], _ :: _, _ => rfl
  | _ :: _, [], _ => rfl
  | x :: xs, y :: ys, h => by
    rw [slicePartialCmp, sliceCmp, h x (by simp), slicePartialCmp_some xs ys fun a ha => h a (by simp [ha]),
      partialThen_some]

/-- C86: where `partial_cmp` of the contents returns `Some` of their `cmp`, so does the derived `partial_cmp`. -/
theorem c86_partial_cmp [ROrd T] [RPartialOrd T] [ROrd U] [RPartialOrd U] (h : Agree T) (k : Agree U) :
    Agree (Maybe T) ∧ Agree (Either T U) ∧ Agree (Validated T U) ∧ Agree (Writer T U) ∧ Agree (Choice T) ∧
    Agree (RId T) ∧ Agree (First T) ∧ Agree (Last T) ∧ Agree (Min T) ∧ Agree (Max T) ∧ Agree (Sum T) ∧
    Agree (Product T) := by
  have hs : ∀ xs ys : List T, slicePartialCmp RPartialOrd.partialCmp xs ys = some (sliceCmp ROrd.cmp xs ys) :=
    fun xs ys => slicePartialCmp_some xs ys fun x _ => h x
  have ho : ∀ a b : Option T, RPartialOrd.partialCmp a b = some (ROrd.cmp a b) := by
    intro a b; cases a <;> cases b <;> first | rfl | exact h _ _
  refine ⟨?_, ?_, ?_, ?_, fun a b => hs _ _, fun a b => h _ _, fun a b => ho _ _, fun a b => ho _ _,
    fun a b => h _ _, fun a b => h _ _, fun a b => h _ _, fun a b => h _ _⟩
  · intro a b; cases a <;> cases b <;> first | rfl | exact h _ _
  · intro a b; cases a <;> cases b <;> first | rfl | exact h _ _ | exact k _ _
  · intro a b; cases a <;> cases b <;> first | rfl | exact k _ _ | exact hs _ _
  · intro a b
    simp only [RPartialOrd.partialCmp, ROrd.cmp]
    rw [← partialThen_some, ← h, ← k]

/-- C86: where the contents cannot be compared, neither can what holds them; two invalid values or two choices are
compared up to the first position where they differ, two writers by the log first. -/
theorem c86_incomparable [RPartialOrd T] [RPartialOrd U] (a b : T) (x y : U)
    (h : RPartialOrd.partialCmp a b = none) (same xs ys : List T)
    (hsame : ∀ s ∈ same, RPartialOrd.partialCmp s s = some .eq) :
    RPartialOrd.partialCmp (Maybe.Just a) (.Just b) = none ∧
    RPartialOrd.partialCmp (Either.Left a : Either T U) (.Left b) = none ∧
    RPartialOrd.partialCmp (Either.Right a : Either U T) (.Right b) = none ∧
    RPartialOrd.partialCmp (Validated.Valid a : Validated U T) (.Valid b) = none ∧
    RPartialOrd.partialCmp (Validated.Invalid (same ++ a :: xs) : Validated T U) (.Invalid (same ++ b :: ys)) = none ∧
    RPartialOrd.partialCmp (Choice.mk (same ++ a :: xs)) (Choice.mk (same ++ b :: ys)) = none ∧
    RPartialOrd.partialCmp (Writer.mk a x) (Writer.mk b y) = none := by
  have hs : slicePartialCmp RPartialOrd.partialCmp (same ++ a :: xs) (same ++ b :: ys) = none := by
    induction same with
    | nil => simp [slicePartialCmp, h, partialThen]
    | cons s same ih =>
      simp only [List.cons_append, slicePartialCmp, hsame s (by simp), partialThen]
      exact ih fun t ht => hsame t (by simp [ht])
  exact ⟨h, h, h, h, hs, hs, by simp [RPartialOrd.partialCmp, h, partialThen]⟩

/-! ## What comes first -/

/-- C86: `Just` comes before `Nothing`, `Left` before `Right`, `Valid` before `Invalid`, whatever they hold; an empty
`First` or `Last` comes before a full one. -/
theorem c86_variants [ROrd T] [ROrd U] (t : T) (u : U) (ts : List T) :
    ROrd.cmp (Maybe.Just t) .Nothing = .lt ∧ ROrd.cmp (Either.Left t : Either T U) (.Right u) = .lt ∧
    ROrd.cmp (Validated.Valid u : Validated T U) (.Invalid ts) = .lt ∧
    ROrd.cmp (First.mk none) (First.mk (some t)) = .lt ∧ ROrd.cmp (Last.mk none) (Last.mk (some t)) = .lt :=
  ⟨rfl, rfl, rfl, rfl, rfl⟩

/-- C86: values of the same variant compare like what they hold. -/
theorem c86_contents [ROrd T] [ROrd U] (a b : T) (x y : U) :
    ROrd.cmp (Maybe.Just a) (.Just b) = ROrd.cmp a b ∧
    ROrd.cmp (Either.Left a : Either T U) (.Left b) = ROrd.cmp a b ∧
    ROrd.cmp (Either.Right x : Either T U) (.Right y) = ROrd.cmp x y ∧
    ROrd.cmp (Validated.Valid x : Validated T U) (.Valid y) = ROrd.cmp x y ∧
    ROrd.cmp (First.mk (some a)) (First.mk (some b)) = ROrd.cmp a b ∧
    ROrd.cmp (Last.mk (some a)) (Last.mk (some b)) = ROrd.cmp a b ∧
    ROrd.cmp (RId.mk a) (RId.mk b) = ROrd.cmp a b ∧ ROrd.cmp (Min.mk a) (Min.mk b) = ROrd.cmp a b ∧
    ROrd.cmp (Max.mk a) (Max.mk b) = ROrd.cmp a b ∧ ROrd.cmp (Sum.mk a) (Sum.mk b) = ROrd.cmp a b ∧
    ROrd.cmp (Product.mk a) (Product.mk b) = ROrd.cmp a b :=
  ⟨rfl, rfl, rfl, rfl, rfl, rfl, rfl, rfl, rfl, rfl, rfl⟩

/-- C86: choices are in the order of a dictionary, the primary value first; so are the errors of invalid values. -/
theorem c86_choice_dictionary [ROrd T] [ROrd U] (h : ROrdLaws T) (xs ys : List T) :
    (ROrd.cmp (Choice.mk xs) (Choice.mk ys) = .lt ↔ Before (fun a b => ROrd.cmp a b = .lt) xs ys) ∧
    (ROrd.cmp (Validated.Invalid xs : Validated T U) (.Invalid ys) = .lt ↔
      Before (fun a b => ROrd.cmp a b = .lt) xs ys) :=
  ⟨sliceCmp_lt h.lin xs ys, sliceCmp_lt h.lin xs ys⟩

/-- C86: writers are ordered by their logs; only with equal logs do the values decide. -/
theorem c86_writer_log_first [ROrd T] [ROrd U] (h : ROrdLaws T) (v w : Writer T U) :
    ROrd.cmp v w = .lt ↔ ROrd.cmp v.log w.log = .lt ∨ (v.log = w.log ∧ ROrd.cmp v.value w.value = .lt) := by
  simp only [← h.eq_iff]
  exact cmpThen_lt _ _

/-! ## Conversions -/

/-- The claim fails for `to_option`: `Just(1) < Nothing`, but `Some(1) > None`. -/
theorem c86_maybe_option_false :
    ¬ ∀ a b : Maybe Nat, ROrd.cmp a.toOption b.toOption = ROrd.cmp a b := by
  intro h
  exact absurd (h (.Just 1) .Nothing) (by decide)

/-- C86: `to_option` keeps the order of two values exactly when both are `Just` or both `Nothing`; otherwise it turns it
around. -/
theorem c86_maybe_option_iff [ROrd T] (a b : Maybe T) :
    (ROrd.cmp a.toOption b.toOption = ROrd.cmp a b ↔ a.isJust = b.isJust) ∧
    (a.isJust ≠ b.isJust → ROrd.cmp a.toOption b.toOption = (ROrd.cmp a b).swap) := by
  cases a <;> cases b <;> simp [ROrd.cmp, Maybe.toOption, Maybe.isJust]

/-- C86: the same for `from_option`. -/
theorem c86_option_maybe_iff [ROrd T] (a b : Option T) :
    (ROrd.cmp (Maybe.fromOption a) (Maybe.fromOption b) = ROrd.cmp a b ↔ a.isSome = b.isSome) ∧
    (a.isSome ≠ b.isSome → ROrd.cmp (Maybe.fromOption a) (Maybe.fromOption b) = (ROrd.cmp a b).swap) := by
  cases a <;> cases b <;> simp [ROrd.cmp, Maybe.fromOption]

/-- C86: `to_result` of `Maybe` keeps the order. -/
theorem c86_maybe_result [ROrd T] [ROrd E] (he : ROrdLaws E) (e : E) (a b : Maybe T) :
    ROrd.cmp (a.toResult e) (b.toResult e) = ROrd.cmp a b := by
  cases a <;> cases b <;> simp [ROrd.cmp, Maybe.toResult, he.eq_iff]

/-- The claim fails for `Either::to_result`: `Left(1) < Right(1)`, but `Err(1) > Ok(1)`. -/
theorem c86_either_result_false :
    ¬ ∀ a b : Either Nat Nat, ROrd.cmp (eitherToResult a) (eitherToResult b) = ROrd.cmp a b := by
  intro h
  exact absurd (h (.Left 1) (.Right 1)) (by decide)

/-- C86: `Either::to_result` keeps the order of two values exactly when they are on the same side; otherwise it turns
it around. -/
theorem c86_either_result_iff [ROrd T] [ROrd E] (a b : Either E T) :
    (ROrd.cmp (eitherToResult a) (eitherToResult b) = ROrd.cmp a b ↔ a.isLeft = b.isLeft) ∧
    (a.isLeft ≠ b.isLeft → ROrd.cmp (eitherToResult a) (eitherToResult b) = (ROrd.cmp a b).swap) := by
  cases a <;> cases b <;> simp [ROrd.cmp, eitherToResult, Either.isLeft]

/-- C86: `Validated::from_result` keeps the order. -/
theorem c86_result_validated [ROrd T] [ROrd E] (a b : Except E T) :
    ROrd.cmp (Validated.fromResult a) (Validated.fromResult b) = ROrd.cmp a b := by
  cases a <;> cases b <;> simp [ROrd.cmp, Validated.fromResult, resultToValidated, Validated.invalid, sliceCmp]
  rename_i a b
  cases ROrd.cmp a b <;> rfl

theorem Except.ordLaws [ROrd T] [ROrd E] (h : ROrdLaws T) (k : ROrdLaws E) (a b : Except E T) :
    ROrd.cmp a b = .eq ↔ a = b := by
  cases a <;> cases b <;> simp [ROrd.cmp, h.eq_iff, k.eq_iff]

/-- C86: `Validated::to_result` keeps the order of two values exactly when they are equal or give different results:
it never turns the order around, but may make different values equal, because only the first error is kept.
(`none` is the panic on an invalid value without errors.) -/
theorem c86_validated_result_iff [ROrd T] [ROrd E] (h : ROrdLaws T) (k : ROrdLaws E) (v w : Validated E T)
    (a b : Except E T) (hv : v.toResult = some a) (hw : w.toResult = some b) :
    (ROrd.cmp a b = ROrd.cmp v w ↔ v = w ∨ a ≠ b) ∧ (ROrd.cmp v w = .lt → ROrd.cmp a b ≠ .gt) := by
  have hl := c86_validated_total k h
  have key : a ≠ b → ROrd.cmp a b = ROrd.cmp v w := by
    intro hne
    have hne := mt (Except.ordLaws h k a b).1 hne
    cases v with
    | Valid x =>
      simp only [Validated.toResult, RWithError.toResult, Option.some.injEq] at hv
      cases w with
      | Valid y =>
        simp only [Validated.toResult, RWithError.toResult, Option.some.injEq] at hw
        subst hv; subst hw; rfl
      | Invalid fs =>
        cases fs with
        | nil => simp [Validated.toResult, RWithError.toResult] at hw
        | cons f fs =>
          simp [Validated.toResult, RWithError.toResult] at hw
          subst hv; subst hw; rfl
    | Invalid es =>
      cases es with
      | nil => simp [Validated.toResult, RWithError.toResult] at hv
      | cons e es =>
        simp [Validated.toResult, RWithError.toResult] at hv
        cases w with
        | Valid y =>
          simp only [Validated.toResult, RWithError.toResult, Option.some.injEq] at hw
          subst hv; subst hw; rfl
        | Invalid fs =>
          cases fs with
          | nil => simp [Validated.toResult, RWithError.toResult] at hw
          | cons f fs =>
            simp [Validated.toResult, RWithError.toResult] at hw
            subst hv; subst hw
            simp only [ROrd.cmp, sliceCmp] at hne ⊢
            generalize ROrd.cmp e f = o at hne ⊢
            cases o
            · rfl
            · exact absurd rfl hne
            · rfl
  refine ⟨⟨fun he => ?_, ?_⟩, fun hlt hgt => ?_⟩
  · by_cases hab : a = b
    · rw [(Except.ordLaws h k a b).2 hab] at he
      exact .inl ((hl.eq_iff v w).1 he.symm)
    · exact .inr hab
  · rintro (rfl | hne)
    · rw [hv, Option.some.injEq] at hw
      rw [(hl.eq_iff v v).2 rfl, (Except.ordLaws h k a b).2 hw]
    · exact key hne
  · have hne : a ≠ b := fun he => by rw [(Except.ordLaws h k a b).2 he] at hgt; cases hgt
    rw [key hne, hlt] at hgt
    cases hgt

/-! ## Examples -/

example : ROrdLaws (Maybe (Either Nat (Writer (List Nat) (Choice Nat)))) :=
  c86_maybe_total (c86_either_total ordLaws_nat (c86_writer_total (ordLaws_list ordLaws_nat)
    (c86_choice_total ordLaws_nat)))

example : ROrdLaws (Validated (Min Nat) (Last Nat)) :=
  c86_validated_total (c86_wrappers_total ordLaws_nat).2.1 (c86_wrappers_total ordLaws_nat).2.2.2.2.2.2

/-- Numbers with one value that compares to nothing, like `f64` with `NaN`. -/
inductive Sometimes where
  | num (n : Nat)
  | nan

instance : RPartialOrd Sometimes where
  partialCmp
    | .num a, .num b => some (compare a b)
    | _, _ => none

example : RPartialOrd.partialCmp (Choice.mk [Sometimes.num 1, .nan, .num 5]) (Choice.mk [.num 1, .num 2]) = none :=
  (c86_incomparable Sometimes.nan (.num 2) 0 0 rfl [.num 1] [.num 5] [] (by
    intro s hs
    obtain rfl := List.mem_singleton.1 hs
    rfl)).2.2.2.2.2.1

/-- A difference before the incomparable elements decides. -/
example : RPartialOrd.partialCmp (Choice.mk [Sometimes.num 1, .nan]) (Choice.mk [.num 2, .nan]) = some .lt := rfl

example : RPartialOrd.partialCmp (Maybe.Just 3) (.Just 4) = some (ROrd.cmp (Maybe.Just 3) (.Just 4)) :=
  (c86_partial_cmp (T := Nat) (U := Nat) (fun _ _ => rfl) (fun _ _ => rfl)).1 _ _

example : ROrd.cmp (Choice.mk [1, 2, 9]) (Choice.mk [1, 3]) = .lt :=
  (c86_choice_dictionary (U := Nat) ordLaws_nat _ _).1.2 (.inr ⟨[1], 2, [9], 3, [], rfl, rfl, by decide⟩)

example : ROrd.cmp (Writer.mk 1 9) (Writer.mk 2 0) = .lt :=
  (c86_writer_log_first ordLaws_nat _ _).2 (.inl (by decide))

example : ROrd.cmp ((Maybe.Just 7).toResult 0) ((Maybe.Nothing : Maybe Nat).toResult 0) = .lt :=
  c86_maybe_result ordLaws_nat 0 _ _

/-- `Invalid([1, 2]) < Invalid([1, 3])`, but both give `Err(1)`. -/
example : ROrd.cmp (Except.error 1 : Except Nat Nat) (.error 1) ≠
    ROrd.cmp (Validated.Invalid [1, 2] : Validated Nat Nat) (.Invalid [1, 3]) := fun h => by
  have := (c86_validated_result_iff ordLaws_nat ordLaws_nat (.Invalid [1, 2]) (.Invalid [1, 3]) (.error 1)
    (.error 1) rfl rfl).1.1 h
  simp at this

/-- `Min` of optional values: `Maybe` prefers what is there, `Option` prefers `None`. -/
example : combine (Min.mk (Maybe.Just 5)) (Min.mk .Nothing) = Min.mk (Maybe.Just 5) ∧
    combine (Min.mk (some 5)) (Min.mk none) = Min.mk (none : Option Nat) := ⟨rfl, rfl⟩

end Rustica
