import Verif.Data.Access
import Verif.Traits.Evaluate
import Verif.Traits.Helpers
import Verif.Theorems.Async
import Verif.Theorems.Semigroup
import Verif.PVec.Theorems.Damaged
import Verif.PVec.Theorems.Iter
import Mathlib.Algebra.BigOperators.Group.List.Basic

/-!
# Reading values: `Identity` (C62), accessors (C63), what the wrappers compute (C64), iterators and mutation (C65),
`Evaluate` (C66), asynchronous maps of `Validated` (C67), derived trait methods (C68)
-/

namespace Rustica

/-! ## C62: `Identity` -/

section Spec62
/-- Specification: `held x` is the value that `x` holds, if any.  `value` and `into_value` return it, and panic exactly
when there is none. -/
def ReadsHeld (F : Type → Type) [RIdentity F] (held : ∀ {A : Type}, F A → Option A) : Prop :=
  ∀ {A : Type} (x : F A),
    (∀ a, held x = some a → RIdentity.value x = .ok a ∧ RIdentity.intoValue x = .ok a) ∧
    (held x = none → (∃ p, RIdentity.value x = .error p) ∧ ∃ p, RIdentity.intoValue x = .error p)

/-- Specification: the `try_` methods never panic and return the value, if any. -/
def TryIsSafe (F : Type → Type) [RIdentity F] (held : ∀ {A : Type}, F A → Option A) : Prop :=
  ∀ {A : Type} (x : F A), RIdentity.tryValue x = .ok (held x) ∧ RIdentity.tryIntoValue x = .ok (held x)

/-- What `try_value` does in the types that keep the default body: it panics exactly when nothing is held. -/
def TryPanics (F : Type → Type) [RIdentity F] (held : ∀ {A : Type}, F A → Option A) : Prop :=
  ∀ {A : Type} (x : F A),
    (∀ a, held x = some a → RIdentity.tryValue x = .ok (some a) ∧ RIdentity.tryIntoValue x = .ok (some a)) ∧
    (held x = none → (∃ p, RIdentity.tryValue x = .error p) ∧ ∃ p, RIdentity.tryIntoValue x = .error p)

/-- The value held by each type. -/
def heldMaybe {A : Type} : Maybe A → Option A
  | .Just a => some a
  | .Nothing => none
/-- The value held by each type. -/
def heldEither {L A : Type} : Either L A → Option A
  | .Right a => some a
  | .Left _ => none
/-- The value held by each type. -/
def heldResult {E A : Type} : Except E A → Option A
  | .ok a => some a
  | .error _ => none
/-- The value held by each type. -/
def heldValidated {E A : Type} : Validated E A → Option A
  | .Valid a => some a
  | .Invalid _ => none
/-- The value held by each type. -/
def heldChoice {A : Type} (c : Choice A) : Option A := c.values[0]?
end Spec62

/-- C62: `value` and `into_value` read the held value of every type and panic exactly when there is none. -/
theorem c62_value {E L W : Type} :
    ReadsHeld Option (fun o => o) ∧ ReadsHeld (Except E) heldResult ∧ ReadsHeld First (fun x => x.val) ∧
    ReadsHeld Last (fun x => x.val) ∧ ReadsHeld Maybe heldMaybe ∧ ReadsHeld (Either L) heldEither ∧
    ReadsHeld (Validated E) heldValidated ∧ ReadsHeld Choice heldChoice ∧
    ReadsHeld Min (fun x => some x.val) ∧ ReadsHeld Max (fun x => some x.val) ∧
    ReadsHeld Sum (fun x => some x.val) ∧ ReadsHeld Product (fun x => some x.val) ∧
    ReadsHeld RId (fun x => some x.value) ∧ ReadsHeld (Writer W) (fun x => some x.value) := by
  refine ⟨?_, ?_, ?_, ?_, ?_, ?_, ?_, ?_, ?_, ?_, ?_, ?_, ?_, ?_⟩
  · rintro A (_ | a)
    · exact ⟨by simp, fun _ => ⟨⟨_, rfl⟩, ⟨_, rfl⟩⟩⟩
    · exact ⟨fun b h => by cases h; exact ⟨rfl, rfl⟩, by simp⟩
  · rintro A (_ | a)
    · exact ⟨by simp [heldResult], fun _ => ⟨⟨_, rfl⟩, ⟨_, rfl⟩⟩⟩
    · exact ⟨fun b h => by cases h; exact ⟨rfl, rfl⟩, by simp [heldResult]⟩
  · rintro A ⟨_ | a⟩
    · exact ⟨by simp, fun _ => ⟨⟨_, rfl⟩, ⟨_, rfl⟩⟩⟩
    · exact ⟨fun b h => by cases h; exact ⟨rfl, rfl⟩, by simp⟩
  · rintro A ⟨_ | a⟩
    · exact ⟨by simp, fun _ => ⟨⟨_, rfl⟩, ⟨_, rfl⟩⟩⟩
    · exact ⟨fun b h => by cases h; exact ⟨rfl, rfl⟩, by simp⟩
  · rintro A (a | _)
    · exact ⟨fun b h => by cases h; exact ⟨rfl, rfl⟩, by simp [heldMaybe]⟩
    · exact ⟨by simp [heldMaybe], fun _ => ⟨⟨_, rfl⟩, ⟨_, rfl⟩⟩⟩
  · rintro A (l | a)
    · exact ⟨by simp [heldEither], fun _ => ⟨⟨_, rfl⟩, ⟨_, rfl⟩⟩⟩
    · exact ⟨fun b h => by cases h; exact ⟨rfl, rfl⟩, by simp [heldEither]⟩
  · rintro A (a | es)
    · exact ⟨fun b h => by cases h; exact ⟨rfl, rfl⟩, by simp [heldValidated]⟩
    · exact ⟨by simp [heldValidated], fun _ => ⟨⟨_, rfl⟩, ⟨_, rfl⟩⟩⟩
  · rintro A ⟨_ | ⟨a, as⟩⟩
    · exact ⟨by simp [heldChoice], fun _ => ⟨⟨_, rfl⟩, ⟨_, rfl⟩⟩⟩
    · exact ⟨fun b h => by cases h; exact ⟨rfl, rfl⟩, by simp [heldChoice]⟩
  all_goals
    intro A x
    exact ⟨fun b h => by cases h; exact ⟨rfl, rfl⟩, by simp⟩

theorem expect_none {A : Type} {o : Option A} {msg : String} (h : o = none) : expect o msg = .error msg := by
  subst h; rfl

/-- C62 for vectors: on every vector (even a damaged one) all four methods read the element at index 0; on an intact
one that is the first element of its contents. -/
theorem c62_vector {A : Type} (v : PVec.PV A) :
    (RIdentity.tryValue v = .ok (v.get 0) ∧ RIdentity.tryIntoValue v = .ok (v.get 0)) ∧
    (∀ a, v.get 0 = some a → RIdentity.value v = .ok a ∧ RIdentity.intoValue v = .ok a) ∧
    (v.get 0 = none → (∃ p, RIdentity.value v = .error p) ∧ ∃ p, RIdentity.intoValue v = .error p) ∧
    (PVec.Intact v → v.get 0 = v.toVec[0]?) := by
  have h := (PVec.PV.c11_next_is_get v 0).1
  have h1 : v.iter.next.1 = v.get 0 := h
  refine ⟨⟨rfl, congrArg Except.ok h1⟩, fun a ha => ⟨?_, ?_⟩, fun hn => ⟨?_, ?_⟩, fun hs => ?_⟩
  · show expect (v.get 0) _ = _; rw [ha]; rfl
  · show expect v.iter.next.1 _ = _; rw [h1, ha]; rfl
  · exact ⟨_, expect_none hn⟩
  · exact ⟨_, expect_none (h1.trans hn)⟩
  · exact hs.shows.get 0

/-- C62, `try_` methods: safe for `Option`, `Result` and the types that always hold a value.  Missing from C62: the
types of `c62_try_false`, for which it is false. -/
theorem c62_try_partial {E W : Type} :
    TryIsSafe Option (fun o => o) ∧ TryIsSafe (Except E) heldResult ∧
    TryIsSafe Min (fun x => some x.val) ∧ TryIsSafe Max (fun x => some x.val) ∧
    TryIsSafe Sum (fun x => some x.val) ∧ TryIsSafe Product (fun x => some x.val) ∧
    TryIsSafe RId (fun x => some x.value) ∧ TryIsSafe (Writer W) (fun x => some x.value) := by
  refine ⟨?_, ?_, ?_, ?_, ?_, ?_, ?_, ?_⟩
  · intro A x; exact ⟨rfl, rfl⟩
  · rintro A (_ | a) <;> exact ⟨rfl, rfl⟩
  all_goals
    intro A x
    exact ⟨rfl, rfl⟩

/-- C62, the exact behaviour of the `try_` methods of the six types that may be empty but keep the default body. -/
theorem c62_try_panics {E L : Type} :
    TryPanics First (fun x => x.val) ∧ TryPanics Last (fun x => x.val) ∧ TryPanics Maybe heldMaybe ∧
    TryPanics (Either L) heldEither ∧ TryPanics (Validated E) heldValidated ∧ TryPanics Choice heldChoice := by
  refine ⟨?_, ?_, ?_, ?_, ?_, ?_⟩
  · rintro A ⟨_ | a⟩
    · exact ⟨by simp, fun _ => ⟨⟨_, rfl⟩, ⟨_, rfl⟩⟩⟩
    · exact ⟨fun b h => by cases h; exact ⟨rfl, rfl⟩, by simp⟩
  · rintro A ⟨_ | a⟩
    · exact ⟨by simp, fun _ => ⟨⟨_, rfl⟩, ⟨_, rfl⟩⟩⟩
    · exact ⟨fun b h => by cases h; exact ⟨rfl, rfl⟩, by simp⟩
  · rintro A (a | _)
    · exact ⟨fun b h => by cases h; exact ⟨rfl, rfl⟩, by simp [heldMaybe]⟩
    · exact ⟨by simp [heldMaybe], fun _ => ⟨⟨_, rfl⟩, ⟨_, rfl⟩⟩⟩
  · rintro A (l | a)
    · exact ⟨by simp [heldEither], fun _ => ⟨⟨_, rfl⟩, ⟨_, rfl⟩⟩⟩
    · exact ⟨fun b h => by cases h; exact ⟨rfl, rfl⟩, by simp [heldEither]⟩
  · rintro A (a | es)
    · exact ⟨fun b h => by cases h; exact ⟨rfl, rfl⟩, by simp [heldValidated]⟩
    · exact ⟨by simp [heldValidated], fun _ => ⟨⟨_, rfl⟩, ⟨_, rfl⟩⟩⟩
  · rintro A ⟨_ | ⟨a, as⟩⟩
    · exact ⟨by simp [heldChoice], fun _ => ⟨⟨_, rfl⟩, ⟨_, rfl⟩⟩⟩
    · exact ⟨fun b h => by cases h; exact ⟨rfl, rfl⟩, by simp [heldChoice]⟩

/-- C62 is false of the code for six types: `try_value` panics on an empty `First`, `Last`, `Maybe`, `Choice`, on a
`Left` and on an `Invalid`. -/
theorem c62_try_false :
    ¬ TryIsSafe First (fun x => x.val) ∧ ¬ TryIsSafe Last (fun x => x.val) ∧ ¬ TryIsSafe Maybe heldMaybe ∧
    ¬ TryIsSafe (Either Nat) heldEither ∧ ¬ TryIsSafe (Validated Nat) heldValidated ∧
    ¬ TryIsSafe Choice heldChoice := by
  refine ⟨fun h => ?_, fun h => ?_, fun h => ?_, fun h => ?_, fun h => ?_, fun h => ?_⟩
  · exact nomatch (h (A := Nat) (⟨none⟩ : First Nat)).1
  · exact nomatch (h (A := Nat) (⟨none⟩ : Last Nat)).1
  · exact nomatch (h (A := Nat) (.Nothing : Maybe Nat)).1
  · exact nomatch (h (A := Nat) (.Left 3 : Either Nat Nat)).1
  · exact nomatch (h (A := Nat) (Validated.invalid 3 : Validated Nat Nat)).1
  · exact nomatch (h (A := Nat) (Choice.newEmpty : Choice Nat)).1

example : RIdentity.value (Maybe.Just 4) = .ok 4 ∧ RIdentity.tryValue (First.mk (some 4)) = .ok (some 4) := ⟨rfl, rfl⟩

/-! ## C63: accessors -/

/-- C63: the conversions of `Maybe` to and from `Option` are inverse; to and from a `Result`, a vector and an iterator
they keep the value. -/
theorem c63_maybe_conversions {T E : Type} (m : Maybe T) (o : Option T) (r : Except E T) (e : E) (xs : List T) :
    Maybe.fromOption m.toOption = m ∧ (Maybe.fromOption o).toOption = o ∧
    (∀ v, m.toResult e = .ok v ↔ m = .Just v) ∧ (∀ x, m.toResult e = .error x ↔ m = .Nothing ∧ x = e) ∧
    Maybe.fromResult (m.toResult e) = m ∧
    (∀ v, Maybe.fromResult r = .Just v ↔ r = .ok v) ∧
    m.toStandardResult = m.toResult .ValueNotPresent ∧
    (∀ v, v ∈ m.toVec ↔ m = .Just v) ∧ m.toVec.length ≤ 1 ∧ Maybe.fromIter m.toVec = m ∧
    (Maybe.fromIter xs).toVec = xs.take 1 := by
  refine ⟨?_, ?_, ?_, ?_, ?_, ?_, rfl, ?_, ?_, ?_, ?_⟩
  · cases m <;> rfl
  · cases o <;> rfl
  · cases m <;> simp [Maybe.toResult]
  · cases m <;> simp [Maybe.toResult, eq_comm]
  · cases m <;> rfl
  · cases r <;> simp [Maybe.fromResult]
  · cases m <;> simp [Maybe.toVec, eq_comm]
  · cases m <;> simp [Maybe.toVec]
  · cases m <;> rfl
  · cases xs <;> rfl

/-- C63: the accessors of `Maybe`.  `unwrap` panics exactly on `Nothing`; `unwrap_or_else` calls its closure only
there (the closure is irrelevant otherwise); `filter` keeps the value exactly when the predicate holds. -/
theorem c63_maybe_accessors {T U : Type} (m : Maybe T) (d : T) (u : U) (f : T → U) (g h : Unit → T) (p : T → Bool)
    (c : Bool) (x : T) :
    (∀ v, m.unwrap = some v ↔ m = .Just v) ∧ (m.unwrap = none ↔ m = .Nothing) ∧
    (m.isJust = true ↔ ∃ v, m = .Just v) ∧ (m.isNothing = true ↔ m = .Nothing) ∧
    (∀ v, m = .Just v → m.unwrapOr d = v ∧ m.unwrapOrElse g = v ∧ m.unwrapOrElse g = m.unwrapOrElse h ∧
      m.fmapOr u f = f v) ∧
    (m = .Nothing → m.unwrapOr d = d ∧ m.unwrapOrElse g = g () ∧ m.fmapOr u f = u) ∧
    (∀ v, m.filter p = .Just v ↔ m = .Just v ∧ p v = true) ∧
    (∀ v, Maybe.mkWhen c x = .Just v ↔ c = true ∧ x = v) ∧
    (Maybe.default' : Maybe T) = .Nothing := by
  refine ⟨?_, ?_, ?_, ?_, ?_, ?_, ?_, ?_, rfl⟩
  · cases m <;> simp [Maybe.unwrap]
  · cases m <;> simp [Maybe.unwrap]
  · cases m <;> simp [Maybe.isJust]
  · cases m <;> simp [Maybe.isNothing]
  · rintro v rfl; exact ⟨rfl, rfl, rfl, rfl⟩
  · rintro rfl; exact ⟨rfl, rfl, rfl⟩
  · cases m with
    | Nothing => simp [Maybe.filter]
    | Just w =>
      intro v
      by_cases hp : p w = true <;> simp [Maybe.filter, hp]
      · intro e; exact e ▸ hp
      · rintro rfl; simpa using hp
  · intro v; cases c <;> simp [Maybe.mkWhen]

/-- C63: `tap` returns its receiver and runs the closure exactly once on the value of a `Just`, not at all on
`Nothing`. -/
theorem c63_maybe_tap {σ T : Type} (m : Maybe T) (f : T → Eff σ Unit) (w : σ) :
    (m.tap f w).1 = m ∧ (∀ v, m = .Just v → (m.tap f w).2 = (f v w).2) ∧ (m = .Nothing → (m.tap f w).2 = w) := by
  refine ⟨?_, ?_, ?_⟩
  · cases m <;> rfl
  · rintro v rfl; rfl
  · rintro rfl; rfl

/-- C63: the accessors of `Either`; each pair of panicking accessors panics exactly on the other side. -/
theorem c63_either {L R : Type} (e : Either L R) (dl : L) (dr : R) :
    (∀ l, e.unwrapLeft = some l ↔ e = .Left l) ∧ (e.unwrapLeft = none ↔ ∃ r, e = .Right r) ∧
    (∀ r, e.unwrapRight = some r ↔ e = .Right r) ∧ (e.unwrapRight = none ↔ ∃ l, e = .Left l) ∧
    (e.isLeft = true ↔ ∃ l, e = .Left l) ∧ (e.isRight = true ↔ ∃ r, e = .Right r) ∧
    (e.isLeft = !e.isRight) ∧
    (∀ r, e = .Right r → e.unwrapOr dr = r ∧ e.leftOr dl = dl ∧ e.rightOption = some r ∧ e.leftOption = none ∧
      e.iter = [r] ∧ e.leftIter = []) ∧
    (∀ l, e = .Left l → e.unwrapOr dr = dr ∧ e.leftOr dl = l ∧ e.rightOption = none ∧ e.leftOption = some l ∧
      e.iter = [] ∧ e.leftIter = [l]) := by
  refine ⟨?_, ?_, ?_, ?_, ?_, ?_, ?_, ?_, ?_⟩
  · cases e <;> simp [Either.unwrapLeft]
  · cases e <;> simp [Either.unwrapLeft]
  · cases e <;> simp [Either.unwrapRight]
  · cases e <;> simp [Either.unwrapRight]
  · cases e <;> simp [Either.isLeft]
  · cases e <;> simp [Either.isRight]
  · cases e <;> rfl
  · rintro r rfl; exact ⟨rfl, rfl, rfl, rfl, rfl, rfl⟩
  · rintro l rfl; exact ⟨rfl, rfl, rfl, rfl, rfl, rfl⟩

/-- C63: the wrappers.  `unwrap` of `First`/`Last` panics exactly when empty, `unwrap_or` then gives the default; the
other wrappers always hold a value; `From` followed by `unwrap` is the identity. -/
theorem c63_wrappers {T : Type} (t d : T) (o : Option T) :
    ((First.mk o).unwrap = none ↔ o = none) ∧ ((Last.mk o).unwrap = none ↔ o = none) ∧
    (First.from' t).unwrap = some t ∧ (Last.from' t).unwrap = some t ∧
    (First.from' t).unwrapOr d = t ∧ (Last.from' t).unwrapOr d = t ∧
    (First.mk none).unwrapOr d = d ∧ (Last.mk none).unwrapOr d = d ∧
    (Min.from' t).unwrap = t ∧ (Max.from' t).unwrap = t ∧ (Sum.from' t).unwrap = t ∧ (Product.from' t).unwrap = t ∧
    (Min.from' t).unwrapOr d = t ∧ (Max.from' t).unwrapOr d = t ∧ (Sum.from' t).unwrapOr d = t ∧
    (Product.from' t).unwrapOr d = t :=
  ⟨Iff.rfl, Iff.rfl, rfl, rfl, rfl, rfl, rfl, rfl, rfl, rfl, rfl, rfl, rfl, rfl, rfl, rfl⟩

/-! ## C64: what folding with the wrappers computes -/

section Wrappers
variable {T : Type}

theorem first_foldl (xs : List (Option T)) (a : Option T) :
    (xs.map First.mk).foldl combine ⟨a⟩ = ⟨(a :: xs).findSome? id⟩ ∧
    (xs.map First.mk).foldl combineOwned ⟨a⟩ = ⟨(a :: xs).findSome? id⟩ := by
  induction xs generalizing a with
  | nil => cases a <;> exact ⟨rfl, rfl⟩
  | cons x xs ih =>
    have h1 : combine (First.mk a) (First.mk x) = ⟨a.or x⟩ := by cases a <;> rfl
    have h2 : combineOwned (First.mk a) (First.mk x) = ⟨a.or x⟩ := by cases a <;> rfl
    simp only [List.map_cons, List.foldl_cons, h1, h2, ih]
    cases a <;> simp

/-- C64: folding `First`s from the empty one gives the first value present. -/
theorem c64_first (xs : List (Option T)) :
    (xs.map First.mk).foldl combine RMonoid.empty = ⟨xs.findSome? id⟩ ∧
    (xs.map First.mk).foldl combineOwned RMonoid.empty = ⟨xs.findSome? id⟩ := by
  have he : (RMonoid.empty : First T) = ⟨none⟩ := rfl
  have h := first_foldl xs none
  rw [he]
  simpa using h

theorem last_foldl (xs : List (Option T)) (a : Option T) :
    (xs.map Last.mk).foldl combine ⟨a⟩ = ⟨(xs.reverse ++ [a]).findSome? id⟩ ∧
    (xs.map Last.mk).foldl combineOwned ⟨a⟩ = ⟨(xs.reverse ++ [a]).findSome? id⟩ := by
  induction xs generalizing a with
  | nil => cases a <;> exact ⟨rfl, rfl⟩
  | cons x xs ih =>
    have h1 : combine (Last.mk a) (Last.mk x) = ⟨x.or a⟩ := by cases x <;> rfl
    have h2 : combineOwned (Last.mk a) (Last.mk x) = ⟨x.or a⟩ := by cases x <;> rfl
    simp only [List.map_cons, List.foldl_cons, h1, h2, ih]
    cases x <;> simp [List.findSome?_append]

/-- C64: folding `Last`s from the empty one gives the last value present. -/
theorem c64_last (xs : List (Option T)) :
    (xs.map Last.mk).foldl combine RMonoid.empty = ⟨xs.reverse.findSome? id⟩ ∧
    (xs.map Last.mk).foldl combineOwned RMonoid.empty = ⟨xs.reverse.findSome? id⟩ := by
  have he : (RMonoid.empty : Last T) = ⟨none⟩ := rfl
  have h := last_foldl xs none
  rw [he]
  simpa [List.findSome?_append] using h

/-- `a ≤ b` in the order of `cmp`. -/
def cmpLe [ROrd T] (a b : T) : Prop := ROrd.cmp a b ≠ .gt

theorem min_combine [ROrd T] (hl : ROrdLaws T) (a b : T) :
    ∃ m, combine (Min.mk a) (Min.mk b) = ⟨m⟩ ∧ combineOwned (Min.mk a) (Min.mk b) = ⟨m⟩ ∧ (m = a ∨ m = b) ∧
      cmpLe m a ∧ cmpLe m b := by
  have haa : ROrd.cmp a a = .eq := (hl.eq_iff a a).2 rfl
  have hbb : ROrd.cmp b b = .eq := (hl.eq_iff b b).2 rfl
  have hs := hl.swap a b
  simp only [combine, combineOwned, cmpLe]
  cases h : ROrd.cmp a b <;> rw [h] at hs
  · exact ⟨a, rfl, rfl, .inl rfl, by simp [haa], by simp [h]⟩
  · exact ⟨a, rfl, rfl, .inl rfl, by simp [haa], by simp [h]⟩
  · exact ⟨b, rfl, rfl, .inr rfl, by simp [hs], by simp [hbb]⟩

theorem max_combine [ROrd T] (hl : ROrdLaws T) (a b : T) :
    ∃ m, combine (Max.mk a) (Max.mk b) = ⟨m⟩ ∧ combineOwned (Max.mk a) (Max.mk b) = ⟨m⟩ ∧ (m = a ∨ m = b) ∧
      cmpLe a m ∧ cmpLe b m := by
  have haa : ROrd.cmp a a = .eq := (hl.eq_iff a a).2 rfl
  have hbb : ROrd.cmp b b = .eq := (hl.eq_iff b b).2 rfl
  have hs := hl.swap a b
  simp only [combine, combineOwned, cmpLe]
  cases h : ROrd.cmp a b <;> rw [h] at hs
  · exact ⟨b, rfl, rfl, .inr rfl, by simp [h], by simp [hbb]⟩
  · exact ⟨a, rfl, rfl, .inl rfl, by simp [haa], by simp [hs]⟩
  · exact ⟨a, rfl, rfl, .inl rfl, by simp [haa], by simp [hs]⟩

/-- C64: folding `Min`s gives a smallest element. -/
theorem c64_min [ROrd T] (hl : ROrdLaws T) (x : T) (xs : List T) :
    ∃ m, (xs.map Min.mk).foldl combine ⟨x⟩ = ⟨m⟩ ∧ (xs.map Min.mk).foldl combineOwned ⟨x⟩ = ⟨m⟩ ∧ m ∈ x :: xs ∧
      ∀ y ∈ x :: xs, cmpLe m y := by
  induction xs generalizing x with
  | nil =>
    refine ⟨x, rfl, rfl, by simp, fun y hy => ?_⟩
    simp only [List.mem_singleton] at hy
    subst hy
    simp [cmpLe, (hl.eq_iff y y).2 rfl]
  | cons z zs ih =>
    obtain ⟨m, h1, h2, hm, hx, hz⟩ := min_combine hl x z
    obtain ⟨m', e1, e2, hm', hle⟩ := ih m
    refine ⟨m', ?_, ?_, ?_, fun y hy => ?_⟩
    · simpa [h1] using e1
    · simpa [h2] using e2
    · rcases List.mem_cons.1 hm' with rfl | h
      · rcases hm with rfl | rfl <;> simp
      · simp [h]
    · rcases List.mem_cons.1 hy with rfl | hy
      · exact hl.trans _ _ _ (hle m (by simp)) hx
      · rcases List.mem_cons.1 hy with rfl | hy
        · exact hl.trans _ _ _ (hle m (by simp)) hz
        · exact hle y (by simp [hy])

/-- C64: folding `Max`s gives a greatest element. -/
theorem c64_max [ROrd T] (hl : ROrdLaws T) (x : T) (xs : List T) :
    ∃ m, (xs.map Max.mk).foldl combine ⟨x⟩ = ⟨m⟩ ∧ (xs.map Max.mk).foldl combineOwned ⟨x⟩ = ⟨m⟩ ∧ m ∈ x :: xs ∧
      ∀ y ∈ x :: xs, cmpLe y m := by
  induction xs generalizing x with
  | nil =>
    refine ⟨x, rfl, rfl, by simp, fun y hy => ?_⟩
    simp only [List.mem_singleton] at hy
    subst hy
    simp [cmpLe, (hl.eq_iff y y).2 rfl]
  | cons z zs ih =>
    obtain ⟨m, h1, h2, hm, hx, hz⟩ := max_combine hl x z
    obtain ⟨m', e1, e2, hm', hle⟩ := ih m
    refine ⟨m', ?_, ?_, ?_, fun y hy => ?_⟩
    · simpa [h1] using e1
    · simpa [h2] using e2
    · rcases List.mem_cons.1 hm' with rfl | h
      · rcases hm with rfl | rfl <;> simp
      · simp [h]
    · rcases List.mem_cons.1 hy with rfl | hy
      · exact hl.trans _ _ _ hx (hle m (by simp))
      · rcases List.mem_cons.1 hy with rfl | hy
        · exact hl.trans _ _ _ hz (hle m (by simp))
        · exact hle y (by simp [hy])

theorem sum_foldl [AddMonoid T] (xs : List T) (a : T) :
    (xs.map Sum.mk).foldl combine ⟨a⟩ = ⟨a + xs.sum⟩ ∧ (xs.map Sum.mk).foldl combineOwned ⟨a⟩ = ⟨a + xs.sum⟩ := by
  induction xs generalizing a with
  | nil => simp
  | cons x xs ih =>
    have h1 : combine (Sum.mk a) (Sum.mk x) = ⟨a + x⟩ := rfl
    have h2 : combineOwned (Sum.mk a) (Sum.mk x) = ⟨a + x⟩ := rfl
    simp only [List.map_cons, List.foldl_cons, h1, h2, ih, List.sum_cons, add_assoc, and_self]

/-- C64: folding `Sum`s from the empty one gives the sum, for every additive monoid whose default is zero. -/
theorem c64_sum [AddMonoid T] [Inhabited T] (h0 : (default : T) = 0) (xs : List T) :
    (xs.map Sum.mk).foldl combine RMonoid.empty = ⟨xs.sum⟩ ∧
    (xs.map Sum.mk).foldl combineOwned RMonoid.empty = ⟨xs.sum⟩ := by
  have he : (RMonoid.empty : Sum T) = ⟨0⟩ := by rw [← h0]; rfl
  have h := sum_foldl xs (0 : T)
  rw [he]
  simpa using h

example : ([4, 2, 9].map Sum.mk).foldl combine RMonoid.empty = ⟨([4, 2, 9] : List ℤ).sum⟩ := (c64_sum rfl _).1

theorem product_foldl [Monoid T] (xs : List T) (a : T) :
    (xs.map Product.mk).foldl combine ⟨a⟩ = ⟨a * xs.prod⟩ ∧
    (xs.map Product.mk).foldl combineOwned ⟨a⟩ = ⟨a * xs.prod⟩ := by
  induction xs generalizing a with
  | nil => simp
  | cons x xs ih =>
    have h1 : combine (Product.mk a) (Product.mk x) = ⟨a * x⟩ := rfl
    have h2 : combineOwned (Product.mk a) (Product.mk x) = ⟨a * x⟩ := rfl
    simp only [List.map_cons, List.foldl_cons, h1, h2, ih, List.prod_cons, mul_assoc, and_self]

/-- C64: folding `Product`s from the empty one gives the product, for every monoid whose `From<u8>` sends 1 to one. -/
theorem c64_product [Monoid T] [RFromU8 T] (h1 : (RFromU8.ofU8 1 : T) = 1) (xs : List T) :
    (xs.map Product.mk).foldl combine RMonoid.empty = ⟨xs.prod⟩ ∧
    (xs.map Product.mk).foldl combineOwned RMonoid.empty = ⟨xs.prod⟩ := by
  have he : (RMonoid.empty : Product T) = ⟨1⟩ := by rw [← h1]; rfl
  have h := product_foldl xs (1 : T)
  rw [he]
  simpa using h

example : ([4, 2, 9].map Product.mk).foldl combine RMonoid.empty = ⟨([4, 2, 9] : List ℤ).prod⟩ := (c64_product rfl _).1

/-- C64: folding `Predicate`s from the empty one accepts exactly what some predicate accepts. -/
theorem c64_predicate (ps : List (Predicate T)) (t : T) :
    ((ps.foldl combine RMonoid.empty).contains t = true ↔ ∃ p ∈ ps, p.contains t = true) ∧
    ((ps.foldl combineOwned RMonoid.empty).contains t = true ↔ ∃ p ∈ ps, p.contains t = true) := by
  have key : ∀ (ps : List (Predicate T)) (q : Predicate T),
      ((ps.foldl combine q).contains t = true ↔ q.contains t = true ∨ ∃ p ∈ ps, p.contains t = true) ∧
      ((ps.foldl combineOwned q).contains t = true ↔ q.contains t = true ∨ ∃ p ∈ ps, p.contains t = true) := by
    intro ps
    induction ps with
    | nil => intro q; simp
    | cons p ps ih =>
      intro q
      have h1 : (combine q p).contains t = (q.contains t || p.contains t) := rfl
      have h2 : (combineOwned q p).contains t = (q.contains t || p.contains t) := rfl
      simp only [List.foldl_cons, ih, h1, h2, Bool.or_eq_true, List.mem_cons]
      constructor <;> constructor <;> (rintro h; grind)
  have he : (RMonoid.empty : Predicate T).contains t = false := rfl
  have := key ps RMonoid.empty
  rw [he] at this
  simpa using this

example : ([none, some 3, none, some 5].map First.mk).foldl combine RMonoid.empty = ⟨some 3⟩ ∧
    ([none, some 3, none, some 5].map Last.mk).foldl combine RMonoid.empty = ⟨some 5⟩ ∧
    ([4, 2, 9].map Min.mk).foldl combine ⟨7⟩ = ⟨2⟩ ∧ ([4, 2, 9].map Max.mk).foldl combine ⟨7⟩ = ⟨9⟩ ∧
    ([4, 2, 9].map Sum.mk).foldl combine RMonoid.empty = ⟨15⟩ ∧
    ([4, 2, 9].map Product.mk).foldl combine RMonoid.empty = ⟨72⟩ := by decide

/-- The order of the natural numbers meets the hypothesis of `c64_min` and `c64_max`. -/
example : ROrdLaws Nat where
  eq_iff := fun a b => by simp [ROrd.cmp]
  swap := fun a b => (Nat.compare_swap a b).symm
  trans := fun a b c h1 h2 => by
    simp only [ROrd.cmp, ne_eq, Nat.compare_eq_gt] at h1 h2 ⊢; omega

end Wrappers

end Rustica
