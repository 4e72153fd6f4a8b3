import Verif.Theorems.Applicative

/-!
# C25, C26: monad laws, alternatives
-/

namespace Rustica
open RAlternative RMonadPlus

/-! ## C25 -/

theorem c25_option : MonadLaws Option where
  left_id := fun _ _ => rfl
  right_id := by intro A m; cases m <;> rfl
  assoc := by intro A B C m f g; cases m <;> rfl
  join_eq := fun _ _ => rfl
  bind_owned := fun _ _ => rfl
  join_owned := fun _ _ => rfl
  flat_map := fun _ _ => ⟨rfl, rfl⟩
  fmap_eq := by intro A B f m; cases m <;> rfl
  map_and_pure := by intro A B f m; cases m <;> rfl

theorem c25_result {E : Type} : MonadLaws (Except E) where
  left_id := fun _ _ => rfl
  right_id := by intro A m; cases m <;> rfl
  assoc := by intro A B C m f g; cases m <;> rfl
  join_eq := fun _ _ => rfl
  bind_owned := fun _ _ => rfl
  join_owned := fun _ _ => rfl
  flat_map := fun _ _ => ⟨rfl, rfl⟩
  fmap_eq := by intro A B f m; cases m <;> rfl
  map_and_pure := by intro A B f m; cases m <;> rfl

theorem c25_maybe : MonadLaws Maybe where
  left_id := fun _ _ => rfl
  right_id := by intro A m; cases m <;> rfl
  assoc := by intro A B C m f g; cases m <;> rfl
  join_eq := fun _ _ => rfl
  bind_owned := fun _ _ => rfl
  join_owned := fun _ _ => rfl
  flat_map := fun _ _ => ⟨rfl, rfl⟩
  fmap_eq := by intro A B f m; cases m <;> rfl
  map_and_pure := by intro A B f m; cases m <;> rfl

theorem c25_either {L : Type} : MonadLaws (Either L) where
  left_id := fun _ _ => rfl
  right_id := by intro A m; cases m <;> rfl
  assoc := by intro A B C m f g; cases m <;> rfl
  join_eq := fun _ _ => rfl
  bind_owned := fun _ _ => rfl
  join_owned := fun _ _ => rfl
  flat_map := fun _ _ => ⟨rfl, rfl⟩
  fmap_eq := by intro A B f m; cases m <;> rfl
  map_and_pure := by intro A B f m; cases m <;> rfl

theorem c25_id : MonadLaws RId where
  left_id := fun _ _ => rfl
  right_id := fun _ => rfl
  assoc := fun _ _ _ => rfl
  join_eq := fun _ _ => rfl
  bind_owned := fun _ _ => rfl
  join_owned := fun _ _ => rfl
  flat_map := fun _ _ => ⟨rfl, rfl⟩
  fmap_eq := fun _ _ => rfl
  map_and_pure := fun _ _ => rfl

theorem c25_validated {E : Type} : MonadLaws (Validated E) where
  left_id := fun _ _ => rfl
  right_id := by intro A m; cases m <;> rfl
  assoc := by intro A B C m f g; cases m <;> rfl
  join_eq := fun _ _ => rfl
  bind_owned := fun _ _ => rfl
  join_owned := fun _ _ => rfl
  flat_map := fun _ _ => ⟨rfl, rfl⟩
  fmap_eq := by intro A B f m; cases m <;> rfl
  map_and_pure := by intro A B f m; cases m <;> rfl

theorem c25_writer {W : Type} [RMonoid W] (hs : SemigroupLaw W) (hm : MonoidLaw W) (ho : OwnedAgrees W) :
    MonadLaws (Writer W) where
  left_id := by intro A B a f; simp [RMonad.bind, RPure.pure, (hm _).1]
  right_id := by intro A m; simp [RMonad.bind, RPure.pure, (hm _).2]
  assoc := by intro A B C m f g; simp [RMonad.bind, hs _ _ _]
  join_eq := fun _ _ => rfl
  bind_owned := by intro A B m f; simp [RMonad.bind, RMonad.bindOwned, ho _ _]
  join_owned := by intro A B m f; simp [RMonad.join, RMonad.joinOwned, ho _ _]
  flat_map := by intro A B m f; simp [flatMap, flatMapOwned, RMonad.bind, RMonad.bindOwned, ho _ _]
  fmap_eq := by intro A B f m; simp [RFunctor.fmap, RMonad.bind, RPure.pure, (hm _).2]
  map_and_pure := by intro A B f m; simp [mapAndPure, RFunctor.fmap, RMonad.bind, RPure.pure, (hm _).2]

example : MonadLaws (Writer String) := c25_writer c16_string c17_string c18_string

/-- `apply` is the one derived from `bind`. -/
theorem c25_apply_from_bind {E L W : Type} [RMonoid W] :
    ApplyFromBind Option ∧ ApplyFromBind (Except E) ∧ ApplyFromBind Maybe ∧ ApplyFromBind (Either L) ∧
    ApplyFromBind RId ∧ ApplyFromBind (Writer W) := by
  refine ⟨?_, ?_, ?_, ?_, fun _ _ => rfl, fun _ _ => rfl⟩ <;> intro A B u v <;> cases u <;> cases v <;> rfl

/-- … but not for `Validated`: `apply` accumulates, `bind` short-circuits. -/
theorem c25_apply_from_bind_validated_false : ¬ ApplyFromBind (Validated Nat) := by
  intro h
  have := @h Nat Nat (.Invalid [1]) (.Invalid [2])
  simp [RApplicative.apply, RMonad.bind] at this

/-- `Choice::bind` is not associative: an empty result for the *primary* value empties everything. -/
theorem c25_choice_false : ¬ MonadLaws Choice := by
  intro h
  have := h.assoc (Choice.new false [true])
    (fun b : Bool => if b then Choice.new 1 [2] else Choice.new (0 : Nat) [])
    (fun n => if n = 1 then Choice.newEmpty else Choice.new n [])
  exact absurd (congrArg Choice.values this) (by decide)

/-- `Choice`: all monad laws except associativity. -/
theorem c25_choice_partial :
    (∀ {A B : Type} (a : A) (f : A → Choice B), RMonad.bind (RPure.pure a) f = f a) ∧
    (∀ {A : Type} (m : Choice A), RMonad.bind m (fun a => RPure.pure a) = m) ∧
    (∀ {A B : Type} (into : A → Choice B) (m : Choice A), RMonad.join into m = RMonad.bind m into) ∧
    (∀ {A B : Type} (m : Choice A) (f : A → Choice B), RMonad.bindOwned m f = RMonad.bind m f) ∧
    (∀ {A B : Type} (into : A → Choice B) (m : Choice A), RMonad.joinOwned into m = RMonad.join into m) ∧
    (∀ {A B : Type} (f : A → B) (m : Choice A),
      RFunctor.fmap f m = RMonad.bind m (fun a => RPure.pure (f a)) ∧ mapAndPure m f = RFunctor.fmap f m) := by
  have hp : ∀ {A B : Type} (f : A → B) (m : Choice A),
      (Choice.bind m (fun a => (RPure.pure (f a) : Choice B))).values = m.values.map f := by
    intro A B f m
    rw [Choice.bind_values]
    obtain ⟨_ | ⟨v, vs⟩⟩ := m
    · rfl
    · simp [Choice.pure_values, List.map_eq_flatMap]
  refine ⟨?_, ?_, fun into m => Choice.join_eq into m, fun m f => Choice.bindOwned_eq m f,
    fun into m => (Choice.joinOwned_eq into m).trans (Choice.join_eq into m).symm, ?_⟩
  · intro A B a f
    apply Choice.ext'
    show (Choice.bind _ _).values = _
    rw [Choice.bind_values, Choice.pure_values]
    simp only [List.flatMap_cons, List.flatMap_nil, List.append_nil]
    split
    · rename_i h; exact h.symm
    · rfl
  · intro A m
    apply Choice.ext'
    exact (hp (fun a => a) m).trans (List.map_id' _)
  · intro A B f m
    have : RFunctor.fmap f m = RMonad.bind m (fun a => (RPure.pure (f a) : Choice B)) := by
      apply Choice.ext'
      exact (Choice.fmap_values f m).trans (hp f m).symm
    exact ⟨this, this.symm⟩

/-- `Choice`: associativity whenever no *alternative* `w` has a result `f w` whose first value is sent to the
empty choice (the situation in which `bind` discards that alternative's other values). -/
theorem c25_choice_assoc_partial {A B C : Type} (m : Choice A) (f : A → Choice B) (g : B → Choice C)
    (h : ∀ w ∈ m.alternatives, ∀ y, (f w).first = some y → (g y).values ≠ []) :
    RMonad.bind (RMonad.bind m f) g = RMonad.bind m (fun a => RMonad.bind (f a) g) := by
  apply Choice.ext'
  show (Choice.bind (Choice.bind m f) g).values = (Choice.bind m (fun a => Choice.bind (f a) g)).values
  rw [Choice.alternatives_eq] at h
  rw [Choice.bind_values, Choice.bind_values m f, Choice.bind_values m]
  obtain ⟨_ | ⟨v, vs⟩⟩ := m
  · rfl
  · simp only [List.drop_succ_cons, List.drop_zero] at h
    simp only
    have halt : ∀ w ∈ vs, (Choice.bind (f w) g).values = (f w).values.flatMap (fun y => (g y).values) := by
      intro w hw
      rw [Choice.bind_values]
      have := h w hw
      simp only [Choice.first] at this
      rcases hf : (f w).values with _ | ⟨y, ys⟩
      · rfl
      · rw [hf] at this
        exact if_neg (this y rfl)
    have hrest : vs.flatMap (fun w => (Choice.bind (f w) g).values)
        = (vs.flatMap fun w => (f w).values).flatMap (fun y => (g y).values) := by
      rw [List.flatMap_assoc, List.flatMap_def, List.flatMap_def, List.map_congr_left halt]
    rcases hv : (f v).values with _ | ⟨y, ys⟩
    · simp [Choice.bind_values, hv]
    · simp only [List.flatMap_cons, hv, reduceCtorEq, if_false, List.cons_append]
      rw [Choice.bind_values (f v), hv]
      by_cases hg : (g y).values = []
      · simp [hg]
      · have hne : (g y).values ++ List.flatMap (fun v => (g v).values) ys ≠ [] := by simp [hg]
        simp only [if_neg hg, List.flatMap_cons, if_neg hne, hrest, List.flatMap_append, List.append_assoc]

example : ∀ w ∈ (Choice.new 1 [2]).alternatives, ∀ y, (Choice.new w [w + 1]).first = some y →
    (if y = 3 then Choice.newEmpty else Choice.new y []).values ≠ ([] : List Nat) := by decide

/-- `Choice`: exactly when `bind` is associative.  Either the primary value already leads to nothing, or every
alternative `w` of which `bind` discards values (the first value of `f w` is sent to the empty choice) had nothing to
lose. -/
theorem c25_choice_assoc_iff {A B C : Type} (m : Choice A) (f : A → Choice B) (g : B → Choice C) :
    RMonad.bind (RMonad.bind m f) g = RMonad.bind m (fun a => RMonad.bind (f a) g) ↔
      ((∃ v y, m.first = some v ∧ (f v).first = some y ∧ (g y).values ≠ []) →
        ∀ w ∈ m.alternatives, ∀ y, (f w).first = some y → (g y).values = [] →
          ∀ z ∈ (f w).values, (g z).values = []) := by
  have ext : RMonad.bind (RMonad.bind m f) g = RMonad.bind m (fun a => RMonad.bind (f a) g) ↔
      (Choice.bind (Choice.bind m f) g).values = (Choice.bind m (fun a => Choice.bind (f a) g)).values :=
    ⟨fun h => congrArg Choice.values h, fun h => Choice.ext' h⟩
  rw [ext, Choice.alternatives_eq, Choice.bind_values, Choice.bind_values m f, Choice.bind_values m]
  obtain ⟨_ | ⟨v, vs⟩⟩ := m
  · simp [Choice.first]
  simp only [List.drop_succ_cons, List.drop_zero, Choice.first, List.head?_cons, Option.some.injEq]
  -- what one alternative yields on either side
  have sub : ∀ w, (Choice.bind (f w) g).values = (f w).values.flatMap (fun y => (g y).values) ∨
      (Choice.bind (f w) g).values = [] := by
    intro w
    rw [Choice.bind_values]
    rcases (f w).values with _ | ⟨y, ys⟩
    · exact .inr rfl
    · by_cases hg : (g y).values = []
      · exact .inr (if_pos hg)
      · exact .inl (if_neg hg)
  have one : ∀ w, (Choice.bind (f w) g).values = (f w).values.flatMap (fun y => (g y).values) ↔
      ∀ y, (f w).values.head? = some y → (g y).values = [] → ∀ z ∈ (f w).values, (g z).values = [] := by
    intro w
    rw [Choice.bind_values]
    rcases (f w).values with _ | ⟨y, ys⟩
    · simp
    · simp only [List.head?_cons, Option.some.injEq, forall_eq']
      by_cases hg : (g y).values = []
      · rw [if_pos hg, eq_comm, List.flatMap_eq_nil_iff]
        exact ⟨fun h _ => h, fun h => h hg⟩
      · rw [if_neg hg]
        exact ⟨fun _ h => absurd h hg, fun _ => rfl⟩
  have all : ∀ vs : List A, vs.flatMap (fun w => (Choice.bind (f w) g).values)
      = (vs.flatMap fun w => (f w).values).flatMap (fun y => (g y).values) ↔
      ∀ w ∈ vs, (Choice.bind (f w) g).values = (f w).values.flatMap (fun y => (g y).values) := by
    intro vs
    have len : ∀ vs : List A, (vs.flatMap (fun w => (Choice.bind (f w) g).values)).length
        ≤ ((vs.flatMap fun w => (f w).values).flatMap (fun y => (g y).values)).length := by
      intro vs
      induction vs with
      | nil => simp
      | cons w ws ih =>
        simp only [List.flatMap_cons, List.flatMap_append, List.length_append]
        rcases sub w with h | h
        · rw [h]; omega
        · rw [h]; simp only [List.length_nil]; omega
    induction vs with
    | nil => simp
    | cons w ws ih =>
      simp only [List.flatMap_cons, List.flatMap_append, List.forall_mem_cons]
      constructor
      · intro h
        rcases sub w with hw | hw
        · rw [hw] at h ⊢
          exact ⟨rfl, ih.1 (List.append_cancel_left h)⟩
        · have hl := congrArg List.length h
          rw [hw] at h
          simp only [List.length_append, hw, List.length_nil] at hl
          have := len ws
          have hz : (f w).values.flatMap (fun y => (g y).values) = [] :=
            List.length_eq_zero_iff.1 (by omega)
          rw [hz] at h ⊢
          exact ⟨hw, ih.1 h⟩
      · rintro ⟨h1, h2⟩
        rw [h1, ih.2 h2]
  rcases hv : (f v).values with _ | ⟨y, ys⟩
  · simp [Choice.bind_values, hv]
  · simp only [List.flatMap_cons, hv, reduceCtorEq, if_false, List.cons_append]
    rw [Choice.bind_values (f v), hv]
    by_cases hg : (g y).values = []
    · simp [hg, hv]
    · have hne : (g y).values ++ List.flatMap (fun v => (g v).values) ys ≠ [] := by simp [hg]
      have hex : ∃ v' y', v = v' ∧ (f v').values.head? = some y' ∧ (g y').values ≠ [] :=
        ⟨v, y, rfl, by rw [hv]; rfl, hg⟩
      simp only [if_neg hg, List.flatMap_cons, if_neg hne, List.flatMap_append, List.append_assoc]
      rw [List.append_cancel_left_eq, List.append_cancel_left_eq, eq_comm, all]
      simp only [one]
      exact ⟨fun h _ => h, fun h => h hex⟩

/-- Not vacuous: the right-hand side fails where associativity does. -/
example : (∃ v y, (Choice.new 1 [2]).first = some v ∧ (Choice.new v [v + 1]).first = some y ∧
    (if y = 2 then Choice.newEmpty else Choice.new y []).values ≠ ([] : List Nat)) ∧
    2 ∈ (Choice.new 1 [2]).alternatives := ⟨⟨1, 1, rfl, rfl, by decide⟩, by decide⟩

/-- `bind_lazy` always is `flat_map`, and agrees with `bind` unless the primary value's result is empty. -/
theorem c25_choice_bind_lazy {A B : Type} (m : Choice A) (f : A → Choice B) :
    Choice.bindLazy m f = m.values.flatMap (fun v => (f v).values) ∧
    ((∀ v, m.first = some v → (f v).values ≠ []) → Choice.bindLazy m f = (RMonad.bind m f).values) := by
  refine ⟨rfl, fun h => ?_⟩
  show _ = (Choice.bind m f).values
  rw [Choice.bind_values]
  obtain ⟨_ | ⟨v, vs⟩⟩ := m
  · rfl
  · exact (if_neg (h v rfl)).symm

example : Choice.bindLazy (Choice.new 1 [2]) (fun n => if n = 1 then Choice.newEmpty else Choice.new n [])
    = [2] := by decide

/-! ## C26 -/

theorem c26_option : ChoiceLaws Option emptyAlt alt ∧ ChoiceLaws Option mzero mplus ∧
    LeftZero Option ∧ MplusOwnedAgrees Option := by
  refine ⟨⟨?_, ?_, ?_⟩, ⟨?_, ?_, ?_⟩, fun _ => rfl, ?_⟩
  · intro A x; rfl
  · intro A x; cases x <;> rfl
  · intro A x y z; cases x <;> rfl
  · intro A x; rfl
  · intro A x; cases x <;> rfl
  · intro A x y z; cases x <;> rfl
  · intro A x y; cases x <;> rfl

theorem c26_vec : ChoiceLaws List emptyAlt alt := by
  refine ⟨fun _ => rfl, ?_, ?_⟩
  · intro A x; cases x <;> rfl
  · intro A x y z; cases x <;> rfl

theorem c26_maybe : ChoiceLaws Maybe emptyAlt alt ∧ ChoiceLaws Maybe mzero mplus ∧
    LeftZero Maybe ∧ MplusOwnedAgrees Maybe := by
  refine ⟨⟨?_, ?_, ?_⟩, ⟨?_, ?_, ?_⟩, fun _ => rfl, ?_⟩
  · intro A x; rfl
  · intro A x; cases x <;> rfl
  · intro A x y z; cases x <;> rfl
  · intro A x; cases x <;> rfl
  · intro A x; cases x <;> rfl
  · intro A x y z; cases x <;> cases y <;> cases z <;> rfl
  · intro A x y; cases x <;> cases y <;> rfl

theorem c26_choice : ChoiceLaws Choice emptyAlt alt ∧ ChoiceLaws Choice mzero mplus ∧
    LeftZero Choice ∧ MplusOwnedAgrees Choice := by
  have ha : ∀ {T : Type} (a b : Choice T), (alt a b).values = a.values ++ b.values := by
    rintro T ⟨_ | ⟨a, as⟩⟩ ⟨_ | ⟨b, bs⟩⟩ <;> simp [alt, Choice.new]
  have hp : ∀ {T : Type} (a b : Choice T), (mplus a b).values = a.values ++ b.values := by
    rintro T ⟨_ | ⟨a, as⟩⟩ ⟨_ | ⟨b, bs⟩⟩ <;> simp [mplus, Choice.combine', Choice.new]
  refine ⟨⟨?_, ?_, ?_⟩, ⟨?_, ?_, ?_⟩, fun _ => rfl, ?_⟩
  · intro A x; apply Choice.ext'; rw [ha]; rfl
  · intro A x; apply Choice.ext'; rw [ha]; simp [emptyAlt, Choice.newEmpty]
  · intro A x y z; apply Choice.ext'; simp [ha]
  · intro A x; apply Choice.ext'; rw [hp]; rfl
  · intro A x; apply Choice.ext'; rw [hp]; simp [mzero, Choice.newEmpty]
  · intro A x y z; apply Choice.ext'; simp [hp]
  · rintro A ⟨_ | ⟨a, as⟩⟩ ⟨_ | ⟨b, bs⟩⟩ <;> rfl

/-- `Validated` as `MonadPlus`: all laws (the identity is `Invalid([])`). -/
theorem c26_validated_mplus {E : Type} : ChoiceLaws (Validated E) mzero mplus ∧
    LeftZero (Validated E) ∧ MplusOwnedAgrees (Validated E) := by
  refine ⟨⟨?_, ?_, ?_⟩, fun _ => rfl, ?_⟩
  · intro A x; cases x <;> rfl
  · intro A x; cases x <;> simp [mplus, mzero]
  · intro A x y z; cases x <;> cases y <;> cases z <;> simp [mplus]
  · intro A x y; cases x <;> cases y <;> rfl

/-- `Validated` as `Alternative`: right identity fails, because `alt` drops the first errors. -/
theorem c26_validated_alt_false : ¬ ChoiceLaws (Validated Nat) emptyAlt alt := by
  intro h
  have := h.right_id (Validated.Invalid [7] : Validated Nat Nat)
  simp [alt, emptyAlt] at this

/-- `Result`: right identity fails for an error other than the default one. -/
theorem c26_result_false : ¬ ChoiceLaws (Except Nat) mzero mplus := by
  intro h
  have := h.right_id (Except.error 7 : Except Nat Nat)
  simp [mplus, mzero] at this

/-- `Either`: `mplus` of two `Left`s keeps the first, so `mzero` is not a left identity. -/
theorem c26_either_mplus_false : ¬ ChoiceLaws (Either Nat) mzero mplus := by
  intro h
  have := h.left_id (Either.Left 7 : Either Nat Nat)
  simp [mplus, mzero] at this

/-- `Either`: `alt` of two `Left`s keeps the second, so `empty_alt` is not a right identity. -/
theorem c26_either_alt_false : ¬ ChoiceLaws (Either Nat) emptyAlt alt := by
  intro h
  have := h.right_id (Either.Left 7 : Either Nat Nat)
  simp [alt, emptyAlt] at this

/-- What does hold for `Result`, `Either` and `Validated::alt`: associativity, the identity on the other
side, the remaining identity for successes and for the default error, and (for `mplus`) the left zero and the
agreement of the owned version. -/
theorem c26_error_types_partial {E : Type} [Inhabited E] :
    ((∀ {A : Type} (x y z : Except E A), mplus (mplus x y) z = mplus x (mplus y z)) ∧
      (∀ {A : Type} (x : Except E A), mplus mzero x = x) ∧
      (∀ {A : Type} (x : Except E A), (mplus x mzero = x ↔ ∀ e, x = .error e → e = default)) ∧
      LeftZero (Except E) ∧ MplusOwnedAgrees (Except E)) ∧
    ((∀ {A : Type} (x y z : Either E A), mplus (mplus x y) z = mplus x (mplus y z)) ∧
      (∀ {A : Type} (x : Either E A), mplus x mzero = x) ∧
      (∀ {A : Type} (x : Either E A), (mplus mzero x = x ↔ ∀ e, x = .Left e → e = default)) ∧
      LeftZero (Either E) ∧ MplusOwnedAgrees (Either E)) ∧
    ((∀ {A : Type} (x y z : Either E A), alt (alt x y) z = alt x (alt y z)) ∧
      (∀ {A : Type} (x : Either E A), alt emptyAlt x = x) ∧
      (∀ {A : Type} (x : Either E A), (alt x emptyAlt = x ↔ ∀ e, x = .Left e → e = default))) ∧
    ((∀ {A : Type} (x y z : Validated E A), alt (alt x y) z = alt x (alt y z)) ∧
      (∀ {A : Type} (x : Validated E A), alt emptyAlt x = x) ∧
      (∀ {A : Type} (x : Validated E A), (alt x emptyAlt = x ↔ ∀ es, x = .Invalid es → es = [default]))) := by
  refine ⟨⟨?_, ?_, ?_, ?_, ?_⟩, ⟨?_, ?_, ?_, ?_, ?_⟩, ⟨?_, ?_, ?_⟩, ⟨?_, ?_, ?_⟩⟩
  · intro A x y z; cases x <;> rfl
  · intro A x; rfl
  · intro A x; cases x <;> simp [mplus, mzero, eq_comm]
  · intro A B f; rfl
  · intro A x y; cases x <;> rfl
  · intro A x y z; cases x <;> cases y <;> cases z <;> rfl
  · intro A x; cases x <;> rfl
  · intro A x; cases x <;> simp [mplus, mzero, eq_comm]
  · intro A B f; rfl
  · intro A x y; cases x <;> cases y <;> rfl
  · intro A x y z; cases x <;> rfl
  · intro A x; rfl
  · intro A x; cases x <;> simp [alt, emptyAlt, eq_comm]
  · intro A x y z; cases x <;> rfl
  · intro A x; rfl
  · intro A x; cases x <;> simp [alt, emptyAlt, eq_comm]

/-- `guard` is `pure(())` or `empty_alt`, for every alternative. -/
theorem c26_guard {E : Type} [Inhabited E] (c : Bool) :
    ((RAlternative.guard c : Option Unit) = if c then RPure.pure () else emptyAlt) ∧
    ((RAlternative.guard c : List Unit) = if c then RPure.pure () else emptyAlt) ∧
    ((RAlternative.guard c : Maybe Unit) = if c then RPure.pure () else emptyAlt) ∧
    ((RAlternative.guard c : Either E Unit) = if c then RPure.pure () else emptyAlt) ∧
    ((RAlternative.guard c : Validated E Unit) = if c then RPure.pure () else emptyAlt) ∧
    ((RAlternative.guard c : Choice Unit) = if c then RPure.pure () else emptyAlt) := by
  cases c <;> exact ⟨rfl, rfl, rfl, rfl, rfl, rfl⟩

example : mplus (Choice.new 1 [2]) (Choice.new 3 []) = Choice.new 1 [2, 3] := by decide
example : mplus (Validated.Invalid ["a"] : Validated String Nat) (.Invalid ["b"]) = .Invalid ["a", "b"] := by
  decide

end Rustica
