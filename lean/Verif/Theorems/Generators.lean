import Verif.Tests.Generators
import Verif.Error.Convert

/-!
# C83: which values the `Arbitrary` implementations can make

`Full arb`: from every state one can come from, the generator can return every value.  This is what one wants of
the random source for the element types; the question is for which of the types of the crate the implementation
keeps it.
-/

namespace Rustica.QC
variable {G A E L R S T W σ : Type}

/-- The generator can return `a`. -/
def CanMake (arb : Arb G A) (a : A) : Prop := ∃ g, (arb g).1 = a

/-- Every value can be drawn, in front of any later draws. -/
def Full (arb : Arb G A) : Prop := ∀ a g', ∃ g, arb g = (a, g')

theorem Full.canMake [Nonempty G] {arb : Arb G A} (h : Full arb) (a : A) : CanMake arb a := by
  obtain ⟨g'⟩ := ‹Nonempty G›
  obtain ⟨g, hg⟩ := h a g'
  exact ⟨g, by rw [hg]⟩

theorem Full.andThen {B : Type} {m : Arb G A} (h : Full m) (f : A → Arb G B) (b : B) (g' : G)
    (hf : ∃ a g, f a g = (b, g')) : ∃ g, m.andThen f g = (b, g') := by
  obtain ⟨a, g1, h1⟩ := hf
  obtain ⟨g, hg⟩ := h a g1
  exact ⟨g, by simp only [Arb.andThen, hg, h1]⟩

/-- A random source that is `Full` for coins: an infinite sequence of coin flips, each draw taking the next one. -/
def flip : Arb (Nat → Bool) Bool := fun g => (g 0, fun n => g (n + 1))

theorem flip_full : Full flip := by
  intro b g'
  refine ⟨fun n => match n with | 0 => b | n + 1 => g' n, rfl⟩

/-- `Id`: every value. -/
theorem c83_id_full (a : Arb G T) (h : Full a) : Full (Arb.id a) := by
  intro x g'
  exact h.andThen _ _ _ ⟨x.value, g', rfl⟩

example : Full (Arb.id flip) := c83_id_full _ flip_full

/-- `Maybe`: every value. -/
theorem c83_maybe_full (a : Arb G T) (coin : Arb G Bool) (h : Full a) (hc : Full coin) :
    Full (Arb.maybe a coin) := by
  intro x g'
  cases x with
  | Nothing => exact hc.andThen _ _ _ ⟨true, g', rfl⟩
  | Just x =>
    obtain ⟨g, hg⟩ := h x g'
    exact hc.andThen _ _ _ ⟨false, g, by
      simp only [Bool.false_eq_true, if_false, Arb.andThen, hg, Arb.done]⟩

example : Full (Arb.maybe flip flip) := c83_maybe_full _ _ flip_full flip_full

/-- `Either`: every value. -/
theorem c83_either_full [Nonempty L] [Nonempty R] (l : Arb G L) (r : Arb G R) (coin : Arb G Bool) (hl : Full l)
    (hr : Full r) (hc : Full coin) : Full (Arb.either l r coin) := by
  intro x g'
  obtain ⟨l0⟩ := ‹Nonempty L›
  obtain ⟨r0⟩ := ‹Nonempty R›
  cases x with
  | Left x =>
    obtain ⟨g1, h1⟩ := hc true g'
    obtain ⟨g2, h2⟩ := hr r0 g1
    obtain ⟨g, h3⟩ := hl x g2
    exact ⟨g, by simp [Arb.either, Arb.andThen, Arb.done, h1, h2, h3]⟩
  | Right x =>
    obtain ⟨g1, h1⟩ := hc false g'
    obtain ⟨g2, h2⟩ := hr x g1
    obtain ⟨g, h3⟩ := hl l0 g2
    exact ⟨g, by simp [Arb.either, Arb.andThen, Arb.done, h1, h2, h3]⟩

example : Full (Arb.either flip flip flip) := c83_either_full _ _ _ flip_full flip_full flip_full

/-- `Writer`: every pair of a log and a value. -/
theorem c83_writer_full (w : Arb G W) (a : Arb G A) (hw : Full w) (ha : Full a) : Full (Arb.writer w a) := by
  intro x g'
  exact ha.andThen _ _ _ ⟨x.value, _, (hw.andThen _ x g' ⟨x.log, g', rfl⟩).choose_spec⟩

example : Full (Arb.writer flip flip) := c83_writer_full _ _ flip_full flip_full

/-- `Choice`: every value, the empty one included. -/
theorem c83_choice_full (items : Arb G (List T)) (h : Full items) : Full (Arb.choice items) := by
  intro x g'
  refine h.andThen _ _ _ ⟨x.values, g', ?_⟩
  rcases x with ⟨_ | ⟨v, vs⟩⟩ <;> rfl

/-- A source of lists: the sequence of lists itself. -/
example : Full (Arb.choice (fun g : Nat → List Bool => (g 0, fun n => g (n + 1)))) :=
  c83_choice_full _ fun l g' => ⟨fun n => match n with | 0 => l | n + 1 => g' n, rfl⟩

/-- `Validated`: exactly the `Valid` values and the `Invalid` values with one error.  What is missing from "every
value" is `Invalid` with no error or with several (`c83_validated_full_false`). -/
theorem c83_validated_partial [Nonempty G] [Nonempty A] [Nonempty E] (a : Arb G A) (e : Arb G E)
    (coin : Arb G Bool) (ha : Full a) (he : Full e) (hc : Full coin) (v : Validated E A) :
    CanMake (Arb.validated a e coin) v ↔ (∃ x, v = .Valid x) ∨ ∃ y, v = .Invalid [y] := by
  obtain ⟨g0⟩ := ‹Nonempty G›
  obtain ⟨a0⟩ := ‹Nonempty A›
  obtain ⟨e0⟩ := ‹Nonempty E›
  constructor
  · rintro ⟨g, hg⟩
    subst hg
    simp only [Arb.validated, Arb.andThen, Arb.done]
    split
    · exact .inl ⟨_, rfl⟩
    · exact .inr ⟨_, rfl⟩
  · rintro (⟨x, rfl⟩ | ⟨y, rfl⟩)
    · obtain ⟨g1, h1⟩ := hc true g0
      obtain ⟨g2, h2⟩ := he e0 g1
      obtain ⟨g, h3⟩ := ha x g2
      exact ⟨g, by simp [Arb.validated, Arb.andThen, Arb.done, h1, h2, h3]⟩
    · obtain ⟨g1, h1⟩ := hc false g0
      obtain ⟨g2, h2⟩ := he y g1
      obtain ⟨g, h3⟩ := ha a0 g2
      exact ⟨g, by simp [Arb.validated, Arb.andThen, Arb.done, h1, h2, h3, Validated.invalid]⟩

example (v : Validated Bool Bool) :
    CanMake (Arb.validated flip flip flip) v ↔ (∃ x, v = .Valid x) ∨ ∃ y, v = .Invalid [y] :=
  c83_validated_partial _ _ _ flip_full flip_full flip_full v

/-- Two errors are never generated, whatever the random source. -/
theorem c83_validated_full_false (a : Arb G A) (e : Arb G E) (coin : Arb G Bool) (y z : E) :
    ¬ CanMake (Arb.validated a e coin) (.Invalid [y, z]) ∧ ¬ CanMake (Arb.validated a e coin) (.Invalid []) := by
  constructor <;>
  · rintro ⟨g, hg⟩
    simp only [Arb.validated, Arb.andThen, Arb.done] at hg
    split at hg <;> simp [Validated.invalid] at hg

/-- A blind spot of tests over generated `Validated` values: the round trip through `Result` is the identity on
all of them, though not on every value (`c29_validated_round_trip_false`). -/
theorem c83_validated_blind_spot (a : Arb G A) (e : Arb G E) (coin : Arb G Bool) (v : Validated E A)
    (h : CanMake (Arb.validated a e coin) v) : v.toResult.map Validated.fromResult = some v := by
  obtain ⟨g, hg⟩ := h
  subst hg
  simp only [Arb.validated, Arb.andThen, Arb.done]
  split <;> rfl

example : CanMake (Arb.validated flip flip flip) (.Invalid [true]) :=
  (c83_validated_partial _ _ _ flip_full flip_full flip_full _).2 (.inr ⟨true, rfl⟩)

/-- `Reader`: exactly the constant readers.  Missing: every reader that looks at its environment
(`c83_reader_full_false`). -/
theorem c83_reader_partial [Nonempty G] (a : Arb G A) (h : Full a) (r : Reader E A) :
    CanMake (Arb.reader a) r ↔ ∃ x, ∀ env, r.runReader env = x := by
  constructor
  · rintro ⟨g, hg⟩
    exact ⟨(a g).1, fun env => by rw [← hg]; rfl⟩
  · rintro ⟨x, hx⟩
    obtain ⟨g, hg⟩ := h.canMake x
    refine ⟨g, ?_⟩
    show Reader.new (fun _ => (a g).1) = r
    rw [hg]
    rcases r with ⟨⟨f⟩⟩
    have : f = fun _ => ⟨x⟩ := funext fun env => congrArg RId.mk (hx env)
    rw [this]
    rfl

example (r : Reader Nat Bool) : CanMake (Arb.reader flip) r ↔ ∃ x, ∀ env, r.runReader env = x :=
  c83_reader_partial _ flip_full r

/-- The reader that returns its environment is never generated if there are two environments. -/
theorem c83_reader_full_false (a : Arb G E) (e e' : E) (h : e ≠ e') :
    ¬ CanMake (Arb.reader a) (Reader.new fun env : E => env) := by
  rintro ⟨g, hg⟩
  have h1 : (a g).1 = e := congrArg (fun r => Reader.runReader r e) hg
  have h2 : (a g).1 = e' := congrArg (fun r => Reader.runReader r e') hg
  exact h (h1.symm.trans h2)

example : ¬ CanMake (Arb.reader flip) (Reader.new fun env : Bool => env) :=
  c83_reader_full_false _ true false (by decide)

/-- `State`: exactly the computations that return one value and leave the state alone; as a function of the state.
Missing: every computation that reads or changes the state (`c83_state_full_false`). -/
theorem c83_state_partial [Nonempty G] (a : Arb G A) (h : Full a) (f : S → Option (A × S)) :
    (∃ st, CanMake (Arb.state a) st ∧ ∀ s, st.runState s = f s) ↔ ∃ x, ∀ s, f s = some (x, s) := by
  constructor
  · rintro ⟨st, ⟨g, hg⟩, hf⟩
    refine ⟨(a g).1, fun s => ?_⟩
    rw [← hf, ← hg]
    rfl
  · rintro ⟨x, hx⟩
    obtain ⟨g, hg⟩ := h.canMake x
    refine ⟨_, ⟨g, rfl⟩, fun s => ?_⟩
    rw [hx]
    show some ((a g).1, s) = _
    rw [hg]

example : ∃ st, CanMake (Arb.state flip) st ∧ ∀ s : Nat, st.runState s = some (true, s) :=
  (c83_state_partial _ flip_full _).2 ⟨true, fun _ => rfl⟩

/-- `get` and `put` are never generated if there are two states. -/
theorem c83_state_full_false (s s' : S) (h : s ≠ s') :
    (∀ a : Arb G S, ¬ ∃ st, CanMake (Arb.state a) st ∧ ∀ s, st.runState s = some (s, s)) ∧
    ∀ a : Arb G Unit, ¬ ∃ st, CanMake (Arb.state a) st ∧ ∀ t, st.runState t = some ((), s) := by
  constructor
  · rintro a ⟨st, ⟨g, hg⟩, hf⟩
    have e : ∀ t, some ((a g).1, t) = some (t, t) := fun t => by rw [← hf t, ← hg]; rfl
    have h1 : (a g).1 = s := congrArg Prod.fst (Option.some.inj (e s))
    have h2 : (a g).1 = s' := congrArg Prod.fst (Option.some.inj (e s'))
    exact h (h1.symm.trans h2)
  · rintro a ⟨st, ⟨g, hg⟩, hf⟩
    have e : ∀ t, some ((a g).1, t) = some ((), s) := fun t => by rw [← hf t, ← hg]; rfl
    exact h (congrArg Prod.snd (Option.some.inj (e s'))).symm

example : (0 : Nat) ≠ 1 := by decide

/-- `Cont`: exactly the continuations `return_cont(x)`.  Missing: every computation that drops its continuation or
calls it twice (`c83_cont_full_false`). -/
theorem c83_cont_partial [Nonempty G] (a : Arb G A) (h : Full a) (c : Cont R A) :
    CanMake (Arb.cont a) c ↔ ∃ x, ∀ k, c.run k = k x := by
  constructor
  · rintro ⟨g, hg⟩
    exact ⟨(a g).1, fun k => by rw [← hg]; rfl⟩
  · rintro ⟨x, hx⟩
    obtain ⟨g, hg⟩ := h.canMake x
    refine ⟨g, ?_⟩
    show Cont.pure (a g).1 = c
    rw [hg]
    rcases c with ⟨⟨f⟩⟩
    have : f = fun k => k x := funext fun k => congrArg RId.mk (hx fun a => (k a).value)
    rw [this]
    rfl

example (c : Cont Nat Bool) : CanMake (Arb.cont flip) c ↔ ∃ x, ∀ k, c.run k = k x :=
  c83_cont_partial _ flip_full c

/-- A computation that ignores its continuation is never generated if there are two results. -/
theorem c83_cont_full_false (a : Arb G A) (r r' : R) (h : r ≠ r') :
    ¬ CanMake (Arb.cont a) (Cont.new fun _ => r) := by
  rintro ⟨g, hg⟩
  have : (Cont.pure (a g).1 : Cont R A).run (fun _ => r') = r := by
    have := congrArg (fun c => Cont.run c fun _ => r') hg
    exact this
  exact h this.symm

example : ¬ CanMake (Arb.cont flip) (Cont.new fun _ => (0 : Nat)) := c83_cont_full_false _ 0 1 (by decide)

/-- `IO`: exactly `IO::pure(x)`.  Missing: every effect and every panic (`c83_io_full_false`). -/
theorem c83_io_partial [Nonempty G] (a : Arb G A) (h : Full a) (m : RIO σ A) :
    CanMake (Arb.io a) m ↔ ∃ x, m = .Pure x := by
  constructor
  · rintro ⟨g, hg⟩
    exact ⟨_, hg.symm⟩
  · rintro ⟨x, rfl⟩
    obtain ⟨g, hg⟩ := h.canMake x
    exact ⟨g, congrArg RIO.Pure hg⟩

example (m : RIO Nat Bool) : CanMake (Arb.io flip) m ↔ ∃ x, m = .Pure x := c83_io_partial _ flip_full m

/-- No `IO` made by `IO::new` is ever generated. -/
theorem c83_io_full_false (a : Arb G A) (f : Act σ A) : ¬ CanMake (Arb.io a) (RIO.new f) := by
  rintro ⟨g, hg⟩
  cases hg

/-- A generated `IO` never touches the world and never panics. -/
theorem c83_io_blind_spot (a : Arb G A) (m : RIO σ A) (h : CanMake (Arb.io a) m) (w : σ) :
    (m.run w).2 = w ∧ ∃ x, (m.run w).1 = .ok x := by
  obtain ⟨g, hg⟩ := h
  subst hg
  exact ⟨rfl, _, rfl⟩

example : CanMake (Arb.io flip) (.Pure true : RIO Nat Bool) := (c83_io_partial _ flip_full _).2 ⟨true, rfl⟩

/-- `AsyncM`: exactly `AsyncM::pure(x)`.  Missing: every future that suspends, has an effect or panics
(`c83_async_full_false`). -/
theorem c83_async_partial [Nonempty G] (a : Arb G A) (h : Full a) (m : AsyncM σ A) :
    CanMake (Arb.asyncM a) m ↔ ∃ x, m = .Pure x := by
  constructor
  · rintro ⟨g, hg⟩
    exact ⟨_, hg.symm⟩
  · rintro ⟨x, rfl⟩
    obtain ⟨g, hg⟩ := h.canMake x
    exact ⟨g, congrArg AsyncM.Pure hg⟩

example (m : AsyncM Nat Bool) : CanMake (Arb.asyncM flip) m ↔ ∃ x, m = .Pure x := c83_async_partial _ flip_full m

/-- No `AsyncM` made by `AsyncM::new` is ever generated. -/
theorem c83_async_full_false (a : Arb G A) (f : Fut σ A) : ¬ CanMake (Arb.asyncM a) (AsyncM.new f) := by
  rintro ⟨g, hg⟩
  cases hg

/-- What `Maybe::shrink` yields: the shrunk contents, then `Nothing`; and `Nothing` shrinks no further. -/
theorem c83_maybe_shrink (sh : T → List T) (m x : Maybe T) :
    x ∈ Maybe.shrink sh m ↔ ∃ a, m = .Just a ∧ (x = .Nothing ∨ ∃ b ∈ sh a, x = .Just b) := by
  cases m with
  | Nothing => simp [Maybe.shrink]
  | Just a =>
    simp only [Maybe.shrink, List.mem_append, List.mem_map, List.mem_singleton]
    constructor
    · rintro (⟨b, hb, rfl⟩ | rfl)
      · exact ⟨a, rfl, .inr ⟨b, hb, rfl⟩⟩
      · exact ⟨a, rfl, .inl rfl⟩
    · rintro ⟨a', ha, rfl | ⟨b, hb, rfl⟩⟩
      · exact .inr rfl
      · cases ha
        exact .inl ⟨b, hb, rfl⟩

/-- Shrinking ends: no infinite chain of shrinks of a `Maybe`, if there is none of its contents. -/
theorem c83_maybe_shrink_ends (sh : T → List T) (h : WellFounded fun y x => y ∈ sh x) :
    WellFounded fun y x => y ∈ Maybe.shrink sh x := by
  have hn : Acc (fun y x => y ∈ Maybe.shrink sh x) (.Nothing : Maybe T) :=
    ⟨_, fun y hy => by cases hy⟩
  refine ⟨fun m => ?_⟩
  cases m with
  | Nothing => exact hn
  | Just a =>
    induction a using h.induction with
    | _ a ih =>
      refine ⟨_, fun y hy => ?_⟩
      obtain ⟨a', ha, rfl | ⟨b, hb, rfl⟩⟩ := (c83_maybe_shrink sh _ _).1 hy
      · exact hn
      · cases ha
        exact ih b hb

/-- The shrinker of natural numbers that yields the predecessor. -/
example : WellFounded fun y x => y ∈ Maybe.shrink (fun n : Nat => if n = 0 then [] else [n - 1]) x := by
  refine c83_maybe_shrink_ends _ (Subrelation.wf (r := (· < ·)) ?_ Nat.lt_wfRel.wf)
  intro y x h
  by_cases hx : x = 0
  · subst hx; simp at h
  · simp only [if_neg hx, List.mem_singleton] at h
    show y < x
    omega

end Rustica.QC
