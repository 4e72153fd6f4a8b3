import Verif.Trans.StateT
import Verif.Theorems.Monad

/-!
# C36, C37 (and the `State` part of C23, C25): `State` and `StateT`
-/

namespace Rustica

section
variable {S A B C D E E2 σ : Type}

/-! ## C36: `State` -/

/-- `run_state(new(f))` is `f`: a computation is its run function. -/
theorem c36_run_new (f : S → Option (A × S)) (s : S) : (State.new f).runState s = f s := by
  simp only [State.new, State.runState, RStateT.new, RStateT.runState]
  cases f s <;> rfl

/-- The monad laws of `State`, observed through `run_state`, including computations that panic. -/
theorem c36_monad_laws (a : A) (m : State S A) (f : A → State S B) (g : B → State S C) (s : S) :
    ((State.pure a).bind f).runState s = (f a).runState s ∧
    (m.bind State.pure).runState s = m.runState s ∧
    ((m.bind f).bind g).runState s = (m.bind fun x => (f x).bind g).runState s := by
  refine ⟨?_, ?_, ?_⟩
  · simp [State.bind, State.pure, c36_run_new]
  · rw [State.bind, c36_run_new]
    cases m.runState s <;> simp [State.pure, c36_run_new]
  · simp only [State.bind, c36_run_new]
    cases m.runState s <;> simp

/-- C25 for `State`. -/
theorem c25_state (a : A) (m : State S A) (f : A → State S B) (g : B → State S C) (s : S) :
    ((State.pure a).bind f).runState s = (f a).runState s ∧
    (m.bind State.pure).runState s = m.runState s ∧
    ((m.bind f).bind g).runState s = (m.bind fun x => (f x).bind g).runState s :=
  c36_monad_laws a m f g s

/-- C23 for `State`: identity, composition, and `fmap` is `bind` with `pure`. -/
theorem c23_state (m : State S A) (f : A → B) (g : B → C) (s : S) :
    (m.fmap fun a => a).runState s = m.runState s ∧
    ((m.fmap f).fmap g).runState s = (m.fmap fun a => g (f a)).runState s ∧
    (m.fmap f).runState s = (m.bind fun a => State.pure (f a)).runState s := by
  simp only [State.fmap, State.bind, State.pure, c36_run_new]
  refine ⟨?_, ?_, ?_⟩ <;> cases m.runState s <;> simp

/-- The laws of `get` and `put`: put then get yields the put state; get then put leaves the state unchanged;
the second of two puts wins; two gets yield the same. -/
theorem c36_get_put (t u s : S) :
    ((State.put t).bind fun _ => State.get).runState s = some (t, t) ∧
    (State.get.bind State.put).runState s = some ((), s) ∧
    ((State.put t).bind fun _ => State.put u).runState s = (State.put u).runState s ∧
    (State.get.bind fun x => State.get.fmap fun y => (x, y)).runState s = some ((s, s), s) := by
  simp [State.bind, State.fmap, State.get, State.put, c36_run_new]

/-- The primitive effects themselves. -/
theorem c36_primitives (t s : S) (f : S → S) (a : A) :
    State.get.runState s = some (s, s) ∧ (State.put t).runState s = some ((), t) ∧
    (State.modify f).runState s = some ((), f s) ∧ (State.pure a).runState s = some (a, s) := by
  simp [State.get, State.put, State.modify, State.pure, c36_run_new]

/-- `modify(f)` is `get` followed by `put ∘ f`. -/
theorem c36_modify (f : S → S) (s : S) :
    (State.modify f).runState s = (State.get.bind fun x => State.put (f x)).runState s := by
  simp [State.bind, State.get, State.put, State.modify, c36_run_new]

/-- Every way of running a computation panics exactly when `run_state` does; the context is then not converted. -/
theorem c36_panics (m : State S A) (n : State S (Except E A)) (s : S) (c : IntoErrorContext σ) (w : σ) :
    ((m.evalState s = none ↔ m.runState s = none) ∧ (m.execState s = none ↔ m.runState s = none)) ∧
    ((n.tryRunState s).isNone = (n.runState s).isNone ∧ (n.tryEvalState s).isNone = (n.runState s).isNone ∧
      (n.tryExecState s).isNone = (n.runState s).isNone) ∧
    (n.runState s = none → n.tryRunStateWithContext s c w = (none, w) ∧ n.tryEvalStateWithContext s c w = (none, w) ∧
      n.tryExecStateWithContext s c w = (none, w)) := by
  refine ⟨⟨?_, ?_⟩, ⟨?_, ?_, ?_⟩, fun h => ⟨?_, ?_, ?_⟩⟩
  · cases h : m.runState s <;> simp [State.evalState, h]
  · cases h : m.runState s <;> simp [State.execState, h]
  · cases h : n.runState s <;> simp [State.tryRunState, h]
  · rcases h : n.runState s with _ | ⟨r, s'⟩ <;> simp [State.tryEvalState, State.tryRunState, h]
  · rcases h : n.runState s with _ | ⟨_ | _, s'⟩ <;> simp [State.tryExecState, State.tryRunState, h, mapErr]
  · simp [State.tryRunStateWithContext, h]
  · simp [State.tryEvalStateWithContext, State.tryRunStateWithContext, h]
  · simp [State.tryExecStateWithContext, State.tryRunStateWithContext, h]

/-- A computation that panics in state 0 only. -/
example : (State.new fun s : Nat => if s = 0 then none else some (10 / s, s)).evalState 0 = none := rfl

/-- `eval_state` and `exec_state` are the projections of `run_state`. -/
theorem c36_eval_exec (m : State S A) (s s' : S) (a : A) (h : m.runState s = some (a, s')) :
    m.evalState s = some a ∧ m.execState s = some s' := by
  simp [State.evalState, State.execState, h]

example : ((State.modify (· + 1)).bind fun _ => State.get : State Nat Nat).evalState 41 = some 42 :=
  (c36_eval_exec _ 41 42 42 (by decide)).1

/-- `apply` runs the function computation first and threads its state into the argument. -/
theorem c36_apply (mf : State S (A → B)) (m : State S A) (s : S) :
    (mf.apply m).runState s = (mf.bind fun f => m.fmap f).runState s := by
  simp only [State.apply, State.bind, State.fmap, c36_run_new]

/-- For computations made with `new` from a total function nothing panics. -/
theorem c36_total (f : S → A × S) (s : S) : (State.new fun s => some (f s)).runState s = some (f s) :=
  c36_run_new _ s

/-- `n + 1` runs of a computation, one after the other. -/
def State.again (m : State S A) : Nat → State S A
  | 0 => m
  | n + 1 => m.bind fun _ => m.again n

/-- Running a computation that does not panic `n + 1` times in sequence applies its state change `n + 1` times; the
value is the one of the last run. -/
theorem c36_again (f : S → A × S) (n : Nat) (s : S) :
    ((State.new fun s => some (f s)).again n).runState s = some (f (Nat.repeat (fun s => (f s).2) n s)) := by
  induction n generalizing s with
  | zero => exact c36_run_new _ s
  | succ n ih =>
    rw [State.again, State.bind, c36_run_new, c36_run_new]
    simp only [Option.bind_some, ih]
    have shift : ∀ (g : S → S) (n : Nat) (s : S), Nat.repeat g n (g s) = g (Nat.repeat g n s) := by
      intro g n s
      induction n with
      | zero => rfl
      | succ n ih => exact congrArg g ih
    rw [shift fun s => (f s).2]
    rfl

/-- The "simple counter" of the README and of `examples/readme.rs` (34) puts the new count into the value and leaves
the state as it was: however often it runs, it does not count. -/
theorem c36_readme_counter (n : Nat) (s : Int) :
    ((State.new fun count : Int => some (count + 1, count)).again n).runState s = some (s + 1, s) := by
  rw [c36_again fun count : Int => (count + 1, count)]
  have : Nat.repeat (fun s : Int => s) n s = s := by
    induction n with
    | zero => rfl
    | succ n ih => exact ih
  rw [this]

/-- `to_state` and `from_state` are mutually inverse, observed through the runs. -/
theorem c36_to_from_state (m : State S A) (t : RStateT S (RId (S × A)) A) (s : S) :
    (RStateT.fromState m).toState.runState s = m.runState s ∧
    (RStateT.fromState t.toState : RStateT S (RId (S × A)) A).runState s = t.runState s := by
  constructor
  · simp only [RStateT.toState, c36_run_new, RStateT.fromState, RStateT.new]
    simp only [RStateT.runState]
    cases m.runState s <;> simp
  · have h : (RStateT.fromState t.toState : RStateT S (RId (S × A)) A).runState s =
        (t.toState.runState s).map fun (a, s2) => ⟨(s2, a)⟩ := rfl
    rw [h, RStateT.toState, c36_run_new]
    cases t.runState s <;> rfl

/-- The fallible runs: the same result with the error wrapped (no context), the final state kept; `try_eval`
and `try_exec` are its projections. -/
theorem c36_try (m : State S (Except E A)) (s s' : S) (a : A) (e : E) :
    (m.runState s = some (.ok a, s') → m.tryRunState s = some (.ok a, s') ∧
      m.tryEvalState s = some (.ok a) ∧ m.tryExecState s = some (.ok s')) ∧
    (m.runState s = some (.error e, s') → m.tryRunState s = some (.error ⟨e, [], none⟩, s') ∧
      m.tryEvalState s = some (.error ⟨e, [], none⟩) ∧ m.tryExecState s = some (.error ⟨e, [], none⟩)) := by
  constructor <;> intro h <;>
    simp [State.tryRunState, State.tryEvalState, State.tryExecState, h, mapErr, ComposableError.new]

/-- With a context: the error carries exactly that context; the context is converted exactly once. -/
theorem c36_try_with_context (m : State S (Except E A)) (s s' : S) (a : A) (e : E) (c : IntoErrorContext σ)
    (w : σ) :
    (m.runState s = some (.ok a, s') → m.tryRunStateWithContext s c w = (some (.ok a, s'), (c w).2) ∧
      m.tryEvalStateWithContext s c w = (some (.ok a), (c w).2) ∧
      m.tryExecStateWithContext s c w = (some (.ok s'), (c w).2)) ∧
    (m.runState s = some (.error e, s') →
      m.tryRunStateWithContext s c w = (some (.error ⟨e, [(c w).1.message], none⟩, s'), (c w).2) ∧
      m.tryEvalStateWithContext s c w = (some (.error ⟨e, [(c w).1.message], none⟩), (c w).2) ∧
      m.tryExecStateWithContext s c w = (some (.error ⟨e, [(c w).1.message], none⟩), (c w).2)) := by
  constructor <;> intro h <;>
    simp [State.tryEvalStateWithContext, State.tryExecStateWithContext, State.tryRunStateWithContext, h, mapErr, ComposableError.new, ComposableError.withContext,
      ofErrorContext]

/-- A counter: increment, read, reset. -/
example : ((State.modify (· + 1)).bind fun _ => State.get.bind fun n : Nat =>
    (State.put 0).fmap fun _ => n).runState 41 = some (42, 0) := by decide

/-! ## C37: `StateT` -/

variable {F : Type → Type} [RMonad F]

/-- Specification of the function passed to `bind_with`: whenever the callback does not panic it is the bind of
the base monad. -/
def BindFn (F : Type → Type) [RMonad F] {X Y : Type} (bf : F X → (X → Option (F Y)) → Option (F Y)) : Prop :=
  ∀ (m : F X) (k : X → Option (F Y)) (k' : X → F Y), (∀ x, k x = some (k' x)) →
    bf m k = some (RMonad.bind m k')

/-- Specification: running never panics, and is described by `g`. -/
def RunsAs {M : Type} (t : RStateT S M A) (g : S → M) : Prop := ∀ s, t.runState s = some (g s)

/-- The computation is one of the panicking ones: it is the `Pure` variant. -/
def IsPureVariant {M : Type} (t : RStateT S M A) : Prop := ∃ a, t = .Pure a

/-- `bind_with` on computations that run: the state reached by the first is given to the continuation. -/
theorem c37_bind_runs {bf : F (S × A) → (S × A → Option (F (S × B))) → Option (F (S × B))}
    (hb : BindFn F bf) (t : RStateT S (F (S × A)) A) (g : S → F (S × A)) (ht : RunsAs t g)
    (f : A → RStateT S (F (S × B)) B) (k : A → S → F (S × B)) (hf : ∀ a, RunsAs (f a) (k a)) :
    RunsAs (t.bindWith f bf) fun s => RMonad.bind (g s) fun p => k p.2 p.1 := by
  intro s
  have key : ∀ m : F (S × A), bf m (fun x => (f x.2).runState x.1) =
      some (RMonad.bind m fun p => k p.2 p.1) := fun m => hb m _ _ fun x => hf x.2 x.1
  have h := ht s
  cases t with
  | Pure a => simp [RStateT.runState] at h
  | LiftM m =>
    simp only [RStateT.runState, Option.some.injEq] at h
    show _ = some (RMonad.bind (g s) fun p => k p.2 p.1)
    rw [← h]
    exact key m
  | Effect run =>
    simp only [RStateT.runState] at h
    simp only [RStateT.bindWith, RStateT.new, RStateT.runState, h, Option.bind_some]
    exact key _

/-- `pure` runs as the base `pure` of the state and the value. -/
theorem c37_pure_runs (a : A) :
    RunsAs (RStateT.pure a (RPure.pure : S × A → F (S × A))) fun s => RPure.pure (s, a) := fun _ => rfl

/-- PARTIAL: the monad laws of `bind_with`/`pure` over every lawful base monad, for computations that run without
panic (all but the variant `Pure`, and computations whose own closures panic).  Missing: right identity for
`StateT::Pure`, and associativity through one, where they are false (`c37_monad_laws_false`, `c37_assoc_false`; exactly
there, `c37_right_identity_iff` and, over `Id`, `c37_assoc_iff`). -/
theorem c37_monad_laws_partial (hl : MonadLaws F)
    {bfAB : F (S × A) → (S × A → Option (F (S × B))) → Option (F (S × B))} (hAB : BindFn F bfAB)
    {bfAA : F (S × A) → (S × A → Option (F (S × A))) → Option (F (S × A))} (hAA : BindFn F bfAA)
    {bfBC : F (S × B) → (S × B → Option (F (S × C))) → Option (F (S × C))} (hBC : BindFn F bfBC)
    {bfAC : F (S × A) → (S × A → Option (F (S × C))) → Option (F (S × C))} (hAC : BindFn F bfAC)
    (a : A) (t : RStateT S (F (S × A)) A) (g : S → F (S × A)) (ht : RunsAs t g)
    (f : A → RStateT S (F (S × B)) B) (k : A → S → F (S × B)) (hf : ∀ a, RunsAs (f a) (k a))
    (h : B → RStateT S (F (S × C)) C) (l : B → S → F (S × C)) (hh : ∀ b, RunsAs (h b) (l b)) (s : S) :
    ((RStateT.pure a (RPure.pure : S × A → F (S × A))).bindWith f bfAB).runState s = (f a).runState s ∧
    (t.bindWith (fun x => RStateT.pure x (RPure.pure : S × A → F (S × A))) bfAA).runState s = t.runState s ∧
    ((t.bindWith f bfAB).bindWith h bfBC).runState s =
      (t.bindWith (fun x => (f x).bindWith h bfBC) bfAC).runState s := by
  refine ⟨?_, ?_, ?_⟩
  · rw [c37_bind_runs hAB _ _ (c37_pure_runs a) f k hf s, hf a s]
    exact congrArg some (hl.left_id _ _)
  · rw [c37_bind_runs hAA t g ht _ (fun a s => RPure.pure (s, a)) (fun a => c37_pure_runs a) s, ht s]
    exact congrArg some (hl.right_id (g s))
  · rw [c37_bind_runs hBC _ _ (c37_bind_runs hAB t g ht f k hf) h l hh s,
      c37_bind_runs hAC t g ht _ _ (fun x => c37_bind_runs hBC (f x) (k x) (hf x) h l hh) s]
    exact congrArg some (hl.assoc _ _ _)

/-- Every variant other than `Pure` runs without panic if its closure does. -/
theorem c37_runs_iff {M : Type} (t : RStateT S M A) :
    (∀ s, t.runState s ≠ none) ↔
      (∃ m, t = .LiftM m) ∨ (∃ f : S → Option M, t = .Effect f ∧ ∀ s, f s ≠ none) ∨
      (IsPureVariant t ∧ (S → False)) := by
  constructor
  · intro h
    cases t with
    | Pure a => exact .inr (.inr ⟨⟨a, rfl⟩, fun s => h s rfl⟩)
    | LiftM m => exact .inl ⟨m, rfl⟩
    | Effect f => exact .inr (.inl ⟨f, rfl, h⟩)
  · rintro (⟨m, rfl⟩ | ⟨f, rfl, h⟩ | ⟨_, he⟩) s
    · simp [RStateT.runState]
    · exact h s
    · exact (he s).elim

/-- Running is not panic-free: a `StateT::Pure`, also after `fmap_with`, `map_error` or `combine_with` with another
`Pure`, and the result of `apply` on two `Pure`s, panics when run. -/
theorem c37_run_panics_false (a : A) (b : B) (f : A → B) (g : A → B → C) {M : Type}
    (mf : M → (S × A → S × B) → M) (cf : M → M → (S × A → S × B → S × C) → M) (af : M → M → M) (s : S) :
    (RStateT.Pure a : RStateT S M A).runState s = none ∧
    ((RStateT.Pure a : RStateT S M A).fmapWith f mf).runState s = none ∧
    ((RStateT.Pure a : RStateT S M A).combineWith (.Pure b) g cf).map (·.runState s) = some none ∧
    ((RStateT.Pure a : RStateT S M A).apply (.Pure b : RStateT S M B) af : RStateT S M C).runState s = none ∧
    ((RStateT.Pure a : RStateT S (Except E (S × A)) A).tryRunState s).isNone = true :=
  ⟨rfl, rfl, rfl, rfl, rfl⟩

/-- Right identity fails for `StateT::Pure`: the left side runs, the right side panics. -/
theorem c37_monad_laws_false :
    ((RStateT.Pure 1 : RStateT Nat (RId (Nat × Nat)) Nat).bindWith
      (fun x => RStateT.pure x (RPure.pure : Nat × Nat → RId (Nat × Nat)))
      (fun m k => k m.value)).runState 5 = some ⟨(5, 1)⟩ ∧
    (RStateT.Pure 1 : RStateT Nat (RId (Nat × Nat)) Nat).runState 5 = none := ⟨rfl, rfl⟩

/-- `combine_with` panics at once on different variants. -/
theorem c37_combine_mixed_false {M : Type} (m : M) (run : S → Option M) (a : A) (b : B) (f : A → B → C)
    (cf : M → M → (S × A → S × B → S × C) → M) :
    ((RStateT.LiftM m : RStateT S M A).combineWith (.Effect run) f cf).isNone = true ∧
    ((RStateT.Pure a : RStateT S M A).combineWith (.LiftM m) f cf).isNone = true ∧
    ((RStateT.Effect run : RStateT S M A).combineWith (.Pure b) f cf).isNone = true := ⟨rfl, rfl, rfl⟩

/-- The specification of threading: run the first, then the second from the state reached. -/
def threaded {M : Type → Type} [RMonad M] (g1 : S → M (S × A)) (g2 : S → M (S × B)) (f : A → B → C) (s : S) :
    M (S × C) :=
  RMonad.bind (g1 s) fun p => RMonad.bind (g2 p.1) fun q => RPure.pure (q.1, f p.2 q.2)

/-- `apply` cannot thread the state, whatever `apply_fn` is: for every `apply_fn` there are two computations over
`Id` for which the result differs from the threaded one. -/
theorem c37_apply_false (af : RId (Nat × Nat) → RId (Nat × Nat) → RId (Nat × Nat)) :
    ∃ g1 g2 : Nat → RId (Nat × Nat), ∃ s,
      ((RStateT.new fun s => some (g1 s) : RStateT Nat (RId (Nat × Nat)) Nat).apply
        (RStateT.new fun s => some (g2 s) : RStateT Nat (RId (Nat × Nat)) Nat) af :
          RStateT Nat (RId (Nat × Nat)) Nat).runState s ≠ some (threaded g1 g2 (· + ·) s) := by
  by_cases h : af ⟨(1, 0)⟩ ⟨(0, 0)⟩ = ⟨(1, 1)⟩
  · refine ⟨fun s => ⟨(s + 1, 0)⟩, fun s => ⟨(s, if s = 0 then 0 else 100)⟩, 0, ?_⟩
    simp only [RStateT.apply, RStateT.new, RStateT.runState]
    simp [h, threaded, RMonad.bind, RPure.pure]
  · refine ⟨fun s => ⟨(s + 1, 0)⟩, fun s => ⟨(s, s)⟩, 0, ?_⟩
    simp only [RStateT.apply, RStateT.new, RStateT.runState]
    simpa [threaded, RMonad.bind, RPure.pure] using h

/-- The same for `combine_with`, whatever `combine_fn` is. -/
theorem c37_combine_false
    (cf : RId (Nat × Nat) → RId (Nat × Nat) → (Nat × Nat → Nat × Nat → Nat × Nat) → RId (Nat × Nat)) :
    ∃ g1 g2 : Nat → RId (Nat × Nat), ∃ s,
      ((RStateT.new fun s => some (g1 s) : RStateT Nat (RId (Nat × Nat)) Nat).combineWith
        (RStateT.new fun s => some (g2 s) : RStateT Nat (RId (Nat × Nat)) Nat) (· + ·) cf).map (·.runState s) ≠
          some (some (threaded g1 g2 (· + ·) s)) := by
  by_cases h : cf ⟨(1, 0)⟩ ⟨(0, 0)⟩ (fun x y => (y.1, x.2 + y.2)) = ⟨(1, 1)⟩
  · refine ⟨fun s => ⟨(s + 1, 0)⟩, fun s => ⟨(s, if s = 0 then 0 else 100)⟩, 0, ?_⟩
    simp only [RStateT.combineWith, RStateT.new, RStateT.runState, Option.map_some]
    intro hc
    simp only [Option.some.injEq] at hc
    have h2 : cf ⟨(1, 0)⟩ ⟨(0, 0)⟩ (fun x y => (y.1, x.2 + y.2)) = ⟨(1, 100)⟩ := hc
    rw [h] at h2
    cases h2
  · refine ⟨fun s => ⟨(s + 1, 0)⟩, fun s => ⟨(s, s)⟩, 0, ?_⟩
    simp only [RStateT.combineWith, RStateT.new, RStateT.runState, Option.map_some]
    intro hc
    simp only [Option.some.injEq] at hc
    exact h hc

/-- PARTIAL: `combine_with`, given the combination of the base monad, agrees with the threaded definition whenever
the first computation leaves the state alone.  Missing: computations that change the state, where it is false
(`c37_combine_false`). -/
theorem c37_combine_partial (hl : MonadLaws F) (g1 : S → F A) (g2 : S → F (S × A)) (f : A → A → A) (s : S)
    (cf : F (S × A) → F (S × A) → (S × A → S × A → S × A) → F (S × A))
    (hcf : ∀ x y k, cf x y k = RMonad.bind x fun p => RMonad.bind y fun q => RPure.pure (k p q)) :
    ((RStateT.new fun s => some (RMonad.bind (g1 s) fun a => RPure.pure (s, a)) :
        RStateT S (F (S × A)) A).combineWith
      (RStateT.new fun s => some (g2 s) : RStateT S (F (S × A)) A) f cf).map (·.runState s) =
    some (some (threaded (fun s => RMonad.bind (g1 s) fun a => RPure.pure (s, a)) g2 f s)) := by
  simp only [RStateT.combineWith, RStateT.new, Option.map_some, RStateT.runState,
    threaded, hcf, hl.assoc, hl.left_id]

/-- A base monad and functions as assumed above: `Option` and its bind function. -/
private theorem option_bindFn : BindFn Option (fun (m : Option (Nat × Nat)) (k : Nat × Nat → Option (Option (Nat × Nat))) =>
    match m with
    | some x => k x
    | none => some none) := by
  intro m k k' h
  cases m with
  | none => rfl
  | some x => exact h x

/-- A step that fails at 3 and otherwise counts up. -/
private def countUp (a : Nat) : RStateT Nat (Option (Nat × Nat)) Nat :=
  .Effect fun s => some (if s = 3 then none else some (s + 1, a + s))

example : RunsAs ((countUp 0).bindWith countUp (fun m k => match m with | some x => k x | none => some none))
    fun s => RMonad.bind (if s = 3 then none else some (s + 1, 0 + s)) fun p => if p.1 = 3 then none else some (p.1 + 1, p.2 + p.1) :=
  c37_bind_runs option_bindFn (countUp 0) _ (fun _ => rfl) countUp (fun a s => if s = 3 then none else some (s + 1, a + s))
    fun _ _ => rfl

example (s : Nat) : (((countUp 0).bindWith countUp (fun m k => match m with | some x => k x | none => some none)).bindWith countUp
      (fun m k => match m with | some x => k x | none => some none)).runState s =
    ((countUp 0).bindWith (fun x => (countUp x).bindWith countUp (fun m k => match m with | some x => k x | none => some none))
      (fun m k => match m with | some x => k x | none => some none)).runState s :=
  (c37_monad_laws_partial c25_option option_bindFn option_bindFn option_bindFn option_bindFn 0 (countUp 0)
    (fun s => if s = 3 then none else some (s + 1, 0 + s)) (fun _ => rfl) countUp
    (fun a s => if s = 3 then none else some (s + 1, a + s)) (fun _ _ => rfl) countUp
    (fun a s => if s = 3 then none else some (s + 1, a + s)) (fun _ _ => rfl) s).2.2

/-- Right identity holds exactly for the variants other than `Pure`, closures that panic included. -/
theorem c37_right_identity_iff (hl : MonadLaws F)
    {bf : F (S × A) → (S × A → Option (F (S × A))) → Option (F (S × A))} (hb : BindFn F bf)
    (t : RStateT S (F (S × A)) A) (s : S) :
    (t.bindWith (fun x => RStateT.pure x (RPure.pure : S × A → F (S × A))) bf).runState s = t.runState s ↔
      ¬ IsPureVariant t := by
  have key : ∀ m : F (S × A), bf m (fun x => (RStateT.pure x.2 (RPure.pure : S × A → F (S × A))).runState x.1) = some m := by
    intro m
    refine (hb m _ (fun x => RPure.pure x) fun x => rfl).trans ?_
    exact congrArg some (hl.right_id m)
  cases t with
  | Pure a => exact ⟨fun h => (by cases h), fun h => absurd ⟨a, rfl⟩ h⟩
  | LiftM m => exact ⟨fun _ ⟨_, h⟩ => (by cases h), fun _ => key m⟩
  | Effect run =>
    refine ⟨fun _ ⟨_, h⟩ => (by cases h), fun _ => ?_⟩
    show (run s).bind (fun m => bf m _) = run s
    cases run s with
    | none => rfl
    | some m => exact key m

/-- Meets the hypotheses; the law fails for `Pure 7` and holds for a counter. -/
example (s : Nat) :
    ¬ ((RStateT.Pure 7 : RStateT Nat (Option (Nat × Nat)) Nat).bindWith (fun x => RStateT.pure x RPure.pure)
      (fun m k => match m with | some x => k x | none => some none)).runState s =
        (RStateT.Pure 7 : RStateT Nat (Option (Nat × Nat)) Nat).runState s :=
  fun h => (c37_right_identity_iff c25_option option_bindFn _ s).1 h ⟨7, rfl⟩

/-- Left identity over `Id` holds for every continuation, panicking ones included. -/
theorem c37_left_identity_id (a : A) (f : A → RStateT S (RId (S × B)) B) (s : S) :
    ((RStateT.pure a (RPure.pure : S × A → RId (S × A))).bindWith f fun m k => k m.value).runState s =
      (f a).runState s := rfl

/-- Associativity over `Id`, for all computations: it holds exactly if the first is a `Pure`, or wherever the first leads
to a second that is a `Pure`, the third panics. -/
theorem c37_assoc_iff (t : RStateT S (RId (S × A)) A) (f : A → RStateT S (RId (S × B)) B)
    (h : B → RStateT S (RId (S × C)) C) (s : S) :
    ((t.bindWith f fun m k => k m.value).bindWith h fun m k => k m.value).runState s =
      (t.bindWith (fun x => (f x).bindWith h fun m k => k m.value) fun m k => k m.value).runState s ↔
    IsPureVariant t ∨ ∀ m b, t.runState s = some m → f m.value.2 = .Pure b → (h b).runState m.value.1 = none := by
  have step : ∀ m : RId (S × A), (((f m.value.2).runState m.value.1).bind fun q => (h q.value.2).runState q.value.1) =
      ((f m.value.2).bindWith h fun m k => k m.value).runState m.value.1 ↔
      ∀ b, f m.value.2 = .Pure b → (h b).runState m.value.1 = none := by
    intro m
    cases hf : f m.value.2 with
    | Pure b =>
      refine ⟨fun e b' hb => ?_, fun e => (e b rfl).symm⟩
      cases hb
      exact e.symm
    | LiftM n => exact ⟨fun _ b hb => (by cases hb), fun _ => rfl⟩
    | Effect run => exact ⟨fun _ b hb => (by cases hb), fun _ => rfl⟩
  cases t with
  | Pure a => exact ⟨fun _ => .inl ⟨a, rfl⟩, fun _ => rfl⟩
  | LiftM m =>
    refine Iff.trans (step m) ⟨fun e => .inr fun m' b hm => ?_, fun e => ?_⟩
    · cases hm; exact e b
    · rcases e with ⟨_, e⟩ | e
      · cases e
      · exact fun b => e m b rfl
  | Effect run =>
    show ((run s).bind _).bind _ = (run s).bind _ ↔ _
    simp only [RStateT.runState]
    cases hr : run s with
    | none => exact ⟨fun _ => .inr fun m b hm => (by cases hm), fun _ => rfl⟩
    | some m =>
      refine Iff.trans (step m) ⟨fun e => .inr fun m' b hm => ?_, fun e => ?_⟩
      · cases hm; exact e b
      · rcases e with ⟨_, e⟩ | e
        · cases e
        · exact fun b => e m b rfl

/-- Associativity fails when the second computation is a `Pure`: bracketed to the left it panics, to the right it runs. -/
theorem c37_assoc_false :
    (((RStateT.get fun p => (⟨p⟩ : RId (Nat × Nat))).bindWith (fun x => (.Pure (x + 1) : RStateT Nat (RId (Nat × Nat)) Nat))
      fun m k => k m.value).bindWith (fun y => RStateT.pure y fun p => (⟨p⟩ : RId (Nat × Nat))) fun m k => k m.value).runState 5 =
        none ∧
    ((RStateT.get fun p => (⟨p⟩ : RId (Nat × Nat))).bindWith (fun x =>
      (.Pure (x + 1) : RStateT Nat (RId (Nat × Nat)) Nat).bindWith (fun y => RStateT.pure y fun p => (⟨p⟩ : RId (Nat × Nat)))
        fun m k => k m.value) fun m k => k m.value).runState 5 = some ⟨(5, 6)⟩ := ⟨rfl, rfl⟩

/-- What `combine_with` does with two effects, for every base type and `combine_fn`: both are run from the same state,
the final state is that of the second run. -/
theorem c37_combine_exact {M : Type} (g1 g2 : S → M) (f : A → B → C) (cf : M → M → (S × A → S × B → S × C) → M) (s : S) :
    ((RStateT.new fun s => some (g1 s) : RStateT S M A).combineWith
      (RStateT.new fun s => some (g2 s) : RStateT S M B) f cf).map (·.runState s) =
    some (some (cf (g1 s) (g2 s) fun p q => (q.1, f p.2 q.2))) := rfl

/-- Over `Id`, `combine_with` agrees with the threaded definition exactly when the second computation, run from the
original state and from the one reached, leads to the same state and the same combined value. -/
theorem c37_combine_iff (g1 g2 : S → RId (S × A)) (f : A → A → A) (s : S) :
    ((RStateT.new fun s => some (g1 s) : RStateT S (RId (S × A)) A).combineWith
      (RStateT.new fun s => some (g2 s) : RStateT S (RId (S × A)) A) f fun x y k => ⟨k x.value y.value⟩).map
        (·.runState s) = some (some (threaded g1 g2 f s)) ↔
    (g2 s).value.1 = (g2 (g1 s).value.1).value.1 ∧
      f (g1 s).value.2 (g2 s).value.2 = f (g1 s).value.2 (g2 (g1 s).value.1).value.2 := by
  simp only [RStateT.combineWith, RStateT.new, Option.map_some, RStateT.runState, threaded, RMonad.bind, RPure.pure,
    Option.some.injEq, RId.mk.injEq, Prod.mk.injEq]

/-- `combine_with` on two lifted computations keeps the state of the first, on two effects that of the second. -/
theorem c37_combine_states (s1 s2 : S) (a : A) (f : A → A → A) :
    ((RStateT.LiftM ⟨(s1, a)⟩ : RStateT S (RId (S × A)) A).combineWith (.LiftM ⟨(s2, a)⟩) f
      (fun x y k => ⟨k x.value y.value⟩)).map (·.runState s1) = some (some ⟨(s1, f a a)⟩) ∧
    ((RStateT.Effect fun _ => some ⟨(s1, a)⟩ : RStateT S (RId (S × A)) A).combineWith
      (.Effect fun _ => some ⟨(s2, a)⟩) f
      (fun x y k => ⟨k x.value y.value⟩)).map (·.runState s1) = some (some ⟨(s2, f a a)⟩) := ⟨rfl, rfl⟩

/-- The primitives: `get`, `put` (whose value is the old state), `modify`, `exec_state`, `join`. -/
theorem c37_primitives {M O : Type} (s t : S) (p : S × S → M) (q : S × Unit → M) (f : S → S)
    (m : RStateT S M A) (ex : M → B) (j : M → O) (h : ¬ IsPureVariant m) :
    (RStateT.get p).runState s = some (p (s, s)) ∧ (RStateT.put t p).runState s = some (p (t, s)) ∧
    (RStateT.modify f q).runState s = some (q (f s, ())) ∧
    m.execState s ex = (m.runState s).map ex ∧ (m.join j).runState s = (m.runState s).map j := by
  refine ⟨rfl, rfl, rfl, rfl, ?_⟩
  cases m with
  | Pure a => exact absurd ⟨a, rfl⟩ h
  | LiftM m => rfl
  | Effect f => rfl

example : (RStateT.Effect fun s : Nat => some (some (s + 1, 2 * s)) : RStateT Nat (Option (Nat × Nat)) Nat).execState 4 (·.map Prod.fst) =
    some (some 5) :=
  (c37_primitives (4 : Nat) 0 (fun _ => some (0, 0)) (fun _ => none) id (RStateT.Effect fun s : Nat => some (some (s + 1, 2 * s))) (·.map Prod.fst) id
    (fun ⟨_, h⟩ => nomatch h)).2.2.2.1

/-- `fmap_with` (with the map of the base monad) changes the value and not the state; functor laws for the runs. -/
theorem c37_fmap {G : Type → Type} [RMonad G] (hl : FunctorLaws G) (t : RStateT S (G (S × A)) A)
    (f h : A → A) (s : S) :
    (t.fmapWith (fun a => a) fun m k => RFunctor.fmap k m).runState s = t.runState s ∧
    ((t.fmapWith f fun m k => RFunctor.fmap k m).fmapWith h fun m k => RFunctor.fmap k m).runState s =
      (t.fmapWith (fun a => h (f a)) fun m k => RFunctor.fmap k m).runState s := by
  cases t with
  | Pure a => exact ⟨rfl, rfl⟩
  | LiftM m =>
    constructor
    · simp only [RStateT.fmapWith, RStateT.runState]
      exact congrArg some (hl.id_law m)
    · simp only [RStateT.fmapWith, RStateT.runState, hl.comp_law]
  | Effect run =>
    simp only [RStateT.fmapWith, RStateT.new, RStateT.runState]
    cases run s with
    | none => exact ⟨rfl, rfl⟩
    | some m =>
      constructor
      · exact congrArg some (hl.id_law m)
      · simp only [Option.map_some, hl.comp_law]

example : (((RStateT.Effect fun s : Nat => some (some (s + 1, 2 * s)) : RStateT Nat (Option (Nat × Nat)) Nat).fmapWith (· + 1)
      fun m k => RFunctor.fmap k m).fmapWith (· * 10) fun m k => RFunctor.fmap k m).runState 4 =
    ((RStateT.Effect fun s : Nat => some (some (s + 1, 2 * s)) : RStateT Nat (Option (Nat × Nat)) Nat).fmapWith (fun a => (a + 1) * 10)
      fun m k => RFunctor.fmap k m).runState 4 := (c37_fmap c23_option _ _ _ 4).2

/-- The fallible runs of `StateT` over `Result`: the error is wrapped without context, `map_error` maps it. -/
theorem c37_try (t : RStateT S (Except E (S × A)) A) (f : E → E2) (s : S) :
    t.tryRunState s = (t.runState s).map (fun r => mapErr r ComposableError.new) ∧
    (t.mapError f).runState s = (t.runState s).map (fun r => mapErr r f) ∧
    t.tryEvalState s = (t.tryRunState s).map (fun r => RStateT.mapOk r (·.2)) ∧
    t.tryExecState s = (t.tryRunState s).map (fun r => RStateT.mapOk r (·.1)) := by
  refine ⟨?_, ?_, rfl, rfl⟩
  · rcases t with a | m | run
    · rfl
    · rcases m with e | ⟨s, a⟩ <;> rfl
    · rfl
  · rcases t with a | m | run
    · rfl
    · rcases m with e | ⟨s, a⟩ <;> rfl
    · rfl

/-- With a context: exactly that context on the error, converted exactly once. -/
theorem c37_try_with_context (t : RStateT S (Except E (S × A)) A) (s : S) (c : IntoErrorContext σ) (w : σ) :
    t.tryRunStateWithContext s c w = ((t.runState s).map (fun r => mapErr r
      fun e => ⟨e, [(c w).1.message], none⟩), (c w).2) ∧
    t.tryEvalStateWithContext s c w = ((t.runState s).map (fun r => RStateT.mapOk (mapErr r
      fun e => (⟨e, [(c w).1.message], none⟩ : ComposableError E)) (·.2)), (c w).2) := by
  have h : t.tryRunStateWithContext s c w = ((t.runState s).map (fun r => mapErr r
      fun e => ⟨e, [(c w).1.message], none⟩), (c w).2) := by
    rcases t with a | m | run
    · rfl
    · rcases m with e | ⟨s, a⟩ <;> rfl
    · rfl
  refine ⟨h, ?_⟩
  simp only [RStateT.tryEvalStateWithContext, h, Option.map_map]
  rfl

end

end Rustica
