import Verif.Data.Id
import Verif.Error.Convert

/-!
# `StateT` (`src/transformers/state_t.rs`) and `State` (`src/datatypes/state.rs`)

Running a `StateT::Pure` panics, and closures built by `bind_with` contain such runs.  So a stored run function
is `S → Option M`, with `none` for a panic; user closures may panic too.  `Arc`, `Box`, `Clone` are identities.
Note the order of the pair: `(S, A)` in `StateT`, `(A, S)` in `State`.
-/

namespace Rustica

/-- `enum StateT<S, M, A>` (`state_t.rs` 99-103). -/
inductive RStateT (S M A : Type) where
  | Pure : A → RStateT S M A
  | LiftM : M → RStateT S M A
  | Effect : (S → Option M) → RStateT S M A

namespace RStateT
variable {S M N O A B C E E2 σ : Type}

/-- `new` (`state_t.rs` 153-158). -/
def new (f : S → Option M) : RStateT S M A := Effect f
/-- `run_state` (`state_t.rs` 199-209). -/
def runState (self : RStateT S M A) (state : S) : Option M :=
  match self with
  | Pure _ => none
  | LiftM m => some m
  | Effect f => f state
/-- `get` (`state_t.rs` 234-240). -/
def get (pure : S × S → M) : RStateT S M S := new fun s => some (pure (s, s))
/-- `put` (`state_t.rs` 266-272): the value is the old state. -/
def put (newState : S) (pure : S × S → M) : RStateT S M S := new fun s => some (pure (newState, s))
/-- `modify` (`state_t.rs` 298-304). -/
def modify (f : S → S) (pure : S × Unit → M) : RStateT S M Unit := new fun s => some (pure (f s, ()))
/-- `fmap_with` (`state_t.rs` 338-369). -/
def fmapWith (self : RStateT S M A) (f : A → B) (mapFn : M → (S × A → S × B) → M) : RStateT S M B :=
  match self with
  | Pure a => Pure (f a)
  | LiftM m => LiftM (mapFn m fun (state, a) => (state, f a))
  | Effect run => new fun s => (run s).map fun m => mapFn m fun (state, a) => (state, f a)
/-- `bind_with` (`state_t.rs` 415-458).  `bindFn` is given a callback that can panic. -/
def bindWith (self : RStateT S M A) (f : A → RStateT S N B) (bindFn : M → (S × A → Option N) → Option N) :
    RStateT S N B :=
  match self with
  | Pure a => f a
  | LiftM m => new fun _ => bindFn m fun (state, a) => (f a).runState state
  | Effect run => new fun s => (run s).bind fun m => bindFn m fun (state, a) => (f a).runState state
/-- `combine_with` (`state_t.rs` 473-514); `none` is the panic on different variants. -/
def combineWith (self : RStateT S M A) (other : RStateT S M B) (f : A → B → C)
    (combineFn : M → M → (S × A → S × B → S × C) → M) : Option (RStateT S M C) :=
  match self, other with
  | Pure a, Pure b => some (Pure (f a b))
  | LiftM m1, LiftM m2 => some (LiftM (combineFn m1 m2 fun (s1, a) (_, b) => (s1, f a b)))
  | Effect run1, Effect run2 => some (new fun s =>
      match run1 s, run2 s with
      | some m1, some m2 => some (combineFn m1 m2 fun (_, a) (state, b) => (state, f a b))
      | _, _ => none)
  | _, _ => none
/-- `pure` (`state_t.rs` 541-547). -/
def pure (a : A) (pureFn : S × A → M) : RStateT S M A := new fun s => some (pureFn (s, a))
/-- `exec_state` (`state_t.rs` 574-581). -/
def execState (self : RStateT S M A) (s : S) (extract : M → B) : Option B := (self.runState s).map extract
/-- `apply` (`state_t.rs` 629-681); the catch-all arm and the `Effect`/`Effect` arm both run the two sides from
the same state; the `Pure`/`Pure` arm builds a computation that panics when run. -/
def apply (self : RStateT S M A) (other : RStateT S M B) (applyFn : M → M → M) : RStateT S M C :=
  match self, other with
  | Pure f, Pure v => new fun s =>
      match (Pure f : RStateT S M A).runState s, (Pure v : RStateT S M B).runState s with
      | some m1, some m2 => some (applyFn m1 m2)
      | _, _ => none
  | LiftM m1, LiftM m2 => LiftM (applyFn m1 m2)
  | x, y => new fun s =>
      match x.runState s, y.runState s with
      | some m1, some m2 => some (applyFn m1 m2)
      | _, _ => none
/-- `join` (`state_t.rs` 723-738). -/
def join (self : RStateT S M A) (joinFn : M → O) : RStateT S O A :=
  match self with
  | Pure a => Pure a
  | LiftM m => LiftM (joinFn m)
  | Effect run => new fun s => (run s).map joinFn
/-- `MonadTransformer::lift` (`state_t.rs` 750-752). -/
def lift (base : M) : RStateT S M A := new fun _ => some base

/-! `StateT<S, Result<(S, A), E>, A>` -/

/-- `try_run_state` (`state_t.rs` 799-812). -/
def tryRunState (self : RStateT S (Except E (S × A)) A) (state : S) :
    Option (Except (ComposableError E) (S × A)) :=
  match self with
  | Pure _ => none
  | LiftM (.ok (s, a)) => some (.ok (s, a))
  | LiftM (.error e) => some (.error (ComposableError.new e))
  | Effect run => (run state).map fun r => mapErr r ComposableError.new
/-- `try_run_state_with_context` (`state_t.rs` 854-874): the context is converted first, in every case. -/
def tryRunStateWithContext (self : RStateT S (Except E (S × A)) A) (state : S) (c : IntoErrorContext σ) :
    Eff σ (Option (Except (ComposableError E) (S × A))) := fun w =>
  let context := (c w).1
  (match self with
    | Pure _ => none
    | LiftM (.ok (s, a)) => some (.ok (s, a))
    | LiftM (.error e) => some (.error ((ComposableError.new e).withContext (ofErrorContext context) ()).1)
    | Effect run => (run state).map fun r =>
        mapErr r fun e => ((ComposableError.new e).withContext (ofErrorContext context) ()).1, (c w).2)
/-- `map_error` (`state_t.rs` 910-931). -/
def mapError (self : RStateT S (Except E (S × A)) A) (f : E → E2) : RStateT S (Except E2 (S × A)) A :=
  match self with
  | Pure a => Pure a
  | LiftM (.ok (s, a)) => LiftM (.ok (s, a))
  | LiftM (.error e) => LiftM (.error (f e))
  | Effect run => new fun s => (run s).map fun r => mapErr r f
/-- `Result::map` of the standard library. -/
def mapOk (r : Except E A) (f : A → B) : Except E B :=
  match r with
  | .ok v => .ok (f v)
  | .error e => .error e
/-- `try_eval_state` (`state_t.rs` 966-972). -/
def tryEvalState (self : RStateT S (Except E (S × A)) A) (state : S) :
    Option (Except (ComposableError E) A) := (self.tryRunState state).map fun r => mapOk r (·.2)
/-- `try_eval_state_with_context` (`state_t.rs` 1010-1021). -/
def tryEvalStateWithContext (self : RStateT S (Except E (S × A)) A) (state : S) (c : IntoErrorContext σ) :
    Eff σ (Option (Except (ComposableError E) A)) := fun w =>
  ((self.tryRunStateWithContext state c w).1.map fun r => mapOk r (·.2), (self.tryRunStateWithContext state c w).2)
/-- `try_exec_state` (`state_t.rs` 1056-1062). -/
def tryExecState (self : RStateT S (Except E (S × A)) A) (state : S) :
    Option (Except (ComposableError E) S) := (self.tryRunState state).map fun r => mapOk r (·.1)

end RStateT

/-- `struct State<S, A> { inner: StateT<S, Id<(A, S)>, A> }` (`state.rs` 246, 326-330).  `From<StateT<…>>`
(1266-1274) is the constructor. -/
structure State (S A : Type) where
  inner : RStateT S (RId (A × S)) A

namespace State
variable {S A B C E σ : Type}

/-- `new` (`state.rs` 379-386). -/
def new (f : S → Option (A × S)) : State S A := ⟨RStateT.new fun s => (f s).map RId.mk⟩
/-- `run_state` (`state.rs` 424-427). -/
def runState (self : State S A) (s : S) : Option (A × S) := (self.inner.runState s).map (·.value)
/-- `eval_state` (`state.rs` 480-482). -/
def evalState (self : State S A) (s : S) : Option A := (self.runState s).map (·.1)
/-- `exec_state` (`state.rs` 523-525), `exec_pure` (865-867). -/
def execState (self : State S A) (s : S) : Option S := (self.runState s).map (·.2)
/-- `fmap` (`state.rs` 596-605). -/
def fmap (self : State S A) (f : A → B) : State S B :=
  new fun s => (self.runState s).map fun (a, s) => (f a, s)
/-- `bind` (`state.rs` 708-717). -/
def bind (self : State S A) (f : A → State S B) : State S B :=
  new fun s => (self.runState s).bind fun (a, s) => (f a).runState s
/-- `pure` (`state.rs` 766-768). -/
def pure (a : A) : State S A := new fun s => some (a, s)
/-- `apply` (`state.rs` 827-838). -/
def apply (self : State S (B → C)) (other : State S B) : State S C :=
  new fun s => (self.runState s).bind fun (f, s1) => (other.runState s1).map fun (a, s2) => (f a, s2)
/-- free function `get` (`state.rs` 908-913). -/
def get : State S S := new fun s => some (s, s)
/-- free function `put` (`state.rs` 952-957). -/
def put (s : S) : State S Unit := new fun _ => some ((), s)
/-- free function `modify` (`state.rs` 993-999). -/
def modify (f : S → S) : State S Unit := new fun s => some ((), f s)
/-- `try_run_state` (`state.rs` 1035-1039). -/
def tryRunState (self : State S (Except E A)) (s : S) : Option (Except (ComposableError E) A × S) :=
  (self.runState s).map fun (r, s) => (mapErr r ComposableError.new, s)
/-- `try_run_state_with_context` (`state.rs` 1075-1089): the context is converted after the run, also when the
result is `Ok`. -/
def tryRunStateWithContext (self : State S (Except E A)) (s : S) (c : IntoErrorContext σ) :
    Eff σ (Option (Except (ComposableError E) A × S)) := fun w =>
  match self.runState s with
  | none => (none, w)
  | some (r, s) =>
    (some (mapErr r fun e => ((ComposableError.new e).withContext (ofErrorContext (c w).1) ()).1, s), (c w).2)
/-- `try_eval_state` (`state.rs` 1116-1119). -/
def tryEvalState (self : State S (Except E A)) (s : S) : Option (Except (ComposableError E) A) :=
  (self.tryRunState s).map (·.1)
/-- `try_exec_state` (`state.rs` 1190-1196). -/
def tryExecState (self : State S (Except E A)) (s : S) : Option (Except (ComposableError E) S) :=
  (self.tryRunState s).map fun (r, s) =>
    match r with
    | .ok _ => .ok s
    | .error e => .error e
/-- `try_eval_state_with_context` (`state.rs` 1153-1163). -/
def tryEvalStateWithContext (self : State S (Except E A)) (s : S) (c : IntoErrorContext σ) :
    Eff σ (Option (Except (ComposableError E) A)) := fun w =>
  ((self.tryRunStateWithContext s c w).1.map (·.1), (self.tryRunStateWithContext s c w).2)
/-- `try_exec_state_with_context` (`state.rs` 1230-1243). -/
def tryExecStateWithContext (self : State S (Except E A)) (s : S) (c : IntoErrorContext σ) :
    Eff σ (Option (Except (ComposableError E) S)) := fun w =>
  ((self.tryRunStateWithContext s c w).1.map fun (r, s) =>
    match r with
    | .ok _ => .ok s
    | .error e => .error e, (self.tryRunStateWithContext s c w).2)

end State

/-- `StateT::to_state` (`state_t.rs` 1096-1102). -/
def RStateT.toState {S A : Type} (self : RStateT S (RId (S × A)) A) : State S A :=
  State.new fun s => (self.runState s).map fun r => (r.value.2, r.value.1)
/-- `StateT::from_state` (`state_t.rs` 1126-1131). -/
def RStateT.fromState {S A : Type} (st : State S A) : RStateT S (RId (S × A)) A :=
  RStateT.new fun s => (st.runState s).map fun (a, s2) => ⟨(s2, a)⟩

end Rustica
