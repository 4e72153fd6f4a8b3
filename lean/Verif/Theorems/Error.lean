import Verif.Error.Pipeline
import Verif.Error.Convert

/-!
# C31, C32, C33: error contexts and error pipelines
-/

namespace Rustica

/-! ## C31: builder calls on `ComposableError` -/

/-- A sequence of builder calls that turns a `ComposableError<E>` into a `ComposableError<G>`; `map_core` may
change the type. -/
inductive Calls (σ : Type) : Type → Type → Type 1 where
  | done {E : Type} : Calls σ E E
  | withContext {E G : Type} (c : IntoErrorContext σ) (rest : Calls σ E G) : Calls σ E G
  | withContexts {E G : Type} (cs : List String) (rest : Calls σ E G) : Calls σ E G
  | setCode {E G : Type} (code : Nat) (rest : Calls σ E G) : Calls σ E G
  | mapCore {E F G : Type} (f : E → F) (rest : Calls σ F G) : Calls σ E G

namespace Calls
variable {σ : Type}

/-- The code run by the calls. -/
def run : {E G : Type} → Calls σ E G → ComposableError E → Eff σ (ComposableError G)
  | _, _, .done, e => fun w => (e, w)
  | _, _, .withContext c rest, e => fun w => rest.run (e.withContext c w).1 (e.withContext c w).2
  | _, _, .withContexts cs rest, e => rest.run (e.withContexts cs)
  | _, _, .setCode k rest, e => rest.run (e.setCode k)
  | _, _, .mapCore f rest, e => rest.run (e.mapCore f)

/-- Specification: the context messages attached by the calls, oldest first, in world `w`. -/
def attached : {E G : Type} → Calls σ E G → σ → List String
  | _, _, .done, _ => []
  | _, _, .withContext c rest, w => (c w).1.message :: rest.attached (c w).2
  | _, _, .withContexts cs rest, w => cs ++ rest.attached w
  | _, _, .setCode _ rest, w => rest.attached w
  | _, _, .mapCore _ rest, w => rest.attached w
/-- Specification: the codes set by the calls, oldest first. -/
def codes : {E G : Type} → Calls σ E G → List Nat
  | _, _, .done => []
  | _, _, .withContext _ rest => rest.codes
  | _, _, .withContexts _ rest => rest.codes
  | _, _, .setCode k rest => k :: rest.codes
  | _, _, .mapCore _ rest => rest.codes
/-- Specification: the composition of the mapped functions. -/
def mapped : {E G : Type} → Calls σ E G → E → G
  | _, _, .done => fun e => e
  | _, _, .withContext _ rest => rest.mapped
  | _, _, .withContexts _ rest => rest.mapped
  | _, _, .setCode _ rest => rest.mapped
  | _, _, .mapCore f rest => fun e => rest.mapped (f e)
/-- Specification: the worlds the context conversions run through: each conversion exactly once, in call
order. -/
def worldAfter : {E G : Type} → Calls σ E G → σ → σ
  | _, _, .done, w => w
  | _, _, .withContext c rest, w => rest.worldAfter (c w).2
  | _, _, .withContexts _ rest, w => rest.worldAfter w
  | _, _, .setCode _ rest, w => rest.worldAfter w
  | _, _, .mapCore _ rest, w => rest.worldAfter w

end Calls

/-- The last element of the codes, or the old code. -/
def lastOr (ks : List Nat) (old : Option Nat) : Option Nat :=
  match ks.getLast? with
  | some k => some k
  | none => old

theorem lastOr_cons (k : Nat) (ks : List Nat) (old : Option Nat) :
    lastOr (k :: ks) old = lastOr ks (some k) := by
  cases ks with
  | nil => rfl
  | cons a as => simp [lastOr, List.getLast?_cons]

theorem Calls.run_spec {σ E G : Type} (cs : Calls σ E G) (e : ComposableError E) (w : σ) :
    cs.run e w = (⟨cs.mapped e.coreError, e.ctx ++ cs.attached w, lastOr cs.codes e.errorCode⟩,
      cs.worldAfter w) := by
  induction cs generalizing w with
  | done => simp [run, mapped, attached, codes, lastOr, worldAfter]
  | withContext c rest ih =>
    rw [run]
    simp only [ih]
    simp [ComposableError.withContext, mapped, attached, codes, worldAfter]
  | withContexts l rest ih =>
    rw [run, ih]
    simp [ComposableError.withContexts, mapped, attached, codes, worldAfter]
  | setCode k rest ih =>
    rw [run, ih]
    simp [ComposableError.setCode, mapped, attached, codes, worldAfter, lastOr_cons]
  | mapCore f rest ih =>
    rw [run, ih]
    simp [ComposableError.mapCore, mapped, attached, codes, worldAfter]

/-- After every sequence of builder calls on a new error: `context()` is exactly the attached contexts, newest
first; `error_code()` is the last code set (or none); `core_error()` is the mapped core error; every context
is converted exactly once, in call order. -/
theorem c31_builder {σ E G : Type} (cs : Calls σ E G) (e : E) (w : σ) :
    ((cs.run (ComposableError.new e) w).1.context = (cs.attached w).reverse) ∧
    ((cs.run (ComposableError.new e) w).1.code = cs.codes.getLast?) ∧
    ((cs.run (ComposableError.new e) w).1.core = cs.mapped e) ∧
    ((cs.run (ComposableError.new e) w).2 = cs.worldAfter w) := by
  rw [Calls.run_spec]
  refine ⟨by simp [ComposableError.context, ComposableError.new], ?_, rfl, rfl⟩
  simp only [ComposableError.code, ComposableError.new, lastOr]
  cases cs.codes.getLast? <;> rfl

/-- The same for an error created with a code: the code stays until the first `set_code`. -/
theorem c31_builder_with_code {σ E G : Type} (cs : Calls σ E G) (e : E) (k : Nat) (w : σ) :
    ((cs.run (ComposableError.withCode e k) w).1.context = (cs.attached w).reverse) ∧
    ((cs.run (ComposableError.withCode e k) w).1.code = some (cs.codes.getLast?.getD k)) ∧
    ((cs.run (ComposableError.withCode e k) w).1.core = cs.mapped e) := by
  rw [Calls.run_spec]
  refine ⟨by simp [ComposableError.context, ComposableError.withCode], ?_, rfl⟩
  simp only [ComposableError.code, ComposableError.withCode, lastOr]
  cases cs.codes.getLast? <;> rfl

example : ((Calls.withContext (ofString "a") (.setCode 3 (.mapCore (fun n : Nat => n + 1)
      (.withContexts ["b", "c"] (.setCode 4 .done)))) : Calls Unit Nat Nat).run
        (ComposableError.new 10) ()).1.context = ["c", "b", "a"] := by decide

/-- Specification: strings joined with a separator. -/
def joinWith (sep : String) : List String → String
  | [] => ""
  | [s] => s
  | s :: t :: rest => s ++ sep ++ joinWith sep (t :: rest)

theorem chainLoop_pos (cs : List String) (k : Nat) (chain : String) :
    ComposableError.chainLoop (cs.zipIdx (k + 1)) chain =
      chain ++ cs.foldr (fun c acc => " -> " ++ c ++ acc) "" := by
  induction cs generalizing k chain with
  | nil => simp [ComposableError.chainLoop]
  | cons c cs ih =>
    rw [show (c :: cs).zipIdx (k + 1) = (c, k + 1) :: cs.zipIdx (k + 1 + 1) from rfl]
    rw [show ComposableError.chainLoop ((c, k + 1) :: cs.zipIdx (k + 1 + 1)) chain =
      ComposableError.chainLoop (cs.zipIdx (k + 1 + 1)) (chain ++ " -> " ++ c) from by
        simp [ComposableError.chainLoop]]
    rw [ih]
    simp [String.append_assoc]

theorem joinWith_cons (c : String) (cs : List String) :
    joinWith " -> " (c :: cs) = c ++ cs.foldr (fun c acc => " -> " ++ c ++ acc) "" := by
  induction cs generalizing c with
  | nil => simp [joinWith]
  | cons d ds ih => rw [joinWith, ih]; simp [String.append_assoc]

theorem chainLoop_zero (cs : List String) :
    ComposableError.chainLoop cs.zipIdx "" = joinWith " -> " cs := by
  cases cs with
  | nil => rfl
  | cons c cs =>
    rw [show (c :: cs).zipIdx = (c, 0) :: cs.zipIdx (0 + 1) from rfl]
    rw [show ComposableError.chainLoop ((c, 0) :: cs.zipIdx (0 + 1)) "" =
      ComposableError.chainLoop (cs.zipIdx (0 + 1)) c from by simp [ComposableError.chainLoop]]
    rw [chainLoop_pos, joinWith_cons]

theorem joinWith_concat (cs : List String) (d : String) (h : cs ≠ []) :
    joinWith " -> " (cs ++ [d]) = joinWith " -> " cs ++ " -> " ++ d := by
  cases cs with
  | nil => exact absurd rfl h
  | cons c cs =>
    rw [List.cons_append, joinWith_cons, joinWith_cons]
    clear h
    induction cs generalizing c with
    | nil => simp [String.append_assoc]
    | cons e es ih =>
      have := ih e
      simp only [List.foldr_cons, List.cons_append] at this ⊢
      simp only [String.append_assoc] at this ⊢
      rw [this]

/-- `error_chain`/`Display`/`format_error_chain`: the contexts, newest first, and the core error, joined by
`" -> "`, followed by the code in parentheses when there is one. -/
theorem c31_error_chain {E : Type} (disp : E → String) (e : ComposableError E) :
    e.errorChain disp = joinWith " -> " (e.context ++ [disp e.core]) ++
      (match e.code with
        | some k => " (code: " ++ toString k ++ ")"
        | none => "") ∧
    e.display disp = e.errorChain disp ∧ formatErrorChain disp e = e.errorChain disp ∧
    extractContext e = e.context := by
  refine ⟨?_, rfl, rfl, rfl⟩
  obtain ⟨core, ctx, code⟩ := e
  simp only [ComposableError.errorChain, ComposableError.context, ComposableError.core,
    ComposableError.code, chainLoop_zero]
  have key : (if ctx.isEmpty then joinWith " -> " ctx.reverse else joinWith " -> " ctx.reverse ++ " -> ") ++
      disp core = joinWith " -> " (ctx.reverse ++ [disp core]) := by
    by_cases h : ctx = []
    · subst h; simp [joinWith]
    · rw [joinWith_concat _ _ (by simpa using h)]
      have : ctx.isEmpty = false := by cases ctx <;> simp_all
      simp [this]
  rw [key]
  cases code <;> simp [String.append_assoc]

example : (⟨"core", ["first", "second"], some 7⟩ : ComposableError String).errorChain id =
    "second -> first -> core (code: 7)" := by decide +kernel

theorem convertAll_spec {σ : Type} (cs : List (IntoErrorContext σ)) (w : σ) :
    (convertAll cs w).1.length = cs.length := by
  induction cs generalizing w with
  | nil => rfl
  | cons c cs ih => simp [convertAll, ih]

/-- `accumulate_context` (and `context_accumulator`, `context_fn`, `with_context`) attach the same contexts as
the corresponding sequence of `with_context` calls, with the same conversions in the same order. -/
theorem c31_accumulate {σ E : Type} (e : E) (cs : List (IntoErrorContext σ)) (w : σ) :
    accumulateContext e cs w =
      (cs.foldr (fun c rest => Calls.withContext c rest) (Calls.done : Calls σ E E)).run
        (ComposableError.new e) w ∧
    contextAccumulator cs e w = accumulateContext e cs w := by
  refine ⟨?_, rfl⟩
  rw [Calls.run_spec]
  suffices H : ∀ (cs : List (IntoErrorContext σ)) (w : σ),
      convertAll cs w =
        ((cs.foldr (fun c rest => Calls.withContext c rest) (Calls.done : Calls σ E E)).attached w,
         (cs.foldr (fun c rest => Calls.withContext c rest) (Calls.done : Calls σ E E)).worldAfter w) ∧
      (cs.foldr (fun c rest => Calls.withContext c rest) (Calls.done : Calls σ E E)).codes = [] ∧
      (cs.foldr (fun c rest => Calls.withContext c rest) (Calls.done : Calls σ E E)).mapped = fun e => e by
    obtain ⟨h1, h2, h3⟩ := H cs w
    rw [h2, h3, accumulateContext, h1]
    rfl
  intro cs
  induction cs with
  | nil => intro w; exact ⟨rfl, rfl, rfl⟩
  | cons c cs ih =>
    intro w
    obtain ⟨h1, h2, h3⟩ := ih (c w).2
    refine ⟨?_, h2, h3⟩
    simp only [convertAll, List.foldr_cons, Calls.attached, Calls.worldAfter, h1]

/-- `with_context` and the closure of `context_fn`: one context on a new error. -/
theorem c31_with_context {σ E : Type} (e : E) (c : IntoErrorContext σ) (w : σ) :
    withContext e c w = (⟨e, [(c w).1.message], none⟩, (c w).2) ∧
    contextFn c e w = withContext e c w := ⟨rfl, rfl⟩

/-- The three ways to give a context: a string, an `ErrorContext`, a lazily formatted message. -/
theorem c31_into_context {σ : Type} (s : String) (c : ErrorContext) (g : Eff σ String) (w : σ) :
    (ofString s w).1.message = s ∧ (ofString s w).2 = w ∧
    (ofErrorContext c w) = (c, w) ∧ (ofLazy g w).1.message = (g w).1 ∧ (ofLazy g w).2 = (g w).2 :=
  ⟨rfl, rfl, rfl, rfl, rfl⟩

/-- `Maybe::try_unwrap`: the value, or the documented error with its one context. -/
theorem c31_maybe_try_unwrap {T : Type} (v : T) :
    (Maybe.Just v).tryUnwrap = .ok v ∧
    (Maybe.Nothing : Maybe T).tryUnwrap = .error ⟨"Cannot unwrap Nothing value",
      ["Called `try_unwrap()` on a `Nothing` value"], none⟩ := ⟨rfl, rfl⟩

/-- `AppError`: constructors, accessors and maps. -/
theorem c31_app_error {M N C D : Type} (m : M) (c : C) (e : AppError M C) (f : M → N)
    (g : Option C → Option D) :
    (AppError.new m : AppError M C).message = m ∧ (AppError.new m : AppError M C).context = none ∧
    (AppError.withContext m c).message = m ∧ (AppError.withContext m c).context = some c ∧
    (e.map f).message = f e.message ∧ (e.map f).context = e.context ∧
    (e.mapContext g).message = e.message ∧ (e.mapContext g).context = g e.context :=
  ⟨rfl, rfl, rfl, rfl, rfl, rfl, rfl, rfl⟩

/-- The printed forms show the message and, when there is one, the context. -/
theorem c31_app_display {M C : Type} (dm : M → String) (dc : C → String) (m : M) (c : C) (x : ErrorContext) :
    (AppError.new m : AppError M C).display dm dc = dm m ∧
    (AppError.withContext m c).display dm dc = dm m ++ " (Context: " ++ dc c ++ ")" ∧
    x.display = x.message := ⟨rfl, rfl, rfl⟩

/-! ## C32: pipelines -/

/-- A chain of pipeline calls from `ErrorPipeline<T, E>` to `ErrorPipeline<U, F>`. -/
inductive Chain (σ : Type) : Type → Type → Type → Type → Type 1 where
  | done {T E : Type} : Chain σ T E T E
  | withContext {T E U F : Type} (c : IntoErrorContext σ) (rest : Chain σ T E U F) : Chain σ T E U F
  | map {T T' E U F : Type} (f : T → Eff σ T') (rest : Chain σ T' E U F) : Chain σ T E U F
  | andThen {T T' E U F : Type} (f : T → Eff σ (Except E T')) (rest : Chain σ T' E U F) : Chain σ T E U F
  | mapError {T E E' U F : Type} (f : E → Eff σ E') (rest : Chain σ T E' U F) : Chain σ T E U F
  | recover {T E U F : Type} (f : E → Eff σ (Except E T)) (rest : Chain σ T E U F) : Chain σ T E U F

namespace Chain
variable {σ : Type}

/-- The pipeline program. -/
def run : {T E U F : Type} → Chain σ T E U F → ErrorPipeline T E → Eff σ (ErrorPipeline U F)
  | _, _, _, _, .done, p => fun w => (p, w)
  | _, _, _, _, .withContext c rest, p => fun w => rest.run (p.withContext c w).1 (p.withContext c w).2
  | _, _, _, _, .map f rest, p => fun w => rest.run (p.map f w).1 (p.map f w).2
  | _, _, _, _, .andThen f rest, p => fun w => rest.run (p.andThen f w).1 (p.andThen f w).2
  | _, _, _, _, .mapError f rest, p => fun w => rest.run (p.mapError f w).1 (p.mapError f w).2
  | _, _, _, _, .recover f rest, p => fun w => rest.run (p.recover f w).1 (p.recover f w).2

/-- What the specification tracks: the plain `Result`, the contexts attached to the error now in flight, and
the contexts of errors that have been recovered. -/
structure Track (T E : Type) where
  res : Except E T
  inFlight : List String
  recovered : List String

/-- Specification: the same chain on a plain `Result`, with a separate account of the contexts.  A context is
attached when an error is in flight; a recovery that succeeds ends the flight of that error. -/
def spec : {T E U F : Type} → Chain σ T E U F → Track T E → Eff σ (Track U F)
  | _, _, _, _, .done, t => fun w => (t, w)
  | _, _, _, _, .withContext _ rest, ⟨.ok v, i, r⟩ => rest.spec ⟨.ok v, i, r⟩
  | _, _, _, _, .withContext c rest, ⟨.error e, i, r⟩ => fun w =>
      rest.spec ⟨.error e, i ++ [(c w).1.message], r⟩ (c w).2
  | _, _, _, _, .map f rest, ⟨.ok v, i, r⟩ => fun w => rest.spec ⟨.ok (f v w).1, i, r⟩ (f v w).2
  | _, _, _, _, .map _ rest, ⟨.error e, i, r⟩ => rest.spec ⟨.error e, i, r⟩
  | _, _, _, _, .andThen f rest, ⟨.ok v, i, r⟩ => fun w => rest.spec ⟨(f v w).1, i, r⟩ (f v w).2
  | _, _, _, _, .andThen _ rest, ⟨.error e, i, r⟩ => rest.spec ⟨.error e, i, r⟩
  | _, _, _, _, .mapError _ rest, ⟨.ok v, i, r⟩ => rest.spec ⟨.ok v, i, r⟩
  | _, _, _, _, .mapError f rest, ⟨.error e, i, r⟩ => fun w => rest.spec ⟨.error (f e w).1, i, r⟩ (f e w).2
  | _, _, _, _, .recover _ rest, ⟨.ok v, i, r⟩ => rest.spec ⟨.ok v, i, r⟩
  | _, _, _, _, .recover f rest, ⟨.error e, i, r⟩ => fun w =>
      match f e w with
      | (.ok v, w') => rest.spec ⟨.ok v, [], r ++ i⟩ w'
      | (.error e', w') => rest.spec ⟨.error e', i, r⟩ w'

end Chain

theorem Chain.run_spec {σ T E U F : Type} (ch : Chain σ T E U F) (t : Chain.Track T E) (w : σ) :
    ch.run ⟨t.res, t.recovered ++ t.inFlight⟩ w =
      (⟨(ch.spec t w).1.res, (ch.spec t w).1.recovered ++ (ch.spec t w).1.inFlight⟩, (ch.spec t w).2) := by
  induction ch generalizing w with
  | done => rfl
  | withContext c rest ih =>
    obtain ⟨res, i, r⟩ := t
    cases res with
    | ok v => simpa [run, spec, ErrorPipeline.withContext] using ih ⟨.ok v, i, r⟩ w
    | error e =>
      simpa [run, spec, ErrorPipeline.withContext] using ih ⟨.error e, i ++ [(c w).1.message], r⟩ (c w).2
  | map f rest ih =>
    obtain ⟨res, i, r⟩ := t
    cases res with
    | ok v => simpa [run, spec, ErrorPipeline.map] using ih ⟨.ok (f v w).1, i, r⟩ (f v w).2
    | error e => simpa [run, spec, ErrorPipeline.map] using ih ⟨.error e, i, r⟩ w
  | andThen f rest ih =>
    obtain ⟨res, i, r⟩ := t
    cases res with
    | ok v => simpa [run, spec, ErrorPipeline.andThen] using ih ⟨(f v w).1, i, r⟩ (f v w).2
    | error e => simpa [run, spec, ErrorPipeline.andThen] using ih ⟨.error e, i, r⟩ w
  | mapError f rest ih =>
    obtain ⟨res, i, r⟩ := t
    cases res with
    | ok v => simpa [run, spec, ErrorPipeline.mapError] using ih ⟨.ok v, i, r⟩ w
    | error e => simpa [run, spec, ErrorPipeline.mapError] using ih ⟨.error (f e w).1, i, r⟩ (f e w).2
  | recover f rest ih =>
    obtain ⟨res, i, r⟩ := t
    cases res with
    | ok v => simpa [run, spec, ErrorPipeline.recover] using ih ⟨.ok v, i, r⟩ w
    | error e =>
      simp only [run, spec, ErrorPipeline.recover]
      rcases h : f e w with ⟨res', w'⟩
      cases res' with
      | ok v => simpa using ih ⟨.ok v, [], r ++ i⟩ w'
      | error e' => simpa using ih ⟨.error e', i, r⟩ w'

/-- Forget the contexts of a finished pipeline. -/
def coreResult {T E : Type} : Except (ComposableError E) T → Except E T
  | .ok v => .ok v
  | .error c => .error c.coreError

/-- The outcome of every pipeline is the outcome of the same chain on the plain `Result`, with the same
effects in the same order. -/
theorem c32_outcome {σ T E U F : Type} (ch : Chain σ T E U F) (r : Except E T) (w : σ) :
    coreResult (ch.run (ErrorPipeline.new r) w).1.finish = (ch.spec ⟨r, [], []⟩ w).1.res ∧
    (ch.run (ErrorPipeline.new r) w).2 = (ch.spec ⟨r, [], []⟩ w).2 := by
  have h := ch.run_spec ⟨r, [], []⟩ w
  simp only [List.append_nil] at h
  rw [ErrorPipeline.new, h]
  refine ⟨?_, rfl⟩
  simp only [ErrorPipeline.finish]
  cases (ch.spec ⟨r, [], []⟩ w).1.res <;> rfl

/-- Exact contexts: on failure the reported contexts, newest first, are those attached to the error in flight
followed by those of all errors recovered earlier; no error code is set. -/
theorem c32_contexts_exact {σ T E U F : Type} (ch : Chain σ T E U F) (r : Except E T) (w : σ)
    (c : ComposableError F) (h : (ch.run (ErrorPipeline.new r) w).1.finish = .error c) :
    c.context = (ch.spec ⟨r, [], []⟩ w).1.inFlight.reverse ++ (ch.spec ⟨r, [], []⟩ w).1.recovered.reverse ∧
    c.code = none := by
  have h2 := ch.run_spec ⟨r, [], []⟩ w
  simp only [List.append_nil] at h2
  rw [ErrorPipeline.new, h2] at h
  simp only [ErrorPipeline.finish] at h
  cases hr : (ch.spec ⟨r, [], []⟩ w).1.res with
  | ok v => rw [hr] at h; cases h
  | error e =>
    rw [hr] at h
    cases h
    simp [ComposableError.context, ComposableError.withContexts, ComposableError.new, ComposableError.code]

/-- PARTIAL: the full claim "the reported contexts are exactly those attached while that error was in flight"
holds for every chain in which no error has been recovered after a context was attached to it.  What is
missing is the claim for chains with such a recovery, where it is false (`c32_contexts_false`). -/
theorem c32_contexts_partial {σ T E U F : Type} (ch : Chain σ T E U F) (r : Except E T) (w : σ)
    (c : ComposableError F) (h : (ch.run (ErrorPipeline.new r) w).1.finish = .error c)
    (hrec : (ch.spec ⟨r, [], []⟩ w).1.recovered = []) :
    c.context = (ch.spec ⟨r, [], []⟩ w).1.inFlight.reverse := by
  have := (c32_contexts_exact ch r w c h).1
  rw [hrec] at this
  simpa using this

/-- A chain without `recover` calls. -/
def Chain.noRecover {σ : Type} : {T E U F : Type} → Chain σ T E U F → Bool
  | _, _, _, _, .done => true
  | _, _, _, _, .withContext _ rest => rest.noRecover
  | _, _, _, _, .map _ rest => rest.noRecover
  | _, _, _, _, .andThen _ rest => rest.noRecover
  | _, _, _, _, .mapError _ rest => rest.noRecover
  | _, _, _, _, .recover _ _ => false

theorem Chain.noRecover_recovered {σ T E U F : Type} (ch : Chain σ T E U F) (h : ch.noRecover = true)
    (t : Chain.Track T E) (w : σ) : (ch.spec t w).1.recovered = t.recovered := by
  induction ch generalizing w with
  | done => rfl
  | recover f rest ih => simp [noRecover] at h
  | _ _ rest ih =>
    obtain ⟨res, i, r⟩ := t
    cases res <;> exact ih h _ _

/-- In particular for every chain without `recover`. -/
theorem c32_contexts_no_recover {σ T E U F : Type} (ch : Chain σ T E U F) (r : Except E T) (w : σ)
    (c : ComposableError F) (h : (ch.run (ErrorPipeline.new r) w).1.finish = .error c)
    (hn : ch.noRecover = true) :
    c.context = (ch.spec ⟨r, [], []⟩ w).1.inFlight.reverse :=
  c32_contexts_partial ch r w c h (ch.noRecover_recovered hn _ _)

/-- The hypotheses of the three theorems above are met: a chain without `recover` that fails; and one whose recovered
failure leaves its context behind. -/
example : (⟨2, ["a", "b"], none⟩ : ComposableError Nat).context = ["b", "a"] :=
  c32_contexts_no_recover (.withContext (ofString "a") (.mapError (fun n w => (n + 1, w)) (.withContext (ofString "b") .done)) :
    Chain Unit Nat Nat Nat Nat) (.error 1) () _ rfl rfl

example : (⟨2, ["a", "b"], none⟩ : ComposableError Nat).context = ["b", "a"] :=
  c32_contexts_partial (.withContext (ofString "a") (.mapError (fun n w => (n + 1, w)) (.withContext (ofString "b") .done)) :
    Chain Unit Nat Nat Nat Nat) (.error 1) () _ rfl rfl

example : ((⟨9, ["a", "b"], none⟩ : ComposableError Nat).context = ["b"] ++ ["a"]) :=
  (c32_contexts_exact (.withContext (ofString "a") (.recover (fun _ w => (.ok 5, w)) (.andThen (fun _ w => (.error 9, w))
    (.withContext (ofString "b") .done))) : Chain Unit Nat Nat Nat Nat) (.error 1) () _ rfl).1

/-- The witness chain: an error gets the context "ctx1", is recovered, and a later step fails with another
error. -/
def staleChain : Chain Unit Nat Nat Nat Nat :=
  .withContext (ofString "ctx1") (.recover (fun _ w => (.ok 0, w))
    (.andThen (fun _ w => (.error 2, w)) (.withContext (ofString "ctx2") .done)))

/-- The full claim is false: the context of the recovered error is reported on the later, different error. -/
theorem c32_contexts_false :
    (staleChain.run (ErrorPipeline.new (.error 1)) ()).1.finish = .error ⟨2, ["ctx1", "ctx2"], none⟩ ∧
    (staleChain.spec ⟨.error 1, [], []⟩ ()).1.inFlight = ["ctx2"] := ⟨rfl, rfl⟩

example : ((.withContext (ofString "a") (.mapError (fun n w => (n + 1, w)) (.withContext (ofString "b") .done)) :
    Chain Unit Nat Nat Nat Nat).run (ErrorPipeline.new (.error 1)) ()).1.finish =
      .error ⟨2, ["a", "b"], none⟩ := rfl

/-! ## C33 -/

/-- `finish` and `finish_without_box` agree (up to boxing). -/
theorem c33_finish {T E : Type} (p : ErrorPipeline T E) : p.finish = p.finishWithoutBox := rfl

/-- … and both return the value, or the error with the pending contexts and no code. -/
theorem c33_finish_value {T E : Type} (p : ErrorPipeline T E) :
    p.finishWithoutBox = match p.result with
      | .ok v => .ok v
      | .error e => .error ⟨e, p.pendingContexts, none⟩ := by
  obtain ⟨r, cs⟩ := p
  cases r <;> simp [ErrorPipeline.finishWithoutBox, ComposableError.withContexts, ComposableError.new]

/-- In the `Ok` state a context is not converted (its generator does not run) and nothing changes. -/
theorem c33_context_lazy {σ T E : Type} (v : T) (cs : List String) (c : IntoErrorContext σ) (w : σ) :
    (⟨.ok v, cs⟩ : ErrorPipeline T E).withContext c w = (⟨.ok v, cs⟩, w) := rfl

/-- In the `Err` state it is converted exactly once and its message is appended. -/
theorem c33_context_strict {σ T E : Type} (e : E) (cs : List String) (c : IntoErrorContext σ) (w : σ) :
    (⟨.error e, cs⟩ : ErrorPipeline T E).withContext c w =
      (⟨.error e, cs ++ [(c w).1.message]⟩, (c w).2) := rfl

/-- Any number of contexts given to a pipeline in the `Ok` state: none is converted.  (For arbitrary chains the
worlds of `c32_outcome` say the same: its specification converts a context only while an error is in
flight.) -/
theorem c33_chain_lazy {σ T E : Type} (v : T) (ctxs : List (IntoErrorContext σ)) (w : σ) :
    (ctxs.foldr (fun c rest => Chain.withContext c rest) (Chain.done : Chain σ T E T E)).run
      (ErrorPipeline.new (.ok v)) w = (ErrorPipeline.new (.ok v), w) := by
  induction ctxs with
  | nil => rfl
  | cons c cs ih => simpa [Chain.run, ErrorPipeline.withContext, ErrorPipeline.new] using ih

/-- `with_context_result` is lazy in the same way. -/
theorem c33_with_context_result {σ T E : Type} (v : T) (e : E) (c : IntoErrorContext σ) (w : σ) :
    withContextResult (.ok v : Except E T) c w = (.ok v, w) ∧
    withContextResult (.error e : Except E T) c w =
      (.error ⟨e, [(c w).1.message], none⟩, (c w).2) := ⟨rfl, rfl⟩

/-- A generator that counts its runs. -/
example : ((ErrorPipeline.new (.ok 1 : Except Nat Nat)).withContext
    (ofLazy fun n : Nat => ("msg", n + 1)) 0).2 = 0 := rfl
example : ((ErrorPipeline.new (.error 1 : Except Nat Nat)).withContext
    (ofLazy fun n : Nat => ("msg", n + 1)) 0).2 = 1 := rfl

end Rustica
