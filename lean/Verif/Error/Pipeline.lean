import Verif.Error.Types

/-!
# `ErrorPipeline` (`src/error/context.rs` 155-453)

The closures given to the pipeline are effectful (`Eff`), so that laziness and order are visible.
-/

namespace Rustica

/-- `struct ErrorPipeline<T, E>` (`context.rs` 155-158). -/
structure ErrorPipeline (T E : Type) where
  result : Except E T
  pendingContexts : List String

namespace ErrorPipeline
variable {T U E F σ : Type}

/-- `new` (`context.rs` 176-181), free function `error_pipeline` (451-453). -/
def new (r : Except E T) : ErrorPipeline T E := ⟨r, []⟩
/-- `with_context` (`context.rs` 204-215). -/
def withContext (self : ErrorPipeline T E) (c : IntoErrorContext σ) : Eff σ (ErrorPipeline T E) :=
  match self.result with
  | .ok _ => fun w => (self, w)
  | .error _ => fun w => (⟨self.result, self.pendingContexts ++ [(c w).1.message]⟩, (c w).2)
/-- `map_error` (`context.rs` 241-249). -/
def mapError (self : ErrorPipeline T E) (f : E → Eff σ F) : Eff σ (ErrorPipeline T F) :=
  match self.result with
  | .ok v => fun w => (⟨.ok v, self.pendingContexts⟩, w)
  | .error e => fun w => (⟨.error (f e w).1, self.pendingContexts⟩, (f e w).2)
/-- `recover` (`context.rs` 274-282). -/
def recover (self : ErrorPipeline T E) (recovery : E → Eff σ (Except E T)) : Eff σ (ErrorPipeline T E) :=
  match self.result with
  | .ok v => fun w => (⟨.ok v, self.pendingContexts⟩, w)
  | .error e => fun w => (⟨(recovery e w).1, self.pendingContexts⟩, (recovery e w).2)
/-- `and_then` (`context.rs` 308-316). -/
def andThen (self : ErrorPipeline T E) (f : T → Eff σ (Except E U)) : Eff σ (ErrorPipeline U E) :=
  match self.result with
  | .ok v => fun w => (⟨(f v w).1, self.pendingContexts⟩, (f v w).2)
  | .error e => fun w => (⟨.error e, self.pendingContexts⟩, w)
/-- `map` (`context.rs` 342-350). -/
def map (self : ErrorPipeline T E) (f : T → Eff σ U) : Eff σ (ErrorPipeline U E) :=
  match self.result with
  | .ok v => fun w => (⟨.ok (f v w).1, self.pendingContexts⟩, (f v w).2)
  | .error e => fun w => (⟨.error e, self.pendingContexts⟩, w)
/-- `finish` (`context.rs` 375-383); the `Box` is the identity. -/
def finish (self : ErrorPipeline T E) : Except (ComposableError E) T :=
  match self.result with
  | .ok v => .ok v
  | .error e =>
    let composable := (ComposableError.new e).withContexts self.pendingContexts
    .error composable
/-- `finish_without_box` (`context.rs` 412-420). -/
def finishWithoutBox (self : ErrorPipeline T E) : Except (ComposableError E) T :=
  match self.result with
  | .ok v => .ok v
  | .error e =>
    let composable := (ComposableError.new e).withContexts self.pendingContexts
    .error composable

end ErrorPipeline

end Rustica
