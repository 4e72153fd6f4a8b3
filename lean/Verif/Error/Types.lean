import Verif.Utils.Eff
import Verif.Data.Maybe

/-!
# `ComposableError`, `ErrorContext`, `LazyContext` (`src/error/types.rs`) and the context helpers of
`src/error/context.rs`

`SmallVec<[String; 4]>` and `Vec<String>` are `List String`, `u32` is `Nat`, `Box` is the identity.
`Display` of the core error is a parameter `disp : E → String`.  A value implementing `IntoErrorContext` is
`Eff σ ErrorContext`: the code that runs when it is converted.  Not modelled: `Debug`, `std::error::Error`.
-/

namespace Rustica

/-- `struct ErrorContext` (`types.rs` 383-385). -/
structure ErrorContext where
  message : String
deriving DecidableEq, Repr

namespace ErrorContext
/-- `ErrorContext::new` (`types.rs` 403-407). -/
def new (message : String) : ErrorContext := ⟨message⟩
/-- `Display` (`types.rs` 425-429). -/
def display (c : ErrorContext) : String := c.message
end ErrorContext

/-- A value whose type implements `IntoErrorContext` (`types.rs` 437-440). -/
abbrev IntoErrorContext (σ : Type) := Eff σ ErrorContext

section
variable {σ : Type}
/-- `impl IntoErrorContext for String` and `&str` (`types.rs` 442-454). -/
def ofString (s : String) : IntoErrorContext σ := fun w => (ErrorContext.new s, w)
/-- `impl IntoErrorContext for ErrorContext` (`types.rs` 456-461). -/
def ofErrorContext (c : ErrorContext) : IntoErrorContext σ := fun w => (c, w)
/-- `impl IntoErrorContext for LazyContext<F>` (`types.rs` 480-488), `LazyContext::new` (475-477); the macro
`context!(…)` (`macros.rs` 29-34) is `LazyContext::new(move || format!(…))`. -/
def ofLazy (generator : Eff σ String) : IntoErrorContext σ :=
  fun w => (ErrorContext.new (generator w).1, (generator w).2)
end

/-- `struct ComposableError<E>` (`types.rs` 38-46). -/
structure ComposableError (E : Type) where
  coreError : E
  ctx : List String
  errorCode : Option Nat
deriving DecidableEq, Repr

namespace ComposableError
variable {E F σ : Type}

/-- `new` (`types.rs` 65-71), `From<E>` (360-365). -/
def new (e : E) : ComposableError E := ⟨e, [], none⟩
/-- `with_code` (`types.rs` 90-96). -/
def withCode (e : E) (code : Nat) : ComposableError E := ⟨e, [], some code⟩
/-- `with_context` (`types.rs` 121-127). -/
def withContext (self : ComposableError E) (c : IntoErrorContext σ) : Eff σ (ComposableError E) :=
  fun w => (⟨self.coreError, self.ctx ++ [(c w).1.message], self.errorCode⟩, (c w).2)
/-- `with_contexts` (`types.rs` 150-156). -/
def withContexts (self : ComposableError E) (cs : List String) : ComposableError E :=
  ⟨self.coreError, self.ctx ++ cs, self.errorCode⟩
/-- `core_error` (`types.rs` 169-171). -/
def core (self : ComposableError E) : E := self.coreError
/-- `context` (`types.rs` 190-192), `context_iter` (209-211). -/
def context (self : ComposableError E) : List String := self.ctx.reverse
/-- `error_code` (`types.rs` 227-229). -/
def code (self : ComposableError E) : Option Nat := self.errorCode
/-- `set_code` (`types.rs` 246-249). -/
def setCode (self : ComposableError E) (code : Nat) : ComposableError E :=
  ⟨self.coreError, self.ctx, some code⟩
/-- `map_core` (`types.rs` 278-287). -/
def mapCore (self : ComposableError E) (f : E → F) : ComposableError F :=
  ⟨f self.coreError, self.ctx, self.errorCode⟩
/-- The loop of `error_chain` (`types.rs` 316-321), over the enumerated reversed contexts. -/
def chainLoop (items : List (String × Nat)) (chain : String) : String :=
  items.foldl (fun chain p => (if p.2 > 0 then chain ++ " -> " else chain) ++ p.1) chain
/-- `error_chain` (`types.rs` 309-334). -/
def errorChain (disp : E → String) (self : ComposableError E) : String :=
  let chain := chainLoop self.ctx.reverse.zipIdx ""
  let chain := if self.ctx.isEmpty then chain else chain ++ " -> "
  let chain := chain ++ disp self.coreError
  match self.errorCode with
  | some code => chain ++ (" (code: " ++ toString code ++ ")")
  | none => chain
/-- `Display` (`types.rs` 337-341). -/
def display (disp : E → String) (self : ComposableError E) : String := self.errorChain disp

end ComposableError

section
variable {E T σ : Type}

/-- free function `with_context` (`context.rs` 41-46). -/
def withContext (e : E) (c : IntoErrorContext σ) : Eff σ (ComposableError E) :=
  (ComposableError.new e).withContext c
/-- `with_context_result` (`context.rs` 86-91). -/
def withContextResult (r : Except E T) (c : IntoErrorContext σ) : Eff σ (Except (ComposableError E) T) :=
  match r with
  | .ok v => fun w => (.ok v, w)
  | .error e => fun w => (.error (withContext e c w).1, (withContext e c w).2)
/-- `context_fn` (`context.rs` 121-126): the closure converts a clone of the context at each call. -/
def contextFn (c : IntoErrorContext σ) : E → Eff σ (ComposableError E) := fun e => withContext e c
/-- The `map(…).collect()` of `accumulate_context` (`context.rs` 488-491). -/
def convertAll : List (IntoErrorContext σ) → Eff σ (List String)
  | [], w => ([], w)
  | c :: cs, w => ((c w).1.message :: (convertAll cs (c w).2).1, (convertAll cs (c w).2).2)
/-- `accumulate_context` (`context.rs` 483-494). -/
def accumulateContext (e : E) (cs : List (IntoErrorContext σ)) : Eff σ (ComposableError E) :=
  fun w => ((ComposableError.new e).withContexts (convertAll cs w).1, (convertAll cs w).2)
/-- `context_accumulator` (`context.rs` 529-535). -/
def contextAccumulator (cs : List (IntoErrorContext σ)) : E → Eff σ (ComposableError E) :=
  fun e => accumulateContext e cs
/-- `format_error_chain` (`context.rs` 565-570). -/
def formatErrorChain (disp : E → String) (e : ComposableError E) : String := e.errorChain disp
/-- `extract_context` (`context.rs` 599-601). -/
def extractContext (e : ComposableError E) : List String := e.context

/-- `Maybe::try_unwrap` (`maybe.rs` 479-487, `MaybeExt` 1384-1392). -/
def Maybe.tryUnwrap (m : Maybe T) : Except (ComposableError String) T :=
  match m with
  | .Just v => .ok v
  | .Nothing => .error ((ComposableError.new "Cannot unwrap Nothing value").withContext
      (ofString "Called `try_unwrap()` on a `Nothing` value") ()).1
end

/-- `struct AppError<M, C>` (`utils/error_utils.rs` 556-559); derived-style `==` (561-567) is equality of the
fields. -/
structure AppError (M C : Type) where
  message : M
  context : Option C
deriving DecidableEq, Repr

namespace AppError
variable {M N C D : Type}
/-- `new` (`error_utils.rs` 576-581), free function `error` (679-681). -/
def new (m : M) : AppError M C := ⟨m, none⟩
/-- `with_context` (`error_utils.rs` 590-595), free function `error_with_context` (708-710). -/
def withContext (m : M) (c : C) : AppError M C := ⟨m, some c⟩
/-- `map` (`error_utils.rs` 616-624). -/
def map (e : AppError M C) (f : M → N) : AppError N C := ⟨f e.message, e.context⟩
/-- `map_context` (`error_utils.rs` 633-641). -/
def mapContext (e : AppError M C) (f : Option C → Option D) : AppError M D := ⟨e.message, f e.context⟩
/-- `Display` (`error_utils.rs` 644-651), with the `Debug` printers as parameters. -/
def display (dm : M → String) (dc : C → String) (e : AppError M C) : String :=
  match e.context with
  | some c => dm e.message ++ " (Context: " ++ dc c ++ ")"
  | none => dm e.message
end AppError

end Rustica
