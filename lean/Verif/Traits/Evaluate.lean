import Verif.Effect.Act

/-!
# `Evaluate`, `EvaluateExt` and `Thunk`

`src/traits/evaluate.rs`, `src/datatypes/wrapper/thunk.rs`.  Computations and closures are effectful code that may
panic (`Act`), so that the theorems see how often and in which order they run.
-/

namespace Rustica

/-- `trait Evaluate` (`evaluate.rs` 86-118); `evaluate_owned` defaults to `evaluate` (112-117). -/
class REvaluate (σ : Type) (X : Type) (Source : outParam Type) where
  evaluate : X → Act σ Source
  evaluateOwned : X → Act σ Source := evaluate

/-- `struct Thunk<F, T> { function: F, .. }` (`thunk.rs` 105-111). -/
structure Thunk' (σ T : Type) where
  function : Act σ T

/-- `Thunk::new` (`thunk.rs` 154-159). -/
def Thunk'.new {σ T : Type} (f : Act σ T) : Thunk' σ T := ⟨f⟩

/-- `Evaluate for Thunk` (`thunk.rs` 170-277): both methods call the function. -/
instance {σ T : Type} : REvaluate σ (Thunk' σ T) T where
  evaluate t := t.function
  evaluateOwned t := t.function

namespace EvaluateExt
variable {σ X S Y S' U O : Type} [REvaluate σ X S] [REvaluate σ Y S']
open REvaluate

/-- `fmap_evaluate` (`evaluate.rs` 137-142). -/
def fmapEvaluate (x : X) (f : S → Act σ U) : Act σ U := (evaluate x).seq f
/-- `map_evaluate` (`evaluate.rs` 169-174). -/
def mapEvaluate (x : X) (f : S → Act σ U) : Act σ U := (evaluate x).seq f
/-- `fmap_evaluate_owned` (`evaluate.rs` 188-194): calls `evaluate`. -/
def fmapEvaluateOwned (x : X) (f : S → Act σ U) : Act σ U := (evaluate x).seq f
/-- `map_evaluate_owned` (`evaluate.rs` 223-229): calls `evaluate_owned`. -/
def mapEvaluateOwned (x : X) (f : S → Act σ U) : Act σ U := (evaluateOwned x).seq f
/-- `bind_evaluate` (`evaluate.rs` 245-252). -/
def bindEvaluate (x : X) (f : S → Act σ Y) : Act σ S' := ((evaluate x).seq f).seq evaluate
/-- `and_then_evaluate` (`evaluate.rs` 279-286). -/
def andThenEvaluate (x : X) (f : S → Act σ Y) : Act σ S' := ((evaluate x).seq f).seq evaluate
/-- `bind_evaluate_owned` (`evaluate.rs` 314-321). -/
def bindEvaluateOwned (x : X) (f : S → Act σ Y) : Act σ S' := ((evaluate x).seq f).seq evaluate
/-- `and_then_evaluate_owned` (`evaluate.rs` 349-356). -/
def andThenEvaluateOwned (x : X) (f : S → Act σ Y) : Act σ S' := ((evaluateOwned x).seq f).seq evaluate
/-- `combine_evaluate` (`evaluate.rs` 386-394). -/
def combineEvaluate (x : X) (other : Y) (f : S → S' → Act σ O) : Act σ O :=
  (evaluate x).seq fun a => (evaluate other).seq fun b => f a b
/-- `combine_evaluate_owned` (`evaluate.rs` 427-435). -/
def combineEvaluateOwned (x : X) (other : Y) (f : S → S' → Act σ O) : Act σ O :=
  (evaluate x).seq fun a => (evaluate other).seq fun b => f a b
/-- `filter_evaluate` (`evaluate.rs` 464-471). -/
def filterEvaluate (x : X) (pred : S → Act σ Bool) : Act σ (Option S) :=
  (evaluate x).seq fun result => (pred result).seq fun b => Act.ret (if b then some result else none)
/-- `filter_evaluate_owned` (`evaluate.rs` 500-507). -/
def filterEvaluateOwned (x : X) (pred : S → Act σ Bool) : Act σ (Option S) :=
  (evaluateOwned x).seq fun result => (pred result).seq fun b => Act.ret (if b then some result else none)

end EvaluateExt
end Rustica
