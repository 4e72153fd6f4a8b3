import Verif.Calls.FoldClones
import Verif.Spec.Clones
import Verif.Spec.Calls

/-! # What a fold may clone -/

namespace Rustica.Spec
open Rustica Rustica.Act

/-- `fold_left` of `x` clones the starting value and passes the clone through the closure once per element of `xs`. -/
def FoldsCloning {F : Type → Type} (σ : Type) [RFoldableC σ F] {A : Type} (x : F A) (xs : List A) : Prop :=
  ∀ {U : Type} [RClone σ U] (u : U) (f : U → A → Act σ U), foldLeftC x u f = (clone u).seq fun u' => passes f xs u'
/-- `fold_left` of `x`, which holds at most one element, calls the closure with the starting value itself, and clones the
starting value only if there is no element. -/
def FoldsSparing {F : Type → Type} (σ : Type) [RFoldableC σ F] {A : Type} (x : F A) (xs : List A) : Prop :=
  xs.length ≤ 1 ∧ ∀ {U : Type} [RClone σ U] (u : U) (f : U → A → Act σ U),
    (xs = [] → foldLeftC x u f = clone u) ∧ ∀ a ∈ xs, foldLeftC x u f = f u a
/-- The same two for `fold_right`. -/
def FoldsRightCloning {F : Type → Type} (σ : Type) [RFoldableC σ F] {A : Type} (x : F A) (xs : List A) : Prop :=
  ∀ {U : Type} [RClone σ U] (u : U) (f : A → U → Act σ U),
    foldRightC x u f = (clone u).seq fun u' => passes (fun u a => f a u) xs.reverse u'
def FoldsRightSparing {F : Type → Type} (σ : Type) [RFoldableC σ F] {A : Type} (x : F A) (xs : List A) : Prop :=
  xs.length ≤ 1 ∧ ∀ {U : Type} [RClone σ U] (u : U) (f : A → U → Act σ U),
    (xs = [] → foldRightC x u f = clone u) ∧ ∀ a ∈ xs, foldRightC x u f = f a u

end Rustica.Spec

