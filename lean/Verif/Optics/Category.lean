import Verif.Utils.Eff

/-!
# `FunctionCategory` (`src/category/function_category.rs`), `Category`, `Arrow` (`src/traits/{category,arrow}.rs`)

A morphism is an effectful function, so that the order of calls is visible.
-/

namespace Rustica

/-- `FunctionMorphism<A, B>` (`function_category.rs` 140). -/
abbrev FMor (σ A B : Type) := A → Eff σ B

namespace FunctionCategory
variable {σ A B C D E : Type}

/-- `identity_morphism` (`function_category.rs` 149-151). -/
def identity : FMor σ A A := fun x => Eff.ret x
/-- `compose_morphisms` (`function_category.rs` 153-164). -/
def compose (g : FMor σ B C) (f : FMor σ A B) : FMor σ A C := fun x => (f x).seq g
/-- `arrow` (`function_category.rs` 168-173), `lift` (290-297), the macro `function!` (425-432). -/
def arrow (f : FMor σ B C) : FMor σ B C := f
/-- `first` (`function_category.rs` 175-183). -/
def first (f : FMor σ B C) : FMor σ (B × D) (C × D) := fun p => (f p.1).seq fun c => Eff.ret (c, p.2)
/-- `second` (`function_category.rs` 185-193). -/
def second (f : FMor σ B C) : FMor σ (D × B) (D × C) := fun p => (f p.2).seq fun c => Eff.ret (p.1, c)
/-- `split` (`function_category.rs` 195-206). -/
def split (f : FMor σ B C) (g : FMor σ B D) : FMor σ B (C × D) :=
  fun b => (f b).seq fun c => (g b).seq fun d => Eff.ret (c, d)
/-- `combine_morphisms` (`function_category.rs` 208-220). -/
def combine (f : FMor σ B C) (g : FMor σ D E) : FMor σ (B × D) (C × E) :=
  fun p => (f p.1).seq fun c => (g p.2).seq fun e => Eff.ret (c, e)
/-- The default body of `Arrow::split` (`arrow.rs` 222-232). -/
def splitDefault (f : FMor σ B C) (g : FMor σ B D) : FMor σ B (C × D) :=
  compose (combine f g) (arrow fun b => Eff.ret (b, b))
/-- `both` (`function_category.rs` 241-247). -/
def both (f : FMor σ A B) : FMor σ (A × A) (B × B) :=
  fun p => (f p.1).seq fun b => (f p.2).seq fun b' => Eff.ret (b, b')
/-- `when` (`function_category.rs` 267-274). -/
def when (predicate : A → Eff σ Bool) (transform : FMor σ A A) : FMor σ A A :=
  fun a => (predicate a).seq fun b => if b then transform a else Eff.ret a
/-- `then_if` (`function_category.rs` 323-341), `compose_when` (366-374). -/
def thenIf (first second : FMor σ A A) (predicate : A → Eff σ Bool) : FMor σ A A :=
  fun x => (first x).seq fun result => (predicate result).seq fun b =>
    if b then second result else Eff.ret result
/-- `sequence` (`function_category.rs` 393-399). -/
def sequence (functions : List (FMor σ A A)) : FMor σ A A :=
  fun initial => functions.foldl (fun acc f => acc.seq f) (Eff.ret initial)

end FunctionCategory

/-- The arguments of the macro `pipe!`: functions, each taking what the previous one returns. -/
inductive FnChain (σ : Type) : Type → Type → Type 1
  | one {A B : Type} (f : FMor σ A B) : FnChain σ A B
  | cons {A B C : Type} (f : FMor σ A B) (rest : FnChain σ B C) : FnChain σ A C
/-- The arguments of the macro `compose!`: functions, each taking what the next one returns. -/
inductive FnChainR (σ : Type) : Type → Type → Type 1
  | one {A B : Type} (f : FMor σ A B) : FnChainR σ A B
  | cons {A B C : Type} (f : FMor σ B C) (rest : FnChainR σ A B) : FnChainR σ A C

open FunctionCategory in
/-- `pipe!` (`function_category.rs` 482-495). -/
def FnChain.pipe {σ : Type} : {A B : Type} → FnChain σ A B → FMor σ A B
  | _, _, .one f => arrow f
  | _, _, .cons f rest => compose rest.pipe (arrow f)

open FunctionCategory in
/-- `compose!` (`function_category.rs` 452-465). -/
def FnChainR.compose {σ : Type} : {A B : Type} → FnChainR σ A B → FMor σ A B
  | _, _, .one f => arrow f
  | _, _, .cons f rest => FunctionCategory.compose (arrow f) rest.compose

end Rustica
