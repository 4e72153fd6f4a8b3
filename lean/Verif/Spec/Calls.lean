import Verif.Calls.Model

/-!
# Specification of call behaviour

Written with explicit worlds and without the helpers of the model.
-/

namespace Rustica.Spec
open Rustica
variable {σ A B U : Type}

/-- One call; nothing happens after a panic. -/
def callStep (f : A → Act σ B) (st : Except Panic (List B) × σ) (x : A) : Except Panic (List B) × σ :=
  match st with
  | (.error p, w) => (.error p, w)
  | (.ok bs, w) => match f x w with
    | (.ok b, w') => (.ok (bs ++ [b]), w')
    | (.error p, w') => (.error p, w')

/-- `f` is called on the elements of `xs`, one after the other, in order, each exactly once; the first panic ends it.
The results are collected in order. -/
def calls (f : A → Act σ B) (xs : List A) (w : σ) : Except Panic (List B) × σ :=
  xs.foldl (callStep f) (.ok [], w)

/-- One round of a fold; nothing happens after a panic. -/
def passStep (f : U → A → Act σ U) (st : Except Panic U × σ) (x : A) : Except Panic U × σ :=
  match st with
  | (.error p, w) => (.error p, w)
  | (.ok u, w) => f u x w

/-- The accumulator goes through `f` once per element, in order; the first panic ends it. -/
def passes (f : U → A → Act σ U) (xs : List A) (u : U) (w : σ) : Except Panic U × σ :=
  xs.foldl (passStep f) (.ok u, w)

/-- `f` is called on the elements in order until one of its answers satisfies `stop`; later elements are not touched.
The result is the list of elements asked (the last one, if any, being the one that stopped it) with the answers. -/
def callsUntil (stop : B → Bool) (f : A → Act σ B) : List A → σ → Except Panic (List (A × B)) × σ
  | [], w => (.ok [], w)
  | x :: xs, w => match f x w with
    | (.error p, w') => (.error p, w')
    | (.ok b, w') =>
      if stop b then (.ok [(x, b)], w')
      else match callsUntil stop f xs w' with
        | (.ok r, w'') => (.ok ((x, b) :: r), w'')
        | (.error p, w'') => (.error p, w'')

/-- The values held by a container, in order. -/
class HasElems (F : Type → Type) where
  elems {A : Type} : F A → List A
export HasElems (elems)

instance : HasElems Option := ⟨fun x => match x with | some a => [a] | none => []⟩
instance {E : Type} : HasElems (Except E) := ⟨fun x => match x with | .ok a => [a] | .error _ => []⟩
instance : HasElems List := ⟨fun x => x⟩
instance : HasElems Maybe := ⟨fun x => match x with | .Just a => [a] | .Nothing => []⟩
instance {L : Type} : HasElems (Either L) := ⟨fun x => match x with | .Right a => [a] | .Left _ => []⟩
instance {E : Type} : HasElems (Validated E) := ⟨fun x => match x with | .Valid a => [a] | .Invalid _ => []⟩
instance : HasElems Choice := ⟨fun x => x.values⟩
instance : HasElems RId := ⟨fun x => [x.value]⟩
instance {W : Type} : HasElems (Writer W) := ⟨fun x => [x.value]⟩
instance : HasElems First := ⟨fun x => match x.val with | some a => [a] | none => []⟩
instance : HasElems Last := ⟨fun x => match x.val with | some a => [a] | none => []⟩
instance : HasElems Min := ⟨fun x => [x.val]⟩
instance : HasElems Max := ⟨fun x => [x.val]⟩
instance : HasElems Sum := ⟨fun x => [x.val]⟩
instance : HasElems Product := ⟨fun x => [x.val]⟩

/-- Running `m` calls `f` on every value held by `x`, once, in order, and returns `x` with the values replaced by the
answers; if a call panics, `m` panics there and then. -/
def VisitsOnce {F : Type → Type} [RFunctor F] [HasElems F] (x : F A) (f : A → Act σ B) (m : Act σ (F B)) : Prop :=
  ∀ w, match calls f (elems x) w with
    | (.error p, w') => m w = (.error p, w')
    | (.ok bs, w') => ∃ y, m w = (.ok y, w') ∧ elems y = bs ∧ void y = void x

/-- The functor methods call their closure once per held value. -/
structure FunctorCalls (F : Type → Type) [RFunctor F] [RFunctorE F] [HasElems F] : Prop where
  fmap : ∀ {σ A B : Type} (x : F A) (f : A → Act σ B), VisitsOnce x f (fmapE f x)
  fmapOwned : ∀ {σ A B : Type} (x : F A) (f : A → Act σ B), VisitsOnce x f (fmapOwnedE f x)
  /-- The held values and the rest determine the container, so that `VisitsOnce` fixes the result. -/
  shape : ∀ {A : Type} (x y : F A), elems x = elems y → void x = void y → x = y
  /-- With an effect-free closure the result is that of the pure model. -/
  fmap_pure : ∀ {σ A B : Type} (x : F A) (f : A → B),
    fmapE (fun a => (Act.ret (f a) : Act σ B)) x = Act.ret (RFunctor.fmap f x)
  fmapOwned_pure : ∀ {σ A B : Type} (x : F A) (f : A → B),
    fmapOwnedE (fun a => (Act.ret (f a) : Act σ B)) x = Act.ret (RFunctor.fmapOwned f x)

/-- The applicative methods call their closure once per combination; the combinations and their order are those of the
pure model applied to the tupling function. -/
structure ApplicativeCalls (F : Type → Type) [RApplicative F] [RApplicativeE F] [HasElems F] : Prop where
  apply : ∀ {σ A B : Type} (fs : F (A → Act σ B)) (x : F A),
    VisitsOnce (RApplicative.apply (RFunctor.fmap Prod.mk fs) x) (fun p => p.1 p.2) (applyE fs x)
  lift2 : ∀ {σ A B C : Type} (f : A → B → Act σ C) (a : F A) (b : F B),
    VisitsOnce (RApplicative.lift2 Prod.mk a b) (fun p => f p.1 p.2) (lift2E f a b)
  lift3 : ∀ {σ A B C D : Type} (f : A → B → C → Act σ D) (a : F A) (b : F B) (c : F C),
    VisitsOnce (RApplicative.lift3 (fun a b c => (a, b, c)) a b c) (fun p => f p.1 p.2.1 p.2.2) (lift3E f a b c)
  applyOwned : ∀ {σ A B : Type} (fs : F (A → Act σ B)) (x : F A),
    VisitsOnce (RApplicative.applyOwned (RFunctor.fmap Prod.mk fs) x) (fun p => p.1 p.2) (applyOwnedE fs x)
  lift2Owned : ∀ {σ A B C : Type} (f : A → B → Act σ C) (a : F A) (b : F B),
    VisitsOnce (RApplicative.lift2Owned Prod.mk a b) (fun p => f p.1 p.2) (lift2OwnedE f a b)
  lift3Owned : ∀ {σ A B C D : Type} (f : A → B → C → Act σ D) (a : F A) (b : F B) (c : F C),
    VisitsOnce (RApplicative.lift3Owned (fun a b c => (a, b, c)) a b c) (fun p => f p.1 p.2.1 p.2.2)
      (lift3OwnedE f a b c)

/-- `bind` on a container with at most one value: the closure is called once with it and its answer is the result; with
no value it is not called and the failure is passed on. -/
structure BindCalls (F : Type → Type) [RFunctor F] [RMonadE F] [HasElems F] : Prop where
  one : ∀ {σ A B : Type} (x : F A) (f : A → Act σ (F B)) (a : A), elems x = [a] →
    bindE x f = f a ∧ bindOwnedE x f = f a
  none : ∀ {σ A B : Type} (x : F A) (f : A → Act σ (F B)), elems x = [] →
    ∃ y : F B, elems y = [] ∧ void y = void x ∧ ∀ w, bindE x f w = (.ok y, w) ∧ bindOwnedE x f w = (.ok y, w)
  atMostOne : ∀ {A : Type} (x : F A), (elems x).length ≤ 1

/-- Folds pass the accumulator through the closure once per held value: `fold_left` in order, `fold_right` in reverse. -/
structure FoldCalls (F : Type → Type) [RFoldableE F] [HasElems F] : Prop where
  left : ∀ {σ A U : Type} (x : F A) (u : U) (f : U → A → Act σ U) (w : σ),
    foldLeftE x u f w = passes f (elems x) u w
  right : ∀ {σ A U : Type} (x : F A) (u : U) (f : A → U → Act σ U) (w : σ),
    foldRightE x u f w = passes (fun u a => f a u) (elems x).reverse u w

end Rustica.Spec
