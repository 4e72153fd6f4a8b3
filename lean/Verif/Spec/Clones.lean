import Verif.Calls.Clones

/-!
# What a method may clone

The methods of `Calls/Model` (`fmapOwnedE` and so on) have no `Clone` argument, so they cannot clone.  A method that
takes ownership is compared with them.  A method that borrows clones what its result keeps of the borrowed value.
-/

namespace Rustica.Spec
open Rustica Rustica.Act

variable {σ : Type}

/-- `fmap_owned` never clones: it is the same action for every `Clone`. -/
structure OwnedFunctor (σ : Type) (F : Type → Type) [RFunctorC σ F] [RFunctorE F] : Prop where
  fmapOwned : ∀ {A B : Type} [RClone σ A] [RClone σ B] (f : A → Act σ B) (x : F A),
    fmapOwnedC f x = fmapOwnedE f x
/-- `apply_owned`, `lift2_owned`, `lift3_owned` never clone. -/
structure OwnedApplicative (σ : Type) (F : Type → Type) [RApplicativeC σ F] [RApplicativeE F] : Prop where
  applyOwned : ∀ {A B : Type} [RClone σ (A → Act σ B)] [RClone σ A] [RClone σ B] (f : F (A → Act σ B)) (x : F A),
    applyOwnedC f x = applyOwnedE f x
  lift2Owned : ∀ {A B C : Type} [RClone σ A] [RClone σ B] [RClone σ C] (f : A → B → Act σ C) (a : F A) (b : F B),
    lift2OwnedC f a b = lift2OwnedE f a b
  lift3Owned : ∀ {A B C D : Type} [RClone σ A] [RClone σ B] [RClone σ C] [RClone σ D] (f : A → B → C → Act σ D)
    (a : F A) (b : F B) (c : F C), lift3OwnedC f a b c = lift3OwnedE f a b c
/-- `bind_owned`, `join_owned` never clone; joining is binding the conversion. -/
structure OwnedMonad (σ : Type) (F : Type → Type) [RMonadC σ F] [RMonadE F] : Prop where
  bindOwned : ∀ {A B : Type} [RClone σ A] [RClone σ B] (x : F A) (f : A → Act σ (F B)),
    bindOwnedC x f = bindOwnedE x f
  joinOwned : ∀ {A B : Type} [RClone σ A] [RClone σ B] (into : A → Act σ (F B)) (x : F A),
    joinOwnedC into x = bindOwnedE x into
/-- `mplus_owned` never clones; `mplus` clones its result and nothing else. -/
structure PlusClones (σ : Type) (F : Type → Type) (A : Type) [RMonadPlusC σ F] [RMonadPlus F] [RClone σ A]
    [RClone σ (F A)] : Prop where
  owned : ∀ x y : F A, mplusOwnedC x y = (ret (RMonadPlus.mplusOwned x y) : Act σ (F A))
  borrowed : ∀ x y : F A, mplusC x y = (clone (RMonadPlus.mplus x y) : Act σ (F A))
/-- `combine_owned` never clones; `combine` clones its result and nothing else. -/
structure CombineClones (σ A : Type) [RSemigroupC σ A] [RSemigroup A] [RClone σ A] : Prop where
  owned : ∀ x y : A, combineOwnedC x y = (ret (combineOwned x y) : Act σ A)
  borrowed : ∀ x y : A, combineC x y = (clone (combine x y) : Act σ A)
/-- `pure` clones its argument once; `pure_owned` does not. -/
structure PureClones (σ : Type) (F : Type → Type) [RPureC σ F] [RPure F] : Prop where
  owned : ∀ {A : Type} [RClone σ A] (a : A), pureOwnedC a = (ret (RPure.pureOwned a) : Act σ (F A))
  borrowed : ∀ {A : Type} [RClone σ A] (a : A), pureC a = ((clone a).seq fun a' => ret (RPure.pure a') : Act σ (F A))

/-- Clone the part of a container that is not its elements. -/
class CloneKept (σ : Type) (F : Type → Type) where
  kept {A : Type} : F A → Act σ (F A)
export CloneKept (kept)

instance : CloneKept σ Option := ⟨ret⟩
instance : CloneKept σ Maybe := ⟨ret⟩
instance : CloneKept σ List := ⟨ret⟩
instance : CloneKept σ RId := ⟨ret⟩
instance : CloneKept σ Choice := ⟨ret⟩
/-- The error. -/
instance {E : Type} [RClone σ E] : CloneKept σ (Except E) where
  kept x := match x with
    | .ok a => ret (.ok a)
    | .error e => (clone e).seq fun e' => ret (.error e')
/-- The left value. -/
instance {L : Type} [RClone σ L] : CloneKept σ (Either L) where
  kept x := match x with
    | .Right a => ret (.Right a)
    | .Left l => (clone l).seq fun l' => ret (.Left l')
/-- The errors, in order. -/
instance {E : Type} [RClone σ E] : CloneKept σ (Validated E) where
  kept x := match x with
    | .Valid a => ret (.Valid a)
    | .Invalid es => (mapList clone es).seq fun es' => ret (.Invalid es')
/-- The log. -/
instance {W : Type} [RClone σ W] : CloneKept σ (Writer W) where
  kept x := (clone x.log).seq fun l => ret ⟨l, x.value⟩

/-- `fmap` clones what it keeps, and only then calls the closure. -/
structure BorrowedFunctor (σ : Type) (F : Type → Type) [RFunctorC σ F] [RFunctorE F] [CloneKept σ F] : Prop where
  fmap : ∀ {A B : Type} [RClone σ A] [RClone σ B] (f : A → Act σ B) (x : F A),
    fmapC f x = (kept x).seq (fmapE f)
/-- `apply`, `lift2`, `lift3` pair the arguments up without cloning (that is what `lift2` of the pure model does with
a closure that makes pairs), clone what they keep of the pairs, and call the closure. -/
structure BorrowedApplicative (σ : Type) (F : Type → Type) [RApplicativeC σ F] [RApplicative F] [RFunctorE F]
    [CloneKept σ F] : Prop where
  apply : ∀ {A B : Type} [RClone σ (A → Act σ B)] [RClone σ A] [RClone σ B] (f : F (A → Act σ B)) (x : F A),
    applyC f x = (kept (RApplicative.lift2 Prod.mk f x)).seq (fmapE fun p => p.1 p.2)
  lift2 : ∀ {A B C : Type} [RClone σ A] [RClone σ B] [RClone σ C] (f : A → B → Act σ C) (a : F A) (b : F B),
    lift2C f a b = (kept (RApplicative.lift2 Prod.mk a b)).seq (fmapE fun p => f p.1 p.2)
  lift3 : ∀ {A B C D : Type} [RClone σ A] [RClone σ B] [RClone σ C] [RClone σ D] (f : A → B → C → Act σ D)
    (a : F A) (b : F B) (c : F C),
    lift3C f a b c = (kept (RApplicative.lift3 (fun a b c => (a, b, c)) a b c)).seq
      (fmapE fun p => f p.1 p.2.1 p.2.2)
/-- `apply`, `lift2`, `lift3` never clone. -/
structure UnclonedApplicative (σ : Type) (F : Type → Type) [RApplicativeC σ F] [RApplicativeE F] : Prop where
  apply : ∀ {A B : Type} [RClone σ (A → Act σ B)] [RClone σ A] [RClone σ B] (f : F (A → Act σ B)) (x : F A),
    applyC f x = applyE f x
  lift2 : ∀ {A B C : Type} [RClone σ A] [RClone σ B] [RClone σ C] (f : A → B → Act σ C) (a : F A) (b : F B),
    lift2C f a b = lift2E f a b
  lift3 : ∀ {A B C D : Type} [RClone σ A] [RClone σ B] [RClone σ C] [RClone σ D] (f : A → B → C → Act σ D)
    (a : F A) (b : F B) (c : F C), lift3C f a b c = lift3E f a b c
/-- `bind` clones what it keeps and calls the closure; `join` clones everything and joins the clone. -/
structure BorrowedMonad (σ : Type) (F : Type → Type) (A : Type) [RMonadC σ F] [RMonadE F] [CloneKept σ F]
    [RClone σ A] [RClone σ (F A)] : Prop where
  bind : ∀ {B : Type} [RClone σ B] (x : F A) (f : A → Act σ (F B)),
    bindC x f = (kept x).seq fun x' => bindE x' f
  join : ∀ {B : Type} [RClone σ B] (into : A → Act σ (F B)) (x : F A),
    joinC into x = (clone x).seq fun x' => bindOwnedE x' into

/-- `clone` returns an equal value and does nothing else. -/
def PlainClone (σ A : Type) [RClone σ A] : Prop := ∀ a : A, (clone a : Act σ A) = ret a
/-- The world counts clones, and `clone` of an element is one. -/
def CountsClones (A : Type) [RClone Nat A] : Prop := ∀ (a : A) (n : Nat), clone a n = (.ok a, n + 1)
/-- The action returns `a` and clones `k` elements. -/
def Clones {A : Type} (m : Act Nat A) (a : A) (k : Nat) : Prop := ∀ n, m n = (.ok a, n + k)

end Rustica.Spec
