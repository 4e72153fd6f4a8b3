import Verif.Traits.Classes

/-!
# The algebraic laws, stated once, independently of any instance

Nothing here refers to how an instance is implemented: each structure lists the textbook equations
(and, because every Rust method comes in a borrowing and an owning version, their agreement).
-/

namespace Rustica

/-- Associativity of `combine`. -/
def SemigroupLaw (α : Type) [RSemigroup α] : Prop :=
  ∀ a b c : α, combine (combine a b) c = combine a (combine b c)

/-- `combine_owned` returns what `combine` returns. -/
def OwnedAgrees (α : Type) [RSemigroup α] : Prop :=
  ∀ a b : α, combineOwned a b = combine a b

/-- `empty` is a two-sided identity of `combine`. -/
def MonoidLaw (α : Type) [RMonoid α] : Prop :=
  ∀ a : α, combine RMonoid.empty a = a ∧ combine a RMonoid.empty = a

open RFunctor RApplicative RAlternative RMonadPlus
open RPure (pureOwned)
open RMonad (bindOwned join joinOwned)

/-- The functor laws, and agreement of `fmap_owned`, `replace`, `void`. -/
structure FunctorLaws (F : Type → Type) [RFunctor F] : Prop where
  id_law : ∀ {A : Type} (x : F A), fmap (fun a => a) x = x
  comp_law : ∀ {A B C : Type} (f : A → B) (g : B → C) (x : F A),
    fmap g (fmap f x) = fmap (fun a => g (f a)) x
  owned : ∀ {A B : Type} (f : A → B) (x : F A), fmapOwned f x = fmap f x
  replace_eq : ∀ {A B : Type} (x : F A) (b : B),
    replace x b = fmap (fun _ => b) x ∧ replaceOwned x b = fmap (fun _ => b) x
  void_eq : ∀ {A : Type} (x : F A),
    void x = fmap (fun _ => ()) x ∧ voidOwned x = fmap (fun _ => ()) x

/-- The four applicative laws, `lift2`/`lift3` as iterated application, the sequencing operators, and
agreement of the owned methods. -/
structure ApplicativeLaws (F : Type → Type) [RApplicative F] : Prop where
  identity : ∀ {A : Type} (v : F A), apply (RPure.pure (fun a : A => a)) v = v
  homomorphism : ∀ {A B : Type} (f : A → B) (a : A),
    apply (RPure.pure f : F (A → B)) (RPure.pure a) = RPure.pure (f a)
  interchange : ∀ {A B : Type} (u : F (A → B)) (a : A),
    apply u (RPure.pure a) = apply (RPure.pure (fun f : A → B => f a)) u
  composition : ∀ {A B C : Type} (u : F (B → C)) (v : F (A → B)) (w : F A),
    apply (apply (apply (RPure.pure (fun (g : B → C) (f : A → B) (a : A) => g (f a))) u) v) w
      = apply u (apply v w)
  fmap_eq : ∀ {A B : Type} (f : A → B) (x : F A), fmap f x = apply (RPure.pure f) x
  lift2_eq : ∀ {A B C : Type} (f : A → B → C) (a : F A) (b : F B),
    lift2 f a b = apply (apply (RPure.pure f) a) b
  lift3_eq : ∀ {A B C D : Type} (f : A → B → C → D) (a : F A) (b : F B) (c : F C),
    lift3 f a b c = apply (apply (apply (RPure.pure f) a) b) c
  seq_right : ∀ {A B : Type} (a : F A) (b : F B),
    sequenceRight a b = apply (apply (RPure.pure (fun (_ : A) (y : B) => y)) a) b
  seq_left : ∀ {A B : Type} (a : F A) (b : F B),
    sequenceLeft a b = apply (apply (RPure.pure (fun (x : A) (_ : B) => x)) a) b
  pure_owned : ∀ {A : Type} (a : A), (pureOwned a : F A) = RPure.pure a
  apply_owned : ∀ {A B : Type} (u : F (A → B)) (v : F A), applyOwned u v = apply u v
  lift2_owned : ∀ {A B C : Type} (f : A → B → C) (a : F A) (b : F B),
    lift2Owned f a b = lift2 f a b
  lift3_owned : ∀ {A B C D : Type} (f : A → B → C → D) (a : F A) (b : F B) (c : F C),
    lift3Owned f a b c = lift3 f a b c
  seq_owned : ∀ {A B : Type} (a : F A) (b : F B),
    sequenceRightOwned a b = sequenceRight a b ∧ sequenceLeftOwned a b = sequenceLeft a b

/-- The monad laws, `join`, the provided methods, and agreement of the owned methods. -/
structure MonadLaws (F : Type → Type) [RMonad F] : Prop where
  left_id : ∀ {A B : Type} (a : A) (f : A → F B), RMonad.bind (RPure.pure a) f = f a
  right_id : ∀ {A : Type} (m : F A), RMonad.bind m (fun a => RPure.pure a) = m
  assoc : ∀ {A B C : Type} (m : F A) (f : A → F B) (g : B → F C),
    RMonad.bind (RMonad.bind m f) g = RMonad.bind m (fun a => RMonad.bind (f a) g)
  join_eq : ∀ {A B : Type} (into : A → F B) (m : F A), join into m = RMonad.bind m into
  bind_owned : ∀ {A B : Type} (m : F A) (f : A → F B), bindOwned m f = RMonad.bind m f
  join_owned : ∀ {A B : Type} (into : A → F B) (m : F A), joinOwned into m = join into m
  flat_map : ∀ {A B : Type} (m : F A) (f : A → F B),
    flatMap m f = RMonad.bind m f ∧ flatMapOwned m f = RMonad.bind m f
  fmap_eq : ∀ {A B : Type} (f : A → B) (m : F A), fmap f m = RMonad.bind m (fun a => RPure.pure (f a))
  map_and_pure : ∀ {A B : Type} (f : A → B) (m : F A), mapAndPure m f = fmap f m

/-- `apply` is the one derived from `bind` (function first, then argument). -/
def ApplyFromBind (F : Type → Type) [RMonad F] : Prop :=
  ∀ {A B : Type} (u : F (A → B)) (v : F A), apply u v = RMonad.bind u (fun f => fmap f v)

/-- Left identity, right identity and associativity of a choice operation. -/
structure ChoiceLaws (F : Type → Type) (zero : ∀ {A : Type}, F A) (plus : ∀ {A : Type}, F A → F A → F A) :
    Prop where
  left_id : ∀ {A : Type} (x : F A), plus zero x = x
  right_id : ∀ {A : Type} (x : F A), plus x zero = x
  assoc : ∀ {A : Type} (x y z : F A), plus (plus x y) z = plus x (plus y z)

/-- `mzero` annihilates `bind` from the left. -/
def LeftZero (F : Type → Type) [RMonad F] [RMonadPlus F] : Prop :=
  ∀ {A B : Type} (f : A → F B), RMonad.bind (mzero : F A) f = mzero

/-- `mplus_owned` returns what `mplus` returns. -/
def MplusOwnedAgrees (F : Type → Type) [RMonadPlus F] : Prop :=
  ∀ {A : Type} (x y : F A), mplusOwned x y = mplus x y

end Rustica
