import Verif.Traits.Abstract
import Verif.Spec.Laws
import Verif.Data.Maybe
import Verif.Data.Either
import Verif.Data.Std
import Verif.Theorems.Functor

/-!
# C75: provided methods of the traits without instances
-/

namespace Rustica

/-- The laws documented for a contravariant functor (`contravariant_functor.rs` 12-27). -/
structure ContraLaws (F : Type → Type) [RContra F] : Prop where
  id_law : ∀ {A : Type} (x : F A), RContra.contramap x (fun a : A => a) = x
  comp_law : ∀ {A B C : Type} (x : F A) (f : B → A) (g : C → B),
    RContra.contramap x (fun c => f (g c)) = RContra.contramap (RContra.contramap x f) g
  owned : ∀ {A B : Type} (x : F A) (f : B → A), RContra.contramapOwned x f = RContra.contramap x f

/-- A transformation commutes with mapping (`natural_transformation.rs` 36-37). -/
def Natural {F G : Type → Type} [RFunctor F] [RFunctor G] (η : Nat' F G) : Prop :=
  ∀ {A B : Type} (f : A → B) (x : F A), η.transform (RFunctor.fmap f x) = RFunctor.fmap f (η.transform x)

/-- C75: for every lawful contravariant functor, `contramap_with` is `contramap`, and after `contramap_const` the input
no longer matters: mapping further changes nothing. -/
theorem c75_contravariant {F : Type → Type} [RContra F] (h : ContraLaws F) {A U V : Type} (x : F A) (f : U → A) (a : A)
    (g : V → U) :
    contramapWith x f = RContra.contramap x f ∧ contramapWith x (fun a : A => a) = x ∧
    RContra.contramap (contramapConst U x a) g = contramapConst V x a ∧
    contramapConst U (RContra.contramap x f) = (fun u => contramapConst U x (f u)) := by
  refine ⟨rfl, h.id_law x, (h.comp_law x _ g).symm, ?_⟩
  funext u
  exact (h.comp_law x f (fun _ => u)).symm

/-- C75 fails for `contra_compose`, documented as composing two contravariant functors: the second one is ignored, so
any two give the same result. -/
theorem c75_contra_compose_false {F G : Type → Type} [RContra F] [RContra G] {A S : Type} (conv : S → A) (x : F A)
    (g g' : G S) : contraCompose conv x g = contraCompose conv x g' := rfl

/-- C75, what `contra_compose` does: it converts the input and applies the first functor. -/
theorem c75_contra_compose_partial {F G : Type → Type} [RContra F] [RContra G] (h : ContraLaws F) {A S V : Type}
    (conv : S → A) (x : F A) (g : G S) (f : V → S) :
    RContra.contramap (contraCompose conv x g) f = RContra.contramap x (fun v => conv (f v)) :=
  (h.comp_law x conv f).symm

/-- C75: the identity transformation returns its argument, owned or not, and is natural for every functor. -/
theorem c75_identity_nat {F : Type → Type} [RFunctor F] :
    (∀ {A : Type} (x : F A), (identityNat F).transform x = x ∧ (identityNat F).transformOwned x = x) ∧
    Natural (identityNat F) :=
  ⟨fun _ => ⟨rfl, rfl⟩, fun _ _ => rfl⟩

/-- C75: `sequence` is `traverse` with the identity when the elements are effects already, and the owned form agrees
when `traverse_owned` does. -/
theorem c75_sequence {T : Type → Type} [RTraversable T] (F : Type → Type) [RApplicative F] {B S : Type}
    (x : T (F B)) (y : T S) (into : S → F B) :
    sequenceT F (fun e => e) x = RTraversable.traverse F x (fun e => e) ∧
    ((∀ (z : T S) (f : S → F B), RTraversable.traverseOwned F z f = RTraversable.traverse F z f) →
      sequenceOwnedT F into y = sequenceT F into y) :=
  ⟨rfl, fun h => h y into⟩

/-! ## The hypotheses are met: predicates, and the transformation of the documentation -/

/-- A caller's instance: predicates. -/
instance predicateContra : RContra (fun A => A → Bool) where
  contramap p f := fun u => p (f u)
  contramapOwned p f := fun u => p (f u)

/-- Not vacuous: predicates are lawful. -/
example : ContraLaws (fun A => A → Bool) :=
  ⟨fun _ => rfl, fun _ _ _ => rfl, fun _ _ => rfl⟩

/-- `contra_compose` with two different predicates on the right: the same answer. -/
example : (contraCompose (F := fun A => A → Bool) (G := fun A => A → Bool) (fun n : Nat => n + 1)
    (fun n => n % 2 == 0) (fun _ => true)) 3 = true ∧
    (contraCompose (F := fun A => A → Bool) (G := fun A => A → Bool) (fun n : Nat => n + 1)
    (fun n => n % 2 == 0) (fun _ => false)) 3 = true := by
  decide

/-- A caller's instance: `Maybe`.  (`traverse_owned` takes a function that can be called once only, so a container of
more than one element has no instance.) -/
instance maybeTraversable : RTraversable Maybe where
  traverse F _ _ _ x f := match x with
    | .Just a => RFunctor.fmap Maybe.Just (f a)
    | .Nothing => RPure.pure (F := F) Maybe.Nothing
  traverseOwned F _ _ _ x f := match x with
    | .Just a => RFunctor.fmapOwned Maybe.Just (f a)
    | .Nothing => RPure.pure (F := F) Maybe.Nothing

/-- Not vacuous: for `Either` as the effect, its `traverse_owned` agrees with `traverse`, and `sequence` swaps the two
layers. -/
example : (∀ (z : Maybe (Either String Nat)) (f : Either String Nat → Either String Nat),
      RTraversable.traverseOwned (Either String) z f = RTraversable.traverse (Either String) z f) ∧
    sequenceT (Either String) id (Maybe.Just (Either.Right 3 : Either String Nat)) = Either.Right (Maybe.Just 3) ∧
    sequenceT (Either String) id (Maybe.Just (Either.Left "no" : Either String Nat)) = Either.Left "no" := by
  refine ⟨fun z f => ?_, rfl, rfl⟩
  cases z with
  | Just a => show RFunctor.fmapOwned _ (f a) = RFunctor.fmap _ (f a); cases f a <;> rfl
  | Nothing => rfl

/-- The transformation of the module documentation (`natural_transformation.rs` 8-22). -/
def maybeToEither (L : Type) [Inhabited L] : Nat' Maybe (Either L) where
  transform
    | .Just a => .Right a
    | .Nothing => .Left default

/-- C75: the documented example `MaybeToEither` is natural. -/
theorem c75_maybe_to_either (L : Type) [Inhabited L] : Natural (maybeToEither L) := by
  intro A B f x
  cases x <;> rfl

/-- The predicates of the trait's documentation (`contravariant.rs`), used as an instance of the theorems about
contravariant functors. -/
structure Test (A : Type) where
  run : A → Bool

instance : RContra Test := ⟨fun x f => ⟨fun b => x.run (f b)⟩, fun x f => ⟨fun b => x.run (f b)⟩⟩

theorem Test.laws : ContraLaws Test := ⟨fun _ => rfl, fun _ _ _ => rfl, fun _ _ => rfl⟩

/-- `c75_contravariant` and `c75_contra_compose_partial` for predicates. -/
example : (RContra.contramap (contramapConst String (⟨fun n => n % 2 == 0⟩ : Test Nat) 4)
      (fun b : Bool => if b then "yes" else "no")).run true = true :=
  congrArg (fun t : Test Bool => t.run true) (c75_contravariant Test.laws (⟨fun n => n % 2 == 0⟩ : Test Nat)
    String.length 4 fun b : Bool => if b then "yes" else "no").2.2.1

example : (RContra.contramap (contraCompose (fun n : Nat => n + 1) (⟨fun n => n % 2 == 0⟩ : Test Nat)
      (⟨fun _ => false⟩ : Test Nat)) String.length).run "abc" = true :=
  congrArg (fun t : Test String => t.run "abc") (c75_contra_compose_partial Test.laws (fun n : Nat => n + 1)
    (⟨fun n => n % 2 == 0⟩ : Test Nat) (⟨fun _ => false⟩ : Test Nat) String.length)

end Rustica
