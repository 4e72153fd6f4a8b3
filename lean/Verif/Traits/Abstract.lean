import Verif.Traits.Classes

/-!
# Traits that no type of the crate implements

`ContravariantFunctor` with its extension, `NaturalTransformation` with `identity_nat`, and `Traversable`.  The crate
gives the trait and the provided methods; the instances are the caller's, so they are classes here and the theorems
quantify over every instance.

`Representable` (`traits/representable.rs`) and `Profunctor` (`traits/profunctor.rs`) have required methods only and
contain no code to model.
-/

namespace Rustica

/-- `trait ContravariantFunctor: HKT` (`contravariant_functor.rs` 48-91). -/
class RContra (F : Type → Type) where
  contramap {A U : Type} : F A → (U → A) → F U
  contramapOwned {A U : Type} : F A → (U → A) → F U

section
variable {F G : Type → Type} [RContra F] {A U : Type}

/-- `contramap_with` (`contravariant_functor.rs` 111-117). -/
def contramapWith (x : F A) (f : U → A) : F U := RContra.contramap x f

/-- `contramap_const` (`contravariant_functor.rs` 136-143). -/
def contramapConst (U : Type) (x : F A) (value : A) : F U := RContra.contramap x (fun _ : U => value)

/-- `contra_compose` (`contravariant_functor.rs` 159-166): the conversion `Self::Source: From<G::Source>` is the
argument `from`; the argument `_g` is not used. -/
def contraCompose {S : Type} [RContra G] («from» : S → A) (x : F A) (_g : G S) : F S :=
  RContra.contramap x («from»)
end

/-- `trait NaturalTransformation<F, G>` (`natural_transformation.rs` 29-68); `transform_owned` has the default body
`self.transform(&fa)` (61-67). -/
structure Nat' (F G : Type → Type) where
  transform {A : Type} : F A → G A
  transformOwned {A : Type} : F A → G A := fun fa => transform fa

/-- `identity_nat` (`natural_transformation.rs` 71-83): clones its argument. -/
def identityNat (F : Type → Type) : Nat' F F where
  transform fa := fa

/-- `trait Traversable: Applicative` (`traversable.rs` 34-123), required methods. -/
class RTraversable (T : Type → Type) where
  traverse (F : Type → Type) [RApplicative F] {A B : Type} : T A → (A → F B) → F (T B)
  traverseOwned (F : Type → Type) [RApplicative F] {A B : Type} : T A → (A → F B) → F (T B)

section
variable {T : Type → Type} [RTraversable T] (F : Type → Type) [RApplicative F] {S B : Type}

/-- `sequence` (`traversable.rs` 71-77), with the conversion `Source: Into<F::Output<F::Source>>`. -/
def sequenceT (into : S → F B) (x : T S) : F (T B) := RTraversable.traverse F x (fun x => into x)
/-- `sequence_owned` (`traversable.rs` 115-122). -/
def sequenceOwnedT (into : S → F B) (x : T S) : F (T B) := RTraversable.traverseOwned F x (fun x => into x)
end

end Rustica
