import Verif.Error.Convert

/-!
# Optics: `Lens`, `Prism`, `Iso`, `IsoLens`, `IsoPrism`

`src/datatypes/{lens,prism,iso_lens,iso_prism}.rs` and `src/traits/iso.rs`.  A type implementing `Iso<A, B>` is its
pair of functions (every use in the optics fixes `From = A`, `To = B`).  Clones and references are identities;
`PartialEq` of a focus is lawful (`DecidableEq`).  Not modelled: `Debug` and the derived `PartialEq` of the optics
(function values are not comparable).
-/

namespace Rustica

/-- `struct Lens` (`lens.rs` 272-280). -/
structure RLens (S A : Type) where
  getFn : S → A
  setFn : S → A → S

namespace RLens
variable {S A B : Type}
/-- `new` (`lens.rs` 334-340). -/
def new (get : S → A) (set : S → A → S) : RLens S A := ⟨get, set⟩
/-- `get` (`lens.rs` 383-385). -/
def get (l : RLens S A) (source : S) : A := l.getFn source
/-- `set_always` (`lens.rs` 504-506). -/
def setAlways (l : RLens S A) (source : S) (value : A) : S := l.setFn source value
/-- `set` (`lens.rs` 443-452). -/
def set [DecidableEq A] (l : RLens S A) (source : S) (value : A) : S :=
  if l.get source = value then source else l.setAlways source value
/-- `modify` (`lens.rs` 563-571). -/
def modify [DecidableEq A] (l : RLens S A) (source : S) (f : A → A) : S :=
  let current := l.get source
  let newValue := f current
  l.set source newValue
/-- `modify_always` (`lens.rs` 634-641). -/
def modifyAlways (l : RLens S A) (source : S) (f : A → A) : S :=
  let current := l.get source
  let newValue := f current
  l.setAlways source newValue
/-- `fmap` (`lens.rs` 704-712). -/
def fmap (l : RLens S A) (f : A → B) (g : B → A) : RLens S B :=
  RLens.new (fun s => f (l.getFn s)) (fun s b => l.setFn s (g b))
end RLens

/-- `struct Prism` (`prism.rs` 436-446). -/
structure RPrism (S A : Type) where
  previewFn : S → Option A
  reviewFn : A → S

namespace RPrism
variable {S A : Type}
/-- `new` (`prism.rs` 504-510). -/
def new (preview : S → Option A) (review : A → S) : RPrism S A := ⟨preview, review⟩
/-- `preview` (`prism.rs` 562-564). -/
def preview (p : RPrism S A) (s : S) : Option A := p.previewFn s
/-- `review` (`prism.rs` 612-614). -/
def review (p : RPrism S A) (a : A) : S := p.reviewFn a
/-- `for_case` (`prism.rs` 674-676). -/
def forCase (matchCase : S → Option A) (makeCase : A → S) : RPrism S A := RPrism.new matchCase makeCase
/-- `modify` (`prism.rs` 743-759). -/
def modify [DecidableEq A] (p : RPrism S A) (source : S) (f : A → A) : S :=
  match p.preview source with
  | some currentValue =>
    let newValue := f currentValue
    if newValue = currentValue then source else p.review newValue
  | none => source
/-- `set_if_different` (`prism.rs` 817-831). -/
def setIfDifferent [DecidableEq A] (p : RPrism S A) (source : S) (newValue : A) : S :=
  match p.preview source with
  | some currentValue => if newValue = currentValue then source else p.review newValue
  | none => p.review newValue
end RPrism

/-- A value of a type implementing `Iso<A, B>` (`iso.rs` 100-177). -/
structure RIso (A B : Type) where
  forward : A → B
  backward : B → A

namespace RIso
variable {A B C R : Type}
/-- `map_from_target` (`iso.rs` 224-229). -/
def mapFromTarget (i : RIso A B) (f : B → R) : A → R := fun a => f (i.forward a)
/-- `map_from_source` (`iso.rs` 277-282). -/
def mapFromSource (i : RIso A B) (f : A → R) : B → R := fun b => f (i.backward b)
/-- `iso_compose` (`iso.rs` 348-364) and `impl Iso for ComposedIso` (495-517). -/
def isoCompose (first : RIso A B) (second : RIso B C) : RIso A C :=
  ⟨fun a => second.forward (first.forward a), fun c => first.backward (second.backward c)⟩
/-- `inverse` (`iso.rs` 413-421) and `impl Iso for InverseIso` (572-590). -/
def inverse (i : RIso A B) : RIso B A := ⟨i.backward, i.forward⟩
/-- `IsoExt::convert_forward` (`iso.rs` 603-605). -/
def convertForward (i : RIso A B) (a : A) : B := i.forward a
/-- `IsoExt::convert_backward` (`iso.rs` 616-618). -/
def convertBackward (i : RIso A B) (b : B) : A := i.backward b
/-- `IsoExt::modify` (`iso.rs` 635-640). -/
def modify (i : RIso A B) (a : A) (f : B → B) : A := i.backward (f (i.forward a))
/-- `IsoExt::verify_laws` (`iso.rs` 653-662). -/
def verifyLaws [DecidableEq A] [DecidableEq B] (i : RIso A B) (a : A) (b : B) : Bool :=
  let roundTripFrom := i.backward (i.forward a)
  let roundTripTo := i.forward (i.backward b)
  decide (roundTripFrom = a) && decide (roundTripTo = b)
end RIso

/-- `ResultEitherIso` (`iso.rs` 686-699) as a value. -/
def resultEitherIso (R L : Type) : RIso (Except L R) (Either L R) := ⟨ResultEitherIso.forward, ResultEitherIso.backward⟩

/-- `struct IsoLens` (`iso_lens.rs` 452-458). -/
structure IsoLens (S A : Type) where
  iso : RIso S A

namespace IsoLens
variable {S A B F : Type}
/-- `new` (`iso_lens.rs` 504-509). -/
def new (iso : RIso S A) : IsoLens S A := ⟨iso⟩
/-- `get` (`iso_lens.rs` 545-550). -/
def get (l : IsoLens S A) (s : S) : A := l.iso.forward s
/-- `set` (`iso_lens.rs` 588-594). -/
def set (l : IsoLens S A) (a : A) : S := l.iso.backward a
/-- `modify` (`iso_lens.rs` 632-640). -/
def modify (l : IsoLens S A) (s : S) (f : A → A) : S := l.set (f (l.get s))
/-- `impl Iso for PairIso` (`iso_lens.rs` 870-889). -/
def pairIso (inner : RIso A (B × S)) : RIso A (B × S) := ⟨inner.forward, inner.backward⟩
/-- `compose` (`iso_lens.rs` 692-709). -/
def compose (self : IsoLens S A) (other : IsoLens A (B × S)) : IsoLens S (B × S) :=
  IsoLens.new (self.iso.isoCompose (pairIso other.iso))
/-- `iso_ref` (`iso_lens.rs` 739-741). -/
def isoRef (l : IsoLens S A) : RIso S A := l.iso
/-- `set_focus` (`iso_lens.rs` 799-802). -/
def setFocus (l : IsoLens S (F × S)) (s : S) (newFocusValue : F) : S := l.iso.backward (newFocusValue, s)
/-- `modify_focus` (`iso_lens.rs` 851-858). -/
def modifyFocus (l : IsoLens S (F × S)) (s : S) (f : F → F) : S :=
  let p := l.iso.forward s
  l.iso.backward (f p.1, p.2)
end IsoLens

/-- `struct IsoPrism` (`iso_prism.rs` 259-262). -/
structure IsoPrism (S A : Type) where
  iso : RIso S (Option A)

namespace IsoPrism
variable {S A B : Type}
/-- `new` (`iso_prism.rs` 311-316). -/
def new (iso : RIso S (Option A)) : IsoPrism S A := ⟨iso⟩
/-- `preview` (`iso_prism.rs` 356-361). -/
def preview (p : IsoPrism S A) (s : S) : Option A := p.iso.forward s
/-- `review` (`iso_prism.rs` 399-405). -/
def review (p : IsoPrism S A) (a : A) : S := p.iso.backward (some a)
/-- `impl Iso for LiftedPrismIso` (`iso_prism.rs` 489-510). -/
def lifted (inner : RIso A (Option B)) : RIso (Option A) (Option B) :=
  ⟨fun x => match x with
    | some a => inner.forward a
    | none => none,
   fun y => y.map fun b => inner.backward (some b)⟩
/-- `compose` (`iso_prism.rs` 455-472). -/
def compose (self : IsoPrism S A) (other : IsoPrism A B) : IsoPrism S B :=
  IsoPrism.new (self.iso.isoCompose (lifted other.iso))
end IsoPrism

end Rustica
