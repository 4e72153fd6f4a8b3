import Verif.Optics.Optics

/-!
The unit tests of `tests/datatypes/test_iso_lens.rs`, `test_iso_prism.rs` and `test_prism.rs`, run on
the model (names shortened to numbers).  They are not proofs of any property; they check that the
model computes what the authors' tests say the code computes.
-/

namespace Rustica.Conformance

/-- The test struct: a name and the rest. -/
structure Person where
  name : String
  age : Nat
deriving DecidableEq

/-- `NameIso` of the tests. -/
def nameIso : RIso Person (String × Person) :=
  ⟨fun p => (p.name, p), fun t => { t.2 with name := t.1 }⟩

def alice : Person := ⟨"Alice", 30⟩

/-- `test_iso_lens_new_get_set_modify`, `test_iso_lens_set_focus_and_modify_focus`, the laws tests -/
example : let lens := IsoLens.new nameIso
    lens.get alice = ("Alice", alice) ∧ lens.set ("Bob", alice) = ⟨"Bob", 30⟩ ∧
    lens.modify alice (fun t => (t.1 ++ "!", t.2)) = ⟨"Alice!", 30⟩ ∧
    lens.setFocus alice "Bob" = ⟨"Bob", 30⟩ ∧ lens.modifyFocus alice (· ++ "!") = ⟨"Alice!", 30⟩ ∧
    lens.set (lens.get alice) = alice ∧
    lens.setFocus (lens.setFocus alice "Charlie") "David" = lens.setFocus alice "David" := by decide

/-- `test_iso_lens_composition` -/
example : let outer : IsoLens (Unit × Nat) Nat := .new ⟨fun o => o.2, fun i => ((), i)⟩
    let pair : IsoLens Nat (Nat × (Unit × Nat)) := .new ⟨fun i => (i, ((), i)), fun t => t.1⟩
    ((outer.compose pair).get ((), 42)).1 = 42 ∧ (outer.compose pair).set (100, ((), 100)) = ((), 100) := by
  decide

/-- `MyEnum` of the prism tests. -/
inductive MyEnum where
  | foo (n : Nat)
  | bar (s : String)
deriving DecidableEq

def fooIso : RIso MyEnum (Option Nat) :=
  ⟨fun e => match e with
    | .foo x => some x
    | .bar _ => none,
   fun o => match o with
    | some x => .foo x
    | none => .bar "default"⟩

/-- The second prism of the tests, with the successor in place of decimal text. -/
def succIso : RIso Nat (Option Nat) :=
  ⟨fun n => some (n + 1), fun o => match o with
    | some m => m - 1
    | none => 0⟩

/-- `test_iso_prism_new_preview_review`, `test_iso_prism_composition_preview_review` -/
example : let prism := IsoPrism.new fooIso
    let composed := prism.compose (IsoPrism.new succIso)
    prism.preview (.foo 10) = some 10 ∧ prism.preview (.bar "hi") = none ∧
    prism.review 20 = .foo 20 ∧ composed.preview (.foo 10) = some 11 ∧
    composed.preview (.bar "x") = none ∧ composed.review 42 = .foo 41 := by decide

/-- `test_prism_preview_success`, `test_prism_preview_failure`, `test_prism_review` -/
example :
    let active : RPrism MyEnum Nat := .new (fun e => match e with
      | .foo n => some n
      | .bar _ => none) .foo
    active.preview (.foo 1) = some 1 ∧ active.preview (.bar "off") = none ∧ active.review 7 = .foo 7 ∧
    active.modify (.foo 1) (· + 1) = .foo 2 ∧ active.modify (.bar "off") (· + 1) = .bar "off" := by
  decide

end Rustica.Conformance
