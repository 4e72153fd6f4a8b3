import Verif.Data.Choice

/-!
The unit tests of `tests/datatypes/test_choice.rs`, run on the model.  They are not proofs of any
property; they check that the model computes what the authors' tests say the code computes.
-/

namespace Rustica.Choice.Conformance

open Choice

/-- `test_choice_creation_and_access`, `test_choice_functor` -/
example : (new 1 [2, 3, 4]).first = some 1 ∧ (new 1 [2, 3, 4]).alternatives = [2, 3, 4] ∧
    (new 1 []).alternatives = [] ∧ (fmap (· * 2) (new 1 [2, 3, 4])).values = [2, 4, 6, 8] ∧
    (fmapOwned (· * 2) (new 1 [2, 3, 4])).values = [2, 4, 6, 8] := by decide

/-- `test_choice_applicative` -/
example : (apply (new (· * 2) [(· * 3)]) (new 2 [3, 4])).values = [4, 6, 6, 9, 8, 12] ∧
    (applyOwned (new (· * 2) [(· * 3)]) (new 2 [3, 4])).values = [4, 6, 6, 9, 8, 12] := by decide

/-- `test_choice_lift2`, `test_choice_lift3`: the same elements up to order. -/
example : let r := lift2 (· + ·) (new 2 [3, 4]) (new 5 [6, 7])
    r.first = some 7 ∧ r.alternatives.Perm [8, 9, 8, 9, 9, 10, 10, 11] := by decide

example : let r := lift3 (fun x y z => x + y + z) (new 2 [3, 4]) (new 5 [6, 7]) (new 10 [20, 30])
    r.first = some 17 ∧ r.alternatives.Perm [18, 19, 20, 21, 27, 28, 29, 30, 31, 37, 38, 39, 40,
      41, 18, 19, 20, 28, 29, 30, 38, 39, 40, 19, 29, 39] := by decide +kernel

/-- `test_choice_monad`, `test_choice_join` -/
example : (bind (new 2 [3, 4]) fun x => new (x * 2) [x * 3]).values = [4, 6, 6, 9, 8, 12] ∧
    (join id (new (new 1 [2, 3]) [new 4 [5, 6]])).values = [1, 2, 3, 4, 5, 6] := by decide

/-- `test_choice_semigroup`, `test_choice_monoid` -/
example : (combine' (new 1 [2, 3]) (new 4 [5, 6])).values = [1, 2, 3, 4, 5, 6] ∧
    (combine' (new 1 [2, 3]) newEmpty).values = [1, 2, 3] ∧
    (combine' newEmpty (new 1 [2, 3])).values = [1, 2, 3] ∧
    (combine' (newEmpty : Choice Nat) newEmpty).isEmpty = true := by decide

/-- `test_choice_empty_and_len`, `test_choice_add_alternatives` -/
example : (newEmpty : Choice Nat).len = 0 ∧ (new 1 []).len = 1 ∧ (new 1 [2, 3]).len = 3 ∧
    (combine' (new 1 [2]) (ofMany [3, 4])).values = [1, 2, 3, 4] ∧
    (combine' (new 1 []) (ofMany [5, 6])).values = [1, 5, 6] := by decide

/-- `test_choice_remove_alternative` and its two panics -/
example : ((new 1 [2, 3, 4, 5]).removeAlternative 1).toOption.map values = some [1, 2, 4, 5] ∧
    ((new 1 [2, 3, 4, 5]).removeAlternative 0).toOption.map values = some [1, 3, 4, 5] ∧
    ((new 1 [2, 3, 4, 5]).removeAlternative 3).toOption.map values = some [1, 2, 3, 4] ∧
    ((new 1 [2]).removeAlternative 0).toOption.map values = some [1] := by decide

example : (new 1 [2, 3]).removeAlternative 2 =
    .error "Index out of bounds: the len is 2 but the index is 2" := by
  simp [removeAlternative, new, alternatives, show (2 : Nat).repr = "2" from rfl, toString]
example : (new 1 ([] : List Nat)).removeAlternative 0 =
    .error "Cannot remove alternative from Choice with no alternatives" := rfl

/-- `test_choice_filter_values`, `test_choice_filter_values_promotes_alternative` -/
example : ((new 2 [1, 3, 4, 5, 6]).filterValues (· % 2 == 0)).values = [2, 4, 6] ∧
    ((new 2 [1, 3, 4, 5, 6]).filterValues (· % 2 != 0)).values = [1, 3, 5] ∧
    ((new 2 [1, 3, 4, 5, 6]).filterValues fun _ => false).isEmpty = true ∧
    ((new 1 [2, 3, 4]).filterValues (· % 2 == 0)).values = [2, 4] := by decide

/-- `test_choice_from_iter_and_vec_conversion`, `test_choice_default_and_sum` -/
example : (fromVec [1, 2, 3]).first = some 1 ∧ (fromVec [1, 2, 3]).alternatives = [2, 3] ∧
    (fromVec [1, 2, 3]).toVec = [1, 2, 3] ∧ (sum [new 1 [2], new 3 []]).values = [1, 2, 3] := by
  decide

/-- `test_choice_foldable`, `test_find_first` -/
example : (new 1 [2, 3]).fold 0 (· + ·) = 6 ∧ (new 1 [2, 3, 4, 5]).findFirst (· > 3) = some 4 ∧
    (new 1 [2, 3, 4, 5]).findFirst (· > 5) = none := by decide

/-- `test_choice_flatten` -/
example : ((new [1, 2] [[3, 4], [5]]).flatten).toOption.map values = some [1, 2, 3, 4, 5] ∧
    ((new [1] []).flatten).toOption.map values = some [1] ∧
    ((new ([] : List Nat) []).flatten).toOption.isNone = true := by decide

/-- `test_choice_applicative_and_monad_laws`, `test_sequence` -/
example : (apply (new id []) (new 1 [2])).values = [1, 2] ∧
    (sequence (new (some 1) [some 2, some 3])).map values = some [1, 2, 3] ∧
    (sequence (new (some 1) [none, some 3])).map values = none ∧
    (sequence (newEmpty : Choice (Option Nat))).map values = some [] := by decide

end Rustica.Choice.Conformance
