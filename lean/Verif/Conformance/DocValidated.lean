import Verif.Data.Access
import Verif.Error.Convert

/-!
The examples in the documentation comments of `/repo/src/datatypes/validated/` (compiled and run by `cargo test`),
run on the model; each is named by the line its code block starts at.  They are not proofs of any property; they check
that the model computes what the documentation says the code computes.
-/

namespace Rustica.Conformance.DocValidated

open Validated

abbrev V := Validated String Int

/-- core.rs:118, 152, 170, 326, 352, 398, 422 -/
example : let valid : V := Valid 42
    let invalid : V := invalid "error"
    valid.iter = [42] ∧ invalid.errorSlice = ["error"] ∧ valid.isValid = true ∧ invalid.isValid = false ∧
    valid.isInvalid = false ∧ invalid.isInvalid = true ∧ valid.errors = [] ∧ invalid.errors = ["error"] ∧
    valid.errorPayload = none ∧ invalid.errorPayload = some ["error"] ∧
    (invalidMany ["err1", "err2"] : V).errorPayload = some ["err1", "err2"] := by decide

/-- core.rs:205: all three errors are handed to the recovery -/
example : let errors : V := invalidMany ["error1", "error2", "error3"]
    errors.recoverAll (fun e => invalid ("recovered: " ++ e)) =
      Invalid ["recovered: error1", "recovered: error2", "recovered: error3"] := by decide +kernel

/-- core.rs:265, 304 -/
example : (invalidMany ["Missing name", "Invalid email"] : V).recoverAllAtOnce (fun all =>
      if all.length > 5 then invalid "Too many validation errors" else Valid 0) = Valid 0 ∧
    (invalid "failed" : V).recoverWith 42 = Valid 42 := by decide

/-- core.rs:377 -/
example : ((invalid "oops" : V).errorBufferMut (· ++ ["more"])).errorSlice = ["oops", "more"] := by decide

/-- core.rs:461, 468, 498, 507, 534, 576, 1230, 1237, 1266, 1287, 1311, 1318 -/
example : let valid : V := Valid 42
    let invalid : V := invalid "error"
    valid.unwrap = some 42 ∧ invalid.unwrap = none ∧ invalid.unwrapInvalid = some ["error"] ∧
    valid.unwrapInvalid = none ∧ valid.unwrapOr 0 = 42 ∧ invalid.unwrapOr 0 = 0 ∧
    valid.toOption = some 42 ∧ invalid.toOption = none ∧
    (invalidMany ["e1", "e2"] : V).unwrapInvalid = some ["e1", "e2"] := by decide

example : (Valid 42 : V).intoValue = .ok 42 := rfl
example : (invalidMany ["err1", "err2"] : V).intoValue = .error ["err1", "err2"] := rfl
example : (Valid 42 : V).intoErrorPayload = .error 42 := rfl
example : (invalid "error" : V).intoErrorPayload = .ok ["error"] := rfl

/-- core.rs:678, 687, 758, 767 -/
example : (invalidMany ["error1", "error2"] : V).isInvalid = true ∧
    (invalidMany ["error1", "error2"] : V).errors = ["error1", "error2"] ∧
    (invalidMany [] : V).isInvalid = true ∧ (invalidMany [] : V).errors = [] ∧
    (invalidVec ["error1", "error2"] : Option V).map errors = some ["error1", "error2"] ∧
    (invalidVec [] : Option V) = none := by decide

/-- core.rs:808, 846, mod.rs:99 -/
example : (invalid "error" : V).fmapInvalid (fun e => "Error: " ++ e) = invalid "Error: error" ∧
    (invalid "error" : V).fmapInvalidOwned (fun e => "Error: " ++ e) = invalid "Error: error" := by decide +kernel

/-- core.rs:883, 912, 946 -/
example : let invalid1 : V := invalid "error1"
    let invalid2 : V := invalidMany ["error2", "error3"]
    let valid1 : V := Valid 1
    (invalid1.combineErrors invalid2).map errorSlice = some ["error1", "error2", "error3"] ∧
    (valid1.combineErrors invalid2).map errorSlice = some ["error2", "error3"] ∧
    (invalid1.combineErrors valid1).map errorSlice = some ["error1"] ∧
    valid1.combineErrors (Valid 2) = none ∧
    (invalid1.combineErrorsOwned (invalid "error2")).map errorSlice = some ["error1", "error2"] := by decide

/-- core.rs:987, 1030, mod.rs:67 -/
example : fromResult (.ok 42 : Except String Int) = Valid 42 ∧
    fromResult (.error "error" : Except String Int) = invalid "error" := by decide

/-- core.rs:1053, 1077 -/
example : (Valid 42 : V).toResult = some (.ok 42) ∧ ∃ e, (invalid "error" : V).toResult = some (.error e) :=
  ⟨rfl, _, rfl⟩

/-- core.rs:1105, 1136, 1167, 1201 -/
example : fromOption (some 42) "missing value" = (Valid 42 : V) ∧
    fromOption none "missing value" = (invalid "missing value" : V) ∧
    fromOptionWith (some 42) (fun _ => "missing value") = (Valid 42 : V) ∧
    fromOptionWith none (fun _ => "missing value") = (invalid "missing value" : V) := by decide

/-- core.rs:1357, 1436 -/
example : let sum := fun (vs : List Int) => vs.foldl (· + ·) 0
    Validated.sequence [(Valid 1 : V), Valid 2, Valid 3] sum = Valid 6 ∧
    Validated.sequence [(invalid "error1" : V), Valid 5, invalid "error2"] sum = Invalid ["error1", "error2"] ∧
    Validated.sequence ([] : List V) sum = Valid 0 ∧
    sequenceOwned [(Valid 1 : V), Valid 2] List.length = Valid 2 := by decide

/-- core.rs:1503, 1580, mod.rs:99 -/
example : collect [(Valid 1 : V), Valid 2, Valid 3] = Valid [1, 2, 3] ∧
    collect [(Valid 1 : V), invalid "error", Valid 3] = Invalid ["error"] ∧
    collect [(invalid "err1" : V), invalid "err2"] = Invalid ["err1", "err2"] ∧
    collect ([] : List V) = Valid [] ∧ collectOwned [(Valid 1 : V), Valid 2] = Valid [1, 2] := by decide

/-- traits.rs:40, 50, 74, 84, 96, 106, 118 -/
example : (RPure.pure 10 : V) = Valid 10 ∧ (RPure.pureOwned 10 : V) = Valid 10 ∧
    RFunctor.fmap (· * 2) (Valid 10 : V) = (Valid 20 : V) ∧
    RFunctor.fmap (· * 2) (invalid "error" : V) = (invalid "error" : V) ∧
    RFunctor.fmapOwned (· * 2) (Valid 10 : V) = (Valid 20 : V) ∧
    RFunctor.fmapOwned (· * 2) (invalid "error" : V) = (invalid "error" : V) ∧
    RFunctor.fmap id (Valid 10 : V) = (Valid 10 : V) ∧
    RFunctor.fmap id (invalid "error" : V) = (invalid "error" : V) := by decide

/-- traits.rs:196, 207 -/
example : bimap (Valid 10 : V) (· * 2) (fun e => "Error: " ++ e) = Valid 20 ∧
    bimap (invalidMany ["e1", "e2"] : V) (· * 2) (fun e => "New-" ++ e) = invalidMany ["New-e1", "New-e2"] := by
  decide +kernel

/-- traits.rs:265, 276, 287, 298, 319, 345 -/
example : let ap := fun (f : Validated String (Int → Int)) (v : V) => (RApplicative.apply f v : V)
    let lift := fun (v w : V) => (RApplicative.lift2 (· + ·) v w : V)
    ap (Valid (· * 2)) (Valid 10) = Valid 20 ∧ ap (invalid "fn_error") (Valid 10) = invalid "fn_error" ∧
    ap (Valid (· * 2)) (invalid "val_error") = invalid "val_error" ∧
    ap (invalid "fn_error") (invalid "val_error") = Invalid ["fn_error", "val_error"] ∧
    lift (Valid 10) (Valid 20) = Valid 30 ∧ lift (Valid 10) (invalid "error_b") = Invalid ["error_b"] ∧
    lift (invalid "error_a") (Valid 20) = Invalid ["error_a"] ∧
    lift (invalid "error1") (invalid "error2") = Invalid ["error1", "error2"] ∧
    ap (RPure.pureOwned (· * 2)) (RPure.pureOwned 10) = RPure.pureOwned 20 := by decide

/-- traits.rs:541, 551, 561, 574 -/
example : (RMonad.bind (Valid 10 : V) fun x => (Valid (x + 5) : V)) = (Valid 15 : V) ∧
    (RMonad.bind (Valid 10 : V) fun _ => (invalid "computation_failed" : V)) = (invalid "computation_failed" : V) ∧
    (RMonad.bind (invalid "original_error" : V) fun x => (Valid (x + 5) : V)) = (invalid "original_error" : V) ∧
    (RMonad.bindOwned (RPure.pureOwned 21 : V) fun x => (Valid (x * 2) : V)) = (Valid 42 : V) := by decide

/-- traits.rs:658 -/
example : RFoldable.foldLeft (Valid 42 : V) 0 (fun _ x => x * 2) = 84 ∧
    RFoldable.foldLeft (invalid "error" : V) 100 (fun _ x => x + 1) = 100 ∧
    RFoldable.foldRight (Valid 42 : V) 0 (fun x _ => x * 2) = 84 ∧
    RFoldable.foldRight (invalid "error" : V) 100 (fun x _ => x + 1) = 100 := by decide

/-- traits.rs:718, 728, 738, 751, 767, 776, 792, 801 -/
example : RAlternative.alt (Valid 1 : V) (Valid 2) = (Valid 1 : V) ∧
    RAlternative.alt (invalid "error" : V) (Valid 2) = (Valid 2 : V) ∧
    RAlternative.alt (invalid "error1" : V) (invalid "error2") = (invalid "error2" : V) ∧
    (RAlternative.emptyAlt : V).errors = [""] ∧
    (RAlternative.guard true : Validated String Unit) = Valid () ∧
    (RAlternative.guard false : Validated String Unit).errors = [""] ∧
    (RAlternative.many (Valid 42 : V) : Validated String (List Int)) = Valid [42] ∧
    (RAlternative.many (invalid "original error" : V) : Validated String (List Int)).errors = [""] := by decide

/-- traits.rs:848, 870, 881, 892 -/
example : (RMonadPlus.mzero : V).isInvalid = true ∧ (RMonadPlus.mzero : V).errors.length = 0 ∧
    RMonadPlus.mplus RMonadPlus.mzero (Valid 42 : V) = (Valid 42 : V) ∧
    RMonadPlus.mplus (Valid 42 : V) RMonadPlus.mzero = (Valid 42 : V) ∧
    RMonadPlus.mplus (Valid 42 : V) (invalid "error") = (Valid 42 : V) ∧
    RMonadPlus.mplus (invalid "error1" : V) (Valid 42) = (Valid 42 : V) ∧
    (RMonadPlus.mplus (invalid "error1" : V) (invalid "error2") : V).errorSlice = ["error1", "error2"] := by decide

/-- mod.rs:11 -/
example : let positive := fun (x : Int) => (if x > 0 then Valid x else Invalid ["Must be positive"] : V)
    let even := fun (x : Int) => (if x.tmod 2 = 0 then Valid x else Invalid ["Must be even"] : V)
    let both := fun a b => (RApplicative.lift2 (· + ·) (positive a) (even b) : V)
    both 5 4 = Valid 9 ∧ (both (-1) 3).isInvalid = true ∧ (both (-1) 3).errors.length = 2 := by decide

end Rustica.Conformance.DocValidated
