import Verif.Conformance.PVec

/-!
The examples in the documentation comments of `/repo/src/pvec/` (compiled and run by `cargo test`), run on the model;
each is named by the line its code block starts at.  They are not proofs of any property; they check that the model
computes what the documentation says the code computes.
-/

namespace Rustica.PVec.Conformance

open PV

/-- core.rs:30, 69, 89, 110, 124, 141, 161 -/
example : let vec := ((new.pushBack 1).pushBack 2).pushBack 3
    vec.len = 3 ∧ vec.get 1 = some 2 ∧ (vec.update 1 42).get 1 = some 42 ∧ (new : PV Nat).isEmpty = true ∧
    (unit 42).len = 1 ∧ (unit 42).get 0 = some 42 ∧ ((new.pushBack 1).pushBack 2).len = 2 ∧
    (new.pushBack 1).isEmpty = false ∧ vec.items = [1, 2, 3] ∧ (pvec [1, 2, 3, 4, 5]).len = 5 := by decide +kernel

/-- core.rs:176, 197, 219, 257, 276 -/
example : ((pvec [1, 2, 3]).map (· * 2)).toVec = [2, 4, 6] ∧ (pvec [1, 2, 3]).get 1 = some 2 ∧
    (pvec [1, 2, 3]).get 10 = none ∧ ((pvec [1, 2, 3, 4, 5]).filter (· % 2 == 0)).toVec = [2, 4] ∧
    (pvec [1, 2, 3]).first = some 1 ∧ (new : PV Nat).first = none ∧ (pvec [1, 2, 3]).last = some 3 ∧
    (new : PV Nat).last = none := by decide +kernel

/-- core.rs:237, 567 -/
example : (pvec [1, 2, 3]).tryGet 1 = .ok 2 := rfl
example : ((pvec [1, 2, 3]).tryGet 10).toOption = none := rfl
example : ((pvec [1, 2, 3]).tryUpdate 1 42).toOption.map toVec = some [1, 42, 3] := rfl
example : ((pvec [1, 2, 3]).tryUpdate 10 42).toOption.isNone = true := rfl

/-- core.rs:297 (with the length for `parse`), 315, 334, 382 -/
example : let parse : String → Option Nat := fun s => if s = "not_a_number" then none else some (s.utf8ByteSize)
    ((fromIter ["1", "22", "not_a_number", "4444"]).filterMap parse).toVec = [1, 2, 4] ∧
    ((pvec [1, 2, 3]).flatMap fun x => [x, x]).toVec = [1, 1, 2, 2, 3, 3] ∧
    (pvec [1, 1, 2, 2, 3, 3]).dedup.toVec = [1, 2, 3] ∧ (pvec [1, 2, 3, 4]).fold 0 (· + ·) = 10 := by decide +kernel

/-- core.rs:362: `sorted` collects the sorted elements -/
example : (pvec [3, 1, 4, 1, 5]).items.mergeSort (fun a b => decide (a ≤ b)) = [1, 1, 3, 4, 5] := by
  have : (pvec [3, 1, 4, 1, 5]).items = [3, 1, 4, 1, 5] := by decide +kernel
  rw [this]; simp [List.mergeSort, List.MergeSort.Internal.splitInTwo]

/-- core.rs:402, 428, 461 -/
example : ((pvec [1, 2, 3]).zip (fromIter ["a", "b", "c"])).toVec = [(1, "a"), (2, "b"), (3, "c")] ∧
    ((pvec [1, 2, 3, 4, 5]).partition (· % 2 == 0)).1.toVec = [2, 4] ∧
    ((pvec [1, 2, 3, 4, 5]).partition (· % 2 == 0)).2.toVec = [1, 3, 5] ∧
    ((pvec [1, 2, 3, 4, 5]).chunk 2).len = 3 ∧
    ((pvec [1, 2, 3, 4, 5]).chunk 2).toVec.map toVec = [[1, 2], [3, 4], [5]] := by decide +kernel

/-- core.rs:502, 534, 592, 685 -/
example : ((new.pushBack 1).pushBack 2).toVec = [1, 2] ∧ ((new.pushFront 1).pushFront 2).toVec = [2, 1] ∧
    ((pvec [1, 2, 3]).update 1 42).toVec = [1, 42, 3] ∧ (pvec [1, 2, 3]).toVec = [1, 2, 3] ∧
    ((pvec [1, 2]).concat (pvec [3, 4])).toVec = [1, 2, 3, 4] := by decide +kernel

/-- core.rs:750, 803, 856, 915, 934 -/
example : (pvec [1, 2, 3]).popBack.map (fun r => (r.1.toVec, r.2)) = some ([1, 2], 3) ∧
    (pvec [1, 2, 3]).popFront.map (fun r => (r.1.toVec, r.2)) = some ([2, 3], 1) ∧
    ((pvec [1, 2, 3, 4, 5]).splitAt 2).1.toVec = [1, 2] ∧ ((pvec [1, 2, 3, 4, 5]).splitAt 2).2.toVec = [3, 4, 5] ∧
    ((pvec [1, 2, 3, 4, 5]).take 3).toVec = [1, 2, 3] ∧ ((pvec [1, 2, 3, 4, 5]).skip 2).toVec = [3, 4, 5] := by
  decide +kernel

/-- mod.rs:10, 42 -/
example : let vec := ((pvec [1, 2, 3, 4, 5]).pushBack 6).pushFront 0
    vec.get 0 = some 0 ∧ vec.get 6 = some 6 ∧ (pvec []).isEmpty = true := by decide +kernel

end Rustica.PVec.Conformance
