import Verif.PVec.Core

/-!
The unit tests of `tests/datatypes/test_pvec.rs`, run on the model.  They are not proofs of any
property; they check that the model computes what the authors' tests say the code computes.
-/

namespace Rustica.PVec.Conformance

open PV

/-- The `pvec!` macro: collect the listed elements. -/
def pvec (xs : List Nat) : PV Nat := fromIter xs

/-- `test_new`, `test_unit`, `test_from_slice` -/
example : (new : PV Nat).len = 0 ∧ (new : PV Nat).isEmpty = true ∧ (unit 42).len = 1 ∧
    (unit 42).get 0 = some 42 ∧ (unit 42).isEmpty = false ∧
    (pvec [1, 2, 3, 4]).len = 4 ∧ (List.range 5).map (pvec [1, 2, 3, 4]).get =
      [some 1, some 2, some 3, some 4, none] := by decide +kernel

/-- `test_push_back_and_get` -/
example : let v := ((new.pushBack 1).pushBack 2).pushBack 3
    v.len = 3 ∧ (List.range 4).map v.get = [some 1, some 2, some 3, none] := by decide +kernel

/-- `test_pop_back`: five pops of four elements. -/
def popAll : Nat → PV Nat → List (Option (Nat × Nat))
  | 0, _ => []
  | n + 1, v =>
    match v.popBack with
    | some (w, x) => some (x, w.len) :: popAll n w
    | none => none :: popAll n v

example : popAll 5 (pvec [1, 2, 3, 4]) = [some (4, 3), some (3, 2), some (2, 1), some (1, 0), none] := by
  decide +kernel

/-- `test_update`, `test_edge_cases` -/
example : let v := pvec [1, 2, 3, 4]
    (v.update 1 20).get 1 = some 20 ∧ v.get 1 = some 2 ∧ (v.update 10 100).len = v.len ∧
    (new : PV Nat).get 0 = none ∧ ((new : PV Nat).update 5 42).len = 0 ∧
    (new : PV Nat).popBack.isNone = true := by decide +kernel

/-- `test_map`, `test_filter`, `test_concatenation`, `test_sorted` -/
example : ((pvec [1, 2, 3, 4]).map (· * 2)).toVec = [2, 4, 6, 8] ∧
    ((pvec [1, 2, 3, 4, 5]).filter (· % 2 == 0)).toVec = [2, 4] ∧
    ((pvec [1, 2, 3]).concat (pvec [4, 5, 6])).len = 6 ∧
    ((pvec [1, 2, 3]).concat (pvec [4, 5, 6])).toVec = [1, 2, 3, 4, 5, 6] := by decide +kernel

example : (pvec [3, 1, 4, 2]).items.mergeSort (fun a b => decide (a ≤ b)) = [1, 2, 3, 4] := by
  have : (pvec [3, 1, 4, 2]).items = [3, 1, 4, 2] := by decide +kernel
  rw [this]; simp [List.mergeSort, List.MergeSort.Internal.splitInTwo]

/-- `test_iterator`, `test_index`, `test_index_panic`, `test_first_last` -/
example : let it := (pvec [1, 2, 3]).iter
    let r1 := it.next
    let r2 := r1.2.next
    let r3 := r2.2.next
    [r1.1, r2.1, r3.1, r3.2.next.1] = [some 1, some 2, some 3, none] ∧
    (pvec [10, 20, 30]).index 2 = some 30 ∧ (pvec [1, 2, 3]).index 10 = none ∧
    (pvec [1, 2, 3, 4, 5]).first = some 1 ∧ (pvec [1, 2, 3, 4, 5]).last = some 5 ∧
    (new : PV Nat).first = none ∧ (new : PV Nat).last = none := by decide +kernel

/-- A vector grown by `push_back`. -/
def grown (n : Nat) : PV Nat := (List.range n).foldl pushBack new

/-- `test_large_vector`, `test_tree_structure_debugging` -/
example : let v := grown 100
    let u := v.update 31 310
    v.get 31 = some 31 ∧ v.get 32 = some 32 ∧ u.get 31 = some 310 ∧
    (u.update 32 320).get 32 = some 320 ∧ (grown 40).toVec = List.range 40 := by decide +kernel

/-- `test_persistence` -/
example : let v1 := pvec [1, 2, 3]
    v1.len = 3 ∧ (v1.pushBack 4).toVec = [1, 2, 3, 4] ∧ (v1.pushBack 5).get 3 = some 5 := by
  decide +kernel

/-- `test_large_persistent_vector`, with 400 instead of 20 000 elements (the kernel evaluates it). -/
example : let n := 400
    let v := grown n
    let u := v.update (n / 2) 42
    let s := v.splitAt (n / 2)
    let c := s.1.concat s.2
    v.len = n ∧ v.get 0 = some 0 ∧ v.get (n / 2) = some (n / 2) ∧ v.get (n - 1) = some (n - 1) ∧
    u.get (n / 2) = some 42 ∧ s.1.len = n / 2 ∧ s.2.len = n - n / 2 ∧ c.len = n ∧
    c.get (n - 1) = some (n - 1) := by decide +kernel

/-- `test_misc_methods` -/
example : let v := pvec [1, 2, 2, 3, 4, 4, 5]
    v.dedup.toVec = [1, 2, 3, 4, 5] ∧ (v.insert 2 99).get 2 = some 99 ∧
    (v.filterMap fun x => if x % 2 = 0 then some (x * 10) else none).toVec = [20, 20, 40, 40] ∧
    (v.flatMap fun x => [x, x * 2]).len > v.len := by decide +kernel

end Rustica.PVec.Conformance
