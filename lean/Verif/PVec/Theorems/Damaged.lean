import Verif.PVec.Theorems.NoPanic

/-!
# C02, C03, C11, C12, C58 over all reachable vectors

`concat` followed by `split_at`, and `pop_back` after `pop_front`, can leave a vector damaged:
its recorded length disagrees with its contents.  Such a vector is an ordinary value for client
code, so the claims about "every reachable vector" fail on it.  The witnesses below are built
through the public API only.
-/

namespace Rustica.PVec
namespace PV

/-- `pop_back` when there is something to pop, otherwise unchanged. -/
def dropBack {α : Type} (v : PV α) : PV α := match v.popBack with
  | some (w, _) => w
  | none => v

/-- `pop_front` when there is something to pop, otherwise unchanged. -/
def dropFront {α : Type} (v : PV α) : PV α := match v.popFront with
  | some (w, _) => w
  | none => v

theorem reach_dropBack {α : Type} {v : PV α} (h : Reach v) : Reach v.dropBack := by
  unfold dropBack
  split
  · rename_i w x e; exact .popBack h e
  · exact h

theorem reach_dropFront {α : Type} {v : PV α} (h : Reach v) : Reach v.dropFront := by
  unfold dropFront
  split
  · rename_i w x e; exact .popFront h e
  · exact h

/-- Apply an operation `n` times. -/
def times {α : Type} : Nat → (PV α → PV α) → PV α → PV α
  | 0, _, v => v
  | n + 1, f, v => times n f (f v)

theorem reach_times {α : Type} {f : PV α → PV α} (hf : ∀ v, Reach v → Reach (f v)) :
    ∀ n v, Reach v → Reach (times n f v) := by
  intro n
  induction n with
  | zero => intro v h; exact h
  | succ n ih => intro v h; exact ih _ (hf v h)

/-- The left part of cutting the concatenation of two 65-element vectors at 70. -/
def cut : PV Nat := (((fromIter (List.range 65)).concat (fromIter (List.range 65))).splitAt 70).1

theorem cut_reach : Reach cut := .splitLeft 70 (.concat (.fromIter _) (.fromIter _))

/-- 20 elements left over from a split, grown by 65 at the front, one popped from the front, 21
from the back: one more element is removed from `len` than from the storage. -/
def stale : PV Nat :=
  times 21 dropBack (dropFront (times 65 (·.pushFront 7) ((fromIter (List.range 100)).splitAt 80).2))

theorem stale_reach : Reach stale :=
  reach_times (fun _ => reach_dropBack) _ _ (reach_dropFront
    (reach_times (fun _ h => .pushFront 7 h) _ _ (.splitRight 80 (.fromIter _))))

/-- `stale`, emptied further and refilled at both ends. -/
def broken : PV Nat :=
  times 2 (·.pushBack 1) (times 6 dropBack (times 3 (·.pushFront 9) (times 58 dropBack stale)))

theorem broken_reach : Reach broken :=
  reach_times (fun _ h => .pushBack 1 h) _ _ (reach_times (fun _ => reach_dropBack) _ _
    (reach_times (fun _ h => .pushFront 9 h) _ _ (reach_times (fun _ => reach_dropBack) _ _
      stale_reach)))

/-- The full claim of C02 for one vector. -/
def UpdateCorrect {α : Type} (v : PV α) : Prop := ∀ i x,
  (v.update i x).len = v.len ∧
  (∀ j, (v.update i x).get j = if j = i ∧ i < v.len then some x else v.get j)

/-- C02 fails for damaged vectors: `cut` has length 70, but `update(69, 5)` stores nothing. -/
theorem c02_update_false : ¬ ∀ v : PV Nat, Reach v → UpdateCorrect v := by
  obtain ⟨v, hr, hl, hg⟩ : ∃ v : PV Nat, Reach v ∧ v.len = 70 ∧ (v.update 69 5).get 69 = none :=
    ⟨cut, cut_reach, by decide +kernel, by decide +kernel⟩
  intro h
  have := (h v hr 69 5).2 69
  rw [hg, hl] at this
  simp at this

/-- The full claim of C03 for one vector. -/
def PushCorrect {α : Type} (v : PV α) : Prop := ∀ x,
  (v.pushBack x).toVec = v.toVec ++ [x] ∧ (v.pushFront x).toVec = x :: v.toVec

/-- C03 fails for damaged vectors: after 64 further `push_back`s on `stale`, the next one changes
the elements that were already there. -/
theorem c03_push_false : ¬ ∀ v : PV Nat, Reach v → PushCorrect v := by
  obtain ⟨v, hr, hg⟩ : ∃ v : PV Nat, Reach v ∧ (v.pushBack 2).toVec ≠ v.toVec ++ [2] :=
    ⟨times 64 (·.pushBack 1) stale, reach_times (fun _ h => .pushBack 1 h) _ _ stale_reach,
      by decide +kernel⟩
  intro h
  exact hg (h v hr 2).1

/-- C11, for every vector value whatever: the `k`-th call of `next` returns `get(k)`, so `None`
for ever from `len` on, and the size hint after `k` calls is `len - k`. -/
theorem c11_next_is_get {α : Type} (v : PV α) (k : Nat) :
    (v.iter.after k).next.1 = v.get k ∧ (v.len ≤ k → (v.iter.after k).next.1 = none) ∧
    (v.iter.after k).sizeHint = v.len - k := by
  rw [after_eq]
  have hn : v.len ≤ k → v.get k = none := fun h => by simp [get, h]
  have h1 : (Iter.next ⟨v, min k v.len⟩).1 = v.get k := by
    simp only [Iter.next]
    split
    · have : min k v.len = k := by omega
      simp only [this]
    · exact (hn (by omega)).symm
  refine ⟨h1, fun h => by rw [h1]; exact hn h, ?_⟩
  simp only [Iter.sizeHint]; omega

/-- C11's "exactly `len()` elements" fails for damaged vectors: `cut` reports 70 elements, its
iterator announces 70 and delivers fewer. -/
theorem c11_count_false : ¬ ∀ v : PV Nat, Reach v → v.toVec.length = v.iter.sizeHint := by
  obtain ⟨v, hr, hl, hg⟩ : ∃ v : PV Nat, Reach v ∧ v.iter.sizeHint = 70 ∧ v.toVec.length = 64 :=
    ⟨cut, cut_reach, by decide +kernel, by decide +kernel⟩
  intro h
  have := h v hr
  omega

/-- C12's `Foldable::length` fails for damaged vectors: `length` is not the number of elements
the folds visit. -/
theorem c12_length_false :
    ¬ ∀ v : PV Nat, Reach v → v.length = v.foldLeft 0 (fun n _ => n + 1) := by
  obtain ⟨v, hr, hl, hg⟩ : ∃ v : PV Nat, Reach v ∧ v.length = 70 ∧
      v.foldLeft 0 (fun n _ => n + 1) = 64 :=
    ⟨cut, cut_reach, by decide +kernel, by decide +kernel⟩
  intro h
  have := h v hr
  omega

/-- C12's agreement of the two folds fails for damaged vectors, too: when a vector has a
hole in the middle, `fold_left` stops at the hole and `fold_right` skips it. -/
theorem c12_folds_false :
    ¬ ∀ v : PV Nat, Reach v →
      v.foldRight 0 (fun _ n => n + 1) = v.foldLeft 0 (fun n _ => n + 1) := by
  obtain ⟨v, hr, hg⟩ : ∃ v : PV Nat, Reach v ∧
      v.foldRight 0 (fun _ n => n + 1) ≠ v.foldLeft 0 (fun n _ => n + 1) :=
    ⟨_, .pushBack 5 (reach_dropFront (reach_times (fun _ h => .pushBack 3 h) 65 _
      (.splitRight 80 (.fromIter (List.range 100))))), by decide +kernel⟩
  intro h
  exact hg (h v hr)

/-- C58 fails: `broken` has length 4, and `get(3)` panics in a build with overflow checks
("attempt to subtract with overflow"; without checks the difference wraps around). -/
theorem c58_no_panic_false : ¬ ∀ v : PV Nat, Reach v → NeverPanics v := by
  obtain ⟨v, hr, hg⟩ : ∃ v : PV Nat, Reach v ∧
      (match v.getC 3 with | .error .subOverflow => true | _ => false) = true :=
    ⟨broken, broken_reach, by decide +kernel⟩
  intro h
  have := (h v hr).get 3
  rw [this] at hg
  simp at hg

example : broken.len = 4 ∧ cut.len = 70 ∧ stale.len = 63 := by decide +kernel

end PV
end Rustica.PVec
