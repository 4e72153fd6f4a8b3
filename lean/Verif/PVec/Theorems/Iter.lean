import Verif.PVec.Theorems.Basic

/-!
# C11, C12: iterators and folds
-/

namespace Rustica.PVec
namespace PV

variable {α β : Type}

/-- The iterator after `k` calls of `next`. -/
def Iter.after (it : Iter α) : Nat → Iter α
  | 0 => it
  | k + 1 => (it.after k).next.2

theorem after_eq (v : PV α) : ∀ k, v.iter.after k = ⟨v, min k v.len⟩ := by
  intro k
  induction k with
  | zero => simp [Iter.after, iter]
  | succ k ih =>
    simp only [Iter.after, ih, Iter.next]
    split
    · rename_i h
      have : min k v.len + 1 = min (k + 1) v.len := by omega
      rw [this]
    · rename_i h
      have : min k v.len = min (k + 1) v.len := by omega
      rw [this]

/-- C11: the `k`-th call of `next` (counting from 0) returns the `k`-th element, and `None`
for ever after the last one. -/
theorem c11_next_partial {v : PV α} (h : Intact v) (k : Nat) :
    (v.iter.after k).next.1 = v.toVec[k]? := by
  have s := h.shows
  rw [after_eq]
  simp only [Iter.next]
  split
  · rename_i hk
    have : min k v.len = k := by omega
    simp only [this, s.get]
  · rename_i hk
    rw [List.getElem?_eq_none (by rw [← s.len]; omega)]

example : (sample.iter.after 150).next.1 = sample.toVec[150]? := c11_next_partial sample_sound.intact 150

/-- C11: after `k` calls of `next` the size hint is exactly the number of elements that have
not been returned, and the subtraction that computes it does not underflow. -/
theorem c11_size_hint_partial {v : PV α} (h : Intact v) (k : Nat) :
    (v.iter.after k).position ≤ (v.iter.after k).vector.len ∧
    (v.iter.after k).sizeHint = (v.toVec.drop k).length := by
  have s := h.shows
  rw [after_eq]
  simp only [Iter.sizeHint, List.length_drop, ← s.len]
  omega

example : (sample.iter.after 150).sizeHint = (sample.toVec.drop 150).length := (c11_size_hint_partial sample_sound.intact 150).2

/-- C11, for any vector value at all: the size hint never underflows. -/
theorem c11_no_underflow (v : PV α) (k : Nat) :
    (v.iter.after k).position ≤ (v.iter.after k).vector.len := by
  rw [after_eq]; simp only; omega

/-- C11: collecting an iterator that has already been advanced `k` times gives the remaining
elements. -/
theorem c11_rest_partial {v : PV α} (h : Intact v) (k : Nat) :
    Iter.collect (v.len + 1) (v.iter.after k) = v.toVec.drop k := by
  have s := h.shows
  rw [after_eq, collect_eq v v.toVec s.len.symm s.get (v.len + 1) (min k v.len) (by omega) (by omega)]
  by_cases hk : k ≤ v.len
  · rw [Nat.min_eq_left hk]
  · rw [Nat.min_eq_right (by omega), List.drop_of_length_le (by rw [← s.len]; exact Nat.le_refl _),
      List.drop_of_length_le (by rw [← s.len]; omega)]

example : (sample.iter.after 202).next.1 = some 7 ∧ (sample.iter.after 203).next.1 = none ∧
    (sample.iter.after 200).sizeHint = 3 := by decide +kernel

/-! ## C12 -/

theorem foldRightLoop_eq (v : PV α) (xs : List α) (hget : ∀ i, v.get i = xs[i]?)
    (f : α → β → β) : ∀ n acc, n ≤ xs.length →
    foldRightLoop v f n acc = (xs.take n).foldr f acc := by
  intro n
  induction n with
  | zero => intro acc _; simp [foldRightLoop]
  | succ n ih =>
    intro acc h
    have hn : n < xs.length := by omega
    rw [List.take_succ_eq_append_getElem hn, List.foldr_append]
    simp only [foldRightLoop, hget, List.getElem?_eq_getElem hn]
    rw [ih _ (by omega)]
    rfl

/-- C12: `fold` and `Foldable::fold_left` are the left fold of the contents. -/
theorem c12_fold_left_partial {v : PV α} (h : Intact v) (init : β) (f : β → α → β) :
    v.fold init f = v.toVec.foldl f init ∧ v.foldLeft init f = v.toVec.foldl f init := by
  rw [toVec_eq h.wf]
  simp [fold, foldLeft, items_eq h.wf]

example : sample.foldLeft 0 (fun acc x => x - acc) = sample.toVec.foldl (fun acc x => x - acc) 0 :=
  (c12_fold_left_partial sample_sound.intact 0 _).2

/-- C12: `Foldable::fold_right` is the right fold of the contents. -/
theorem c12_fold_right_partial {v : PV α} (h : Intact v) (init : β) (f : α → β → β) :
    v.foldRight init f = v.toVec.foldr f init := by
  have s := h.shows
  unfold foldRight
  rw [foldRightLoop_eq v v.toVec s.get f v.len init (by rw [s.len]; exact Nat.le_refl _), s.len, List.take_length]

/-- C12: `Foldable::length` counts the elements. -/
theorem c12_length_partial {v : PV α} (h : Intact v) : v.length = v.toVec.length := h.shows.len

example : sample.length = sample.toVec.length := c12_length_partial sample_sound.intact

/-- C12: folding with "push at the end" from either side rebuilds the list: every element is
visited once, in order. -/
theorem c12_visits_partial {v : PV α} (h : Intact v) :
    v.foldLeft ([] : List α) (fun acc x => acc ++ [x]) = v.toVec ∧
    v.foldRight ([] : List α) (fun x acc => x :: acc) = v.toVec := by
  rw [(c12_fold_left_partial h _ _).2, c12_fold_right_partial h]
  constructor
  · have : ∀ (xs acc : List α), xs.foldl (fun acc x => acc ++ [x]) acc = acc ++ xs := by
      intro xs
      induction xs with
      | nil => simp
      | cons x xs ih => intro acc; simp [ih]
    simpa using this v.toVec []
  · simp

example : sample.foldRight 0 (fun x acc => x - acc) = sample.toVec.foldr (fun x acc => x - acc) 0 :=
  c12_fold_right_partial sample_sound.intact 0 _

end PV
end Rustica.PVec
