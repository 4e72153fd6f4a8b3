import Verif.PVec.Theorems.Eq

/-!
# C15: the 32-bit version counter

In Rust `generation : u32` is incremented with `+ 1`, which panics on overflow in debug builds
and wraps in release builds.  The model keeps it as a natural number, so "no overflow" is "every
value computed stays below `2^32`".
-/

namespace Rustica.PVec
namespace PV

variable {α : Type}

theorem transitionToTree_gen (v : PV α) :
    v.transitionToTree.generation ≤ v.generation + 1 := by
  unfold transitionToTree; split <;> simp

theorem pushBack_gen (v : PV α) (x : α) : (v.pushBack x).generation ≤ v.generation + 2 := by
  have := transitionToTree_gen v
  unfold pushBack
  split
  · split
    · simp
    · unfold treePushBack; split <;> simp <;> omega
  · unfold treePushBack; split <;> simp

theorem pushFront_gen (v : PV α) (x : α) : (v.pushFront x).generation ≤ v.generation + 2 := by
  have := transitionToTree_gen v
  unfold pushFront
  split
  · split
    · simp
    · unfold treePushFront; split <;> simp <;> omega
  · unfold treePushFront; split <;> simp

theorem extend_gen (xs : List α) : ∀ v : PV α,
    (v.extend xs).generation ≤ v.generation + 2 * xs.length := by
  unfold extend
  induction xs with
  | nil => intro v; simp
  | cons x xs ih =>
    intro v
    have h1 := ih (v.pushBack x)
    have h2 := pushBack_gen v x
    simp only [List.foldl_cons, List.length_cons]; omega

theorem update_gen (v : PV α) (i : Nat) (x : α) : (v.update i x).generation ≤ v.generation + 1 := by
  unfold update; split
  · simp
  · split <;> simp

theorem concat_gen (v w : PV α) : (v.concat w).generation ≤ v.generation + 1 := by
  unfold concat; split
  · simp only [fromIter]; split <;> simp
  all_goals simp

theorem popBack_gen (v w : PV α) (x : α) (h : v.popBack = some (w, x)) :
    w.generation = v.generation + 1 := by
  unfold popBack at h
  split at h
  · cases h
  · split at h
    · split at h
      · cases h; rfl
      · cases h
    · simp only [Option.map_eq_some_iff] at h
      obtain ⟨p, _, hp⟩ := h
      cases hp; rfl

theorem popFront_gen (v w : PV α) (x : α) (h : v.popFront = some (w, x)) :
    w.generation = v.generation + 1 := by
  unfold popFront at h
  split at h
  · cases h
  · split at h
    · split at h
      · cases h; rfl
      · cases h
    · simp only [Option.map_eq_some_iff] at h
      obtain ⟨p, _, hp⟩ := h
      cases hp; rfl

theorem splitAt_gen (v : PV α) (i : Nat) :
    (v.splitAt i).1.generation ≤ v.generation + 1 ∧ (v.splitAt i).2.generation ≤ v.generation + 1 := by
  unfold splitAt; split
  · simp [new]
  · split
    · simp [new]
    · split <;> simp

theorem take_gen (v : PV α) (n : Nat) : (v.take n).generation ≤ v.generation + 1 := by
  unfold take; split
  · simp
  · exact (splitAt_gen v n).1

theorem skip_gen (v : PV α) (n : Nat) : (v.skip n).generation ≤ v.generation + 1 := by
  unfold skip; split
  · simp [new]
  · exact (splitAt_gen v n).2

/-- Every vector value that `insert` creates on the way to its result (left and right part, left
part transitioned to a tree, left part with the new element, result): none of their counters
exceeds the old one by more than 4. -/
theorem insert_gens (v : PV α) (i : Nat) (x : α) :
    (v.splitAt i).1.generation ≤ v.generation + 4 ∧ (v.splitAt i).2.generation ≤ v.generation + 4 ∧
    (v.splitAt i).1.transitionToTree.generation ≤ v.generation + 4 ∧
    ((v.splitAt i).1.pushBack x).generation ≤ v.generation + 4 ∧
    (v.insert i x).generation ≤ v.generation + 4 := by
  have h1 := splitAt_gen v i
  have h2 := pushBack_gen (v.splitAt i).1 x
  have h3 := concat_gen ((v.splitAt i).1.pushBack x) (v.splitAt i).2
  have h4 := pushBack_gen v x
  have h5 := pushFront_gen v x
  have h6 := transitionToTree_gen (v.splitAt i).1
  refine ⟨by omega, by omega, by omega, by omega, ?_⟩
  unfold insert
  split
  · omega
  · split
    · omega
    · exact Nat.le_trans h3 (by omega)

/-- The same for `remove`. -/
theorem remove_gens (v : PV α) (i : Nat) :
    (v.splitAt i).1.generation ≤ v.generation + 4 ∧ (v.splitAt i).2.generation ≤ v.generation + 4 ∧
    ((v.splitAt i).2.skip 1).generation ≤ v.generation + 4 ∧
    ∀ w, v.remove i = some w → w.generation ≤ v.generation + 4 := by
  have h1 := splitAt_gen v i
  have h2 := skip_gen (v.splitAt i).2 1
  have h3 := concat_gen (v.splitAt i).1 ((v.splitAt i).2.skip 1)
  refine ⟨by omega, by omega, by omega, ?_⟩
  intro w hw
  unfold remove at hw
  split at hw
  · cases hw
  · split at hw
    · cases hw; simp [new]
    · simp only [Option.some.injEq] at hw
      subst hw; exact Nat.le_trans h3 (by omega)

/-- `History n v`: `v` is the result of a history in which no chain of operations is longer than
`n` (constructors and rebuilding operations start afresh, `extend` counts one per element). -/
inductive History {α : Type} : Nat → PV α → Prop where
  | new : History 0 PV.new
  | unit (x : α) : History 0 (PV.unit x)
  | fromIter (xs : List α) : History 0 (PV.fromIter xs)
  | weaken {n : Nat} {v : PV α} : History n v → History (n + 1) v
  | pushBack {n : Nat} {v : PV α} (x : α) : History n v → History (n + 1) (v.pushBack x)
  | pushFront {n : Nat} {v : PV α} (x : α) : History n v → History (n + 1) (v.pushFront x)
  | extend {n : Nat} {v : PV α} (xs : List α) : History n v → History (n + xs.length) (v.extend xs)
  | update {n : Nat} {v : PV α} (i : Nat) (x : α) : History n v → History (n + 1) (v.update i x)
  | concat {n : Nat} {v w : PV α} : History n v → History n w → History (n + 1) (v.concat w)
  | popBack {n : Nat} {v w : PV α} {x : α} : History n v → v.popBack = some (w, x) → History (n + 1) w
  | popFront {n : Nat} {v w : PV α} {x : α} : History n v → v.popFront = some (w, x) → History (n + 1) w
  | splitLeft {n : Nat} {v : PV α} (i : Nat) : History n v → History (n + 1) (v.splitAt i).1
  | splitRight {n : Nat} {v : PV α} (i : Nat) : History n v → History (n + 1) (v.splitAt i).2
  | take {n : Nat} {v : PV α} (k : Nat) : History n v → History (n + 1) (v.take k)
  | skip {n : Nat} {v : PV α} (k : Nat) : History n v → History (n + 1) (v.skip k)
  | insert {n : Nat} {v : PV α} (i : Nat) (x : α) : History n v → History (n + 1) (v.insert i x)
  | remove {n : Nat} {v w : PV α} (i : Nat) : History n v → v.remove i = some w → History (n + 1) w

/-- C15: the counter grows by at most 4 per operation. -/
theorem c15_generation_bound {n : Nat} {v : PV α} (h : History n v) : v.generation ≤ 4 * n := by
  induction h with
  | new => simp [new]
  | unit x => simp [unit]
  | fromIter xs => simp only [fromIter]; split <;> simp
  | weaken _ ih => omega
  | @pushBack n v x _ ih => have := pushBack_gen v x; omega
  | @pushFront n v x _ ih => have := pushFront_gen v x; omega
  | @extend n v xs _ ih => have := extend_gen xs v; omega
  | @update n v i x _ ih => have := update_gen v i x; omega
  | @concat n v w _ _ ih _ => have := concat_gen v w; omega
  | @popBack n v w x _ hp ih => have := popBack_gen v w x hp; omega
  | @popFront n v w x _ hp ih => have := popFront_gen v w x hp; omega
  | @splitLeft n v i _ ih => have := splitAt_gen v i; omega
  | @splitRight n v i _ ih => have := splitAt_gen v i; omega
  | @take n v k _ ih => have := take_gen v k; omega
  | @skip n v k _ ih => have := skip_gen v k; omega
  | @insert n v i x _ ih => have := insert_gens v i x; omega
  | @remove n v w i _ hr ih => have := (remove_gens v i).2.2.2 w hr; omega

/-- C15: after fewer than `2^30` operations no further operation overflows the 32-bit counter,
not even in an intermediate value. -/
theorem c15_no_overflow {n : Nat} {v : PV α} (h : History n v) (hn : n + 1 < 2 ^ 30) :
    v.generation + 4 < 2 ^ 32 ∧
    (∀ x, (v.pushBack x).generation < 2 ^ 32 ∧ (v.pushFront x).generation < 2 ^ 32) ∧
    (∀ i x, (v.insert i x).generation < 2 ^ 32 ∧ ((v.splitAt i).1.pushBack x).generation < 2 ^ 32) ∧
    v.transitionToTree.generation < 2 ^ 32 := by
  have hb := c15_generation_bound h
  refine ⟨by omega, fun x => ⟨?_, ?_⟩, fun i x => ⟨?_, ?_⟩, ?_⟩
  · have := pushBack_gen v x; omega
  · have := pushFront_gen v x; omega
  · have := insert_gens v i x; omega
  · have := insert_gens v i x; omega
  · have := transitionToTree_gen v; omega

/-- C15: how far each operation moves the counter, exactly.  Two steps when a full inline vector (`64` elements) becomes a
tree on the way, none when nothing changes, back to `0` when the result is built afresh, otherwise one. -/
theorem c15_generation_exact (v w : PV α) (x : α) (xs : List α) (i : Nat) :
    (let k := match v.inner with
      | .inline es => if es.length < 64 then 1 else 2
      | .tree _ => 1
    (v.pushBack x).generation = v.generation + k ∧ (v.pushFront x).generation = v.generation + k) ∧
    (v.update i x).generation = v.generation + (if i < v.len then 1 else 0) ∧
    (v.concat w).generation = (match v.inner, w.inner with
      | .inline _, .inline _ => 0
      | _, _ => v.generation + 1) ∧
    (∀ u y, v.popBack = some (u, y) → u.generation = v.generation + 1) ∧
    (∀ u y, v.popFront = some (u, y) → u.generation = v.generation + 1) ∧
    ((v.splitAt i).1.generation, (v.splitAt i).2.generation) =
      (if v.len ≤ i then (v.generation, 0) else if i = 0 then (0, v.generation)
       else (v.generation + 1, v.generation + 1)) ∧
    (v.take i).generation = (if v.len ≤ i then v.generation else if i = 0 then 0 else v.generation + 1) ∧
    (v.skip i).generation = (if v.len ≤ i then 0 else if i = 0 then v.generation else v.generation + 1) ∧
    (fromIter xs).generation = 0 ∧ (unit x).generation = 0 ∧ (new : PV α).generation = 0 := by
  have hsplit : ((v.splitAt i).1.generation, (v.splitAt i).2.generation) =
      (if v.len ≤ i then (v.generation, 0) else if i = 0 then (0, v.generation)
       else (v.generation + 1, v.generation + 1)) := by
    unfold splitAt
    by_cases h1 : v.len ≤ i
    · simp [h1, new]
    · by_cases h2 : i = 0
      · subst h2; simp [h1, new]
      · simp only [ge_iff_le, h1, if_false, h2]
        cases v.inner <;> rfl
  have hfrom : ∀ xs : List α, (fromIter xs).generation = 0 := by
    intro xs; simp only [fromIter]; split <;> rfl
  refine ⟨?_, ?_, ?_, fun u y => popBack_gen v u y, fun u y => popFront_gen v u y, hsplit, ?_, ?_, hfrom xs, rfl, rfl⟩
  · unfold pushBack pushFront transitionToTree treePushBack treePushFront
    cases hv : v.inner with
    | inline es =>
      by_cases h : es.length < 64
      · simp [h, ADAPTIVE_INLINE_SIZE]
      · simp [h, ADAPTIVE_INLINE_SIZE]
    | tree t => simp
  · unfold update
    by_cases h : i < v.len
    · simp only [ge_iff_le, Nat.not_le.2 h, if_false, h, if_true]
      cases v.inner <;> rfl
    · simp [h, Nat.le_of_not_lt h]
  · unfold concat
    cases v.inner <;> cases w.inner <;> simp [hfrom]
  · unfold take
    simp only [ge_iff_le]
    by_cases h : v.len ≤ i
    · simp [h]
    · simp only [h, if_false] at hsplit ⊢
      by_cases h2 : i = 0 <;> simp_all
  · unfold skip
    simp only [ge_iff_le]
    by_cases h : v.len ≤ i
    · simp [h, new]
    · simp only [h, if_false] at hsplit ⊢
      by_cases h2 : i = 0 <;> simp_all

example : ((fromIter (List.range 64)).pushBack 1).generation = 2 ∧ ((fromIter (List.range 63)).pushBack 1).generation = 1 ∧
    ((fromIter (List.range 64)).update 70 1).generation = 0 := by decide +kernel

/-- C15: the counter is not observable through `get`, `len`, `is_empty`, iteration or folds. -/
theorem c15_unobservable (v : PV α) (g : Nat) :
    ({ v with generation := g }).len = v.len ∧
    ({ v with generation := g }).isEmpty = v.isEmpty ∧
    (∀ i, ({ v with generation := g }).get i = v.get i) ∧
    ({ v with generation := g }).toVec = v.toVec := by
  have hget : ∀ i, ({ v with generation := g } : PV α).get i = v.get i := fun _ => rfl
  have hcol : ∀ fuel p, Iter.collect fuel ⟨{ v with generation := g }, p⟩ =
      Iter.collect fuel ⟨v, p⟩ := by
    intro fuel
    induction fuel with
    | zero => intro p; rfl
    | succ fuel ih =>
      intro p
      simp only [Iter.collect, Iter.next, hget]
      by_cases hp : p < v.len
      · simp only [hp, if_true]
        cases v.get p with
        | none => rfl
        | some x => simp only; rw [ih]
      · simp only [hp, if_false]
  exact ⟨rfl, rfl, hget, hcol _ _⟩

/-- `n` updates of position 0 in a row. -/
def updateN (v : PV α) (x : α) : Nat → PV α
  | 0 => v
  | n + 1 => (updateN v x n).update 0 x

/-- The bound on the length of histories cannot be dropped: `2^32` consecutive updates do
overflow the counter (a panic in debug builds). -/
theorem c15_overflow_possible (x : α) (n : Nat) :
    (updateN (PV.fromIter [x]) x n).generation = n ∧ (updateN (PV.fromIter [x]) x n).len = 1 := by
  induction n with
  | zero => exact ⟨rfl, rfl⟩
  | succ n ih =>
    obtain ⟨h1, h2⟩ := ih
    simp only [updateN]
    unfold update
    have : ¬ (0 : Nat) ≥ (updateN (PV.fromIter [x]) x n).len := by omega
    simp only [this, if_false]
    split <;> exact ⟨by simp [h1], h2⟩

theorem c15_unbounded_false :
    ¬ ∀ (n : Nat) (v : PV Nat), History n v → v.generation < 2 ^ 32 := by
  intro h
  have hh : ∀ n, History n (updateN (PV.fromIter [0]) 0 n) := by
    intro n
    induction n with
    | zero => exact .fromIter _
    | succ n ih => exact .update 0 0 ih
  have := h (2 ^ 32) _ (hh _)
  rw [(c15_overflow_possible 0 (2 ^ 32)).1] at this
  omega

example : History 3 (((PV.fromIter (List.range 64)).pushBack 1).insert 5 2 |>.pushFront 9) :=
  .pushFront _ (.insert _ _ (.pushBack _ (.fromIter _)))
example : (((PV.fromIter (List.range 64)).pushBack 1).insert 5 2 |>.pushFront 9).generation = 6 := by
  decide +kernel

example : ((((PV.fromIter (List.range 64)).pushBack 1).insert 5 2).pushFront 9).generation + 4 < 2 ^ 32 :=
  (c15_no_overflow (n := 3) (.pushFront _ (.insert _ _ (.pushBack _ (.fromIter _)))) (by decide)).1

example : ((((PV.fromIter (List.range 64)).pushBack 1).insert 5 2).pushFront 9).generation ≤ 4 * 3 :=
  c15_generation_bound (.pushFront _ (.insert _ _ (.pushBack _ (.fromIter _))))

end PV
end Rustica.PVec
