import Verif.Data.Hints

/-!
# C87: what an iterator-consuming constructor builds depends on the items alone

Specification: `Honest` is the contract of `Iterator::size_hint` (the bounds hold of the number of items still to come).
A constructor is good when room for twice the items (and at least 16) is enough, whatever the hint says.
`invalid_many` is not: it reserves the *upper* bound.
-/

namespace Rustica.Alloc

variable {T U E A B X : Type}

/-- The contract of `Iterator::size_hint`. -/
def Honest (it : Hinted T) : Prop :=
  ∀ k, k ≤ it.items.length →
    (it.hint k).1 ≤ it.items.length - k ∧ ∀ u, (it.hint k).2 = some u → it.items.length - k ≤ u

/-- Enough room for `n` items: twice as many, and at least 16. -/
def Room (limit n : Nat) : Prop := 16 ≤ limit ∧ 2 * (n + 1) ≤ limit

/-! ## The buffers -/

theorem le_nextPow2 (n : Nat) : n ≤ nextPow2 n := by
  unfold nextPow2
  split
  · assumption
  · have := @Nat.lt_log2_self (n - 1)
    omega

theorem nextPow2_lt (n : Nat) (h : 1 ≤ n) : nextPow2 n < 2 * n := by
  unfold nextPow2
  split
  · omega
  · have := Nat.log2_self_le (n := n - 1) (by omega)
    rw [Nat.pow_succ]
    omega

theorem smallPush_ok (limit : Nat) (b : Buf T) (x : T) (hl : 2 * (b.items.length + 1) ≤ limit)
    (hc : b.items.length ≤ b.cap) :
    ∃ b', smallPush limit b x = .ok b' ∧ b'.items = b.items ++ [x] ∧ b'.items.length ≤ b'.cap := by
  unfold smallPush smallGrow
  have h1 := le_nextPow2 (b.items.length + 1)
  have h2 := nextPow2_lt (b.items.length + 1) (by omega)
  split
  · rw [if_pos (by omega)]
    exact ⟨_, rfl, rfl, by simpa using h1⟩
  · exact ⟨_, rfl, rfl, by simp; omega⟩

theorem smallPushAll_ok (limit : Nat) (xs : List T) (b : Buf T) (hl : 2 * (b.items.length + xs.length) ≤ limit)
    (hc : b.items.length ≤ b.cap) :
    ∃ b', smallPushAll limit b xs = .ok b' ∧ b'.items = b.items ++ xs := by
  induction xs generalizing b with
  | nil => exact ⟨b, rfl, by simp⟩
  | cons x xs ih =>
    simp only [List.length_cons] at hl
    obtain ⟨b1, h1, h2, h3⟩ := smallPush_ok limit b x (by omega) hc
    obtain ⟨b2, h4, h5⟩ := ih b1 (by rw [h2]; simp; omega) h3
    exact ⟨b2, by simp [smallPushAll, h1, h4], by rw [h5, h2]; simp⟩

theorem smallExtend_ok (limit : Nat) (b : Buf T) (lower : Nat) (xs : List T)
    (hl : 2 * (b.items.length + xs.length) ≤ limit) (hc : b.items.length ≤ b.cap) (hh : lower ≤ xs.length) :
    ∃ b', smallExtend limit b lower xs = .ok b' ∧ b'.items = b.items ++ xs := by
  unfold smallExtend smallReserve smallGrow
  split
  next b' heq =>
    have hb : b'.items = b.items ∧ b.items.length ≤ b'.cap := by
      split at heq
      · cases heq; exact ⟨rfl, hc⟩
      · split at heq
        · cases heq
          exact ⟨rfl, Nat.le_trans (Nat.le_add_right _ _) (le_nextPow2 (b.items.length + lower))⟩
        · cases heq
    obtain ⟨b2, h1, h2⟩ := smallPushAll_ok limit xs b' (by rw [hb.1]; exact hl) (by rw [hb.1]; exact hb.2)
    exact ⟨b2, h1, by rw [h2, hb.1]⟩
  next e heq =>
    exfalso
    split at heq
    · cases heq
    · next hn =>
      have := nextPow2_lt (b.items.length + lower) (by omega)
      rw [if_pos (by omega)] at heq
      cases heq

theorem smallCollect_ok (limit : Nat) (it : Hinted T) (hr : Room limit it.items.length) (hh : Honest it) :
    ∃ b, smallCollect limit it = .ok b ∧ b.items = it.items := by
  obtain ⟨b, h1, h2⟩ := smallExtend_ok limit ⟨[], 8⟩ (it.hint 0).1 it.items
    (by have := hr.2; simp; omega) (by simp) (by simpa using (hh 0 (by omega)).1)
  exact ⟨b, h1, by simpa using h2⟩

theorem smallWithCapacity_ok (limit n : Nat) (h : n ≤ max 8 limit) :
    ∃ c, (smallWithCapacity limit n : Except Nat (Buf T)) = .ok ⟨[], c⟩ ∧ n ≤ c ∧ 8 ≤ c := by
  unfold smallWithCapacity
  split
  · exact ⟨8, rfl, by omega, by omega⟩
  · rw [if_pos (by omega)]
    exact ⟨n, rfl, by omega, by omega⟩

theorem smallWithCapacity_fails (limit n : Nat) (h : max 8 limit < n) :
    (smallWithCapacity limit n : Except Nat (Buf T)) = .error n := by
  unfold smallWithCapacity
  rw [if_neg (by omega), if_neg (by omega)]

theorem smallPrealloc_ok (limit cap : Nat) (it : Hinted T) (hr : Room limit it.items.length) (hh : Honest it)
    (hc : cap ≤ limit) : ∃ b, smallPrealloc limit cap it = .ok b ∧ b.items = it.items := by
  obtain ⟨c, h1, h2, h3⟩ := smallWithCapacity_ok (T := T) limit cap (by omega)
  obtain ⟨b, h4, h5⟩ := smallExtend_ok limit ⟨[], c⟩ (it.hint 0).1 it.items
    (by have := hr.2; simp; omega) (by simp) (by simpa using (hh 0 (by omega)).1)
  exact ⟨b, by simp [smallPrealloc, h1, h4], by simpa using h5⟩

/-! ## Honest iterators -/

theorem honest_ofList (xs : List T) : Honest (ofList xs) := by
  intro k _
  simp only [ofList, Option.some.injEq]
  exact ⟨Nat.le_refl _, fun u hu => by omega⟩

theorem honest_takeWhile (p : T → Bool) (it : Hinted T) (h : Honest it) : Honest (takeWhile p it) := by
  intro k hk
  have hlen : (it.items.takeWhile p).length ≤ it.items.length := (List.takeWhile_prefix p).length_le
  simp only [takeWhile] at hk ⊢
  refine ⟨by omega, fun u hu => ?_⟩
  have := (h k (by omega)).2 u hu
  omega

theorem honest_fromFn (xs : List T) : Honest (fromFn xs) := by
  intro k _
  simp [fromFn]

/-! ## C87 -/

/-- C87: `Choice::new` holds the item and then the alternatives, whatever (honest) hint the iterator gives, when there
is room for the items. -/
theorem c87_choice_new (limit : Nat) (item : T) (it : Hinted T) (hr : Room limit it.items.length) (hh : Honest it) :
    ∃ c, choiceNew limit item it = .ok c ∧ c.values = item :: it.items := by
  have h0 := hh 0 (by omega)
  simp only [Nat.sub_zero] at h0
  obtain ⟨hr1, hr2⟩ := hr
  have hcap : choiceCapacity (it.hint 0).1 (it.hint 0).2 ≤ max 8 limit := by
    unfold choiceCapacity
    split
    · split
      · omega
      · split <;> omega
    · omega
  obtain ⟨c, h1, h2, h3⟩ := smallWithCapacity_ok (T := T) limit _ hcap
  obtain ⟨b, h4, h5, h6⟩ := smallPush_ok limit ⟨[], c⟩ item (by simp; omega) (by simp)
  obtain ⟨b', h7, h8⟩ := smallExtend_ok limit b (it.hint 0).1 it.items (by rw [h5]; simp; omega) h6 h0.1
  exact ⟨⟨b'.items⟩, by simp [choiceNew, choiceNewBuf, h1, h4, h7, Except.map], by simp [h8, h5]⟩

/-- Nine alternatives of which the hint promises none, from above nothing: room for 20 is enough. -/
example : ∃ c, choiceNew 20 0 (fromFn [1, 2, 3, 4, 5, 6, 7, 8, 9]) = .ok c ∧ c.values = [0, 1, 2, 3, 4, 5, 6, 7, 8, 9] :=
  c87_choice_new 20 0 (fromFn [1, 2, 3, 4, 5, 6, 7, 8, 9]) ⟨by decide, by decide⟩ (honest_fromFn _)

/-- C87: `Choice::of_many` holds the items. -/
theorem c87_choice_of_many (limit : Nat) (it : Hinted T) (hr : Room limit it.items.length) (hh : Honest it) :
    ∃ c, choiceOfMany limit it = .ok c ∧ c.values = it.items := by
  obtain ⟨b, h1, h2⟩ := smallCollect_ok limit it hr hh
  refine ⟨_, by simp only [choiceOfMany, h1, Except.map]; rfl, ?_⟩
  split
  · next h => rw [← h2]; simp only [Choice.newEmpty]; exact (List.isEmpty_iff.1 h).symm
  · exact h2

/-- Nine values without a hint. -/
example : ∃ c, choiceOfMany 20 (fromFn [1, 2, 3, 4, 5, 6, 7, 8, 9]) = .ok c ∧ c.values = [1, 2, 3, 4, 5, 6, 7, 8, 9] :=
  c87_choice_of_many 20 (fromFn [1, 2, 3, 4, 5, 6, 7, 8, 9]) ⟨by decide, by decide⟩ (honest_fromFn _)

/-- C87: `Validated::invalid_vec` holds the items, or panics on an iterator without items; the hint plays no part. -/
theorem c87_invalid_vec (limit : Nat) (it : Hinted E) (hr : Room limit it.items.length) (hh : Honest it) :
    (invalidVec limit it : Option (Except Nat (Validated E A))) =
      if it.items = [] then none else some (.ok (.Invalid it.items)) := by
  unfold invalidVec
  obtain ⟨hr1, hr2⟩ := hr
  cases hi : it.items with
  | nil => rfl
  | cons x rest =>
    have h1' := (hh 1 (by rw [hi]; simp)).1
    rw [hi] at hr2 h1'
    simp only [List.length_cons] at hr2 h1'
    obtain ⟨c, h1, h2, h3⟩ := smallWithCapacity_ok (T := E) limit ((it.hint 1).1 + 1) (by omega)
    obtain ⟨b, h4, h5, h6⟩ := smallPush_ok limit ⟨[], c⟩ x (by simp; omega) (by simp)
    obtain ⟨b', h7, h8⟩ := smallExtend_ok limit b (it.hint 1).1 rest (by rw [h5]; simp; omega) h6 (by omega)
    simp [invalidVecBuf, h1, h4, h7, Except.map, h8, h5]

/-- Ten alternatives from a vector: room for 22 is enough for `Choice::new`, `of_many` and `invalid_vec`. -/
example : ∃ it : Hinted Nat, Honest it ∧ Room 22 it.items.length ∧ it.items = [1, 2, 3, 4, 5, 6, 7, 8, 9, 10] :=
  ⟨ofList [1, 2, 3, 4, 5, 6, 7, 8, 9, 10], honest_ofList _, ⟨by decide, by decide⟩, rfl⟩

/-- C87, the exact condition for `Validated::invalid_many`: with room for the items it still fails precisely when the
*upper* bound of the hint is more than the room; otherwise it holds the items. -/
theorem c87_invalid_many_partial (limit : Nat) (it : Hinted E) (hr : Room limit it.items.length) (hh : Honest it) :
    (invalidMany limit it : Except Nat (Validated E A)) =
      match (it.hint 0).2 with
      | some u => if u ≤ limit then .ok (.Invalid it.items) else .error u
      | none => .ok (.Invalid it.items) := by
  have h0 := hh 0 (by omega)
  simp only [Nat.sub_zero] at h0
  have hcol : (smallCollect limit it).map (fun b => (Validated.Invalid b.items : Validated E A)) =
      .ok (.Invalid it.items) := by
    obtain ⟨b, h1, h2⟩ := smallCollect_ok limit it hr hh
    rw [h1]; simp [Except.map, h2]
  have hpre : ∀ c, c ≤ limit → (smallPrealloc limit c it).map (fun b => (Validated.Invalid b.items : Validated E A)) =
      .ok (.Invalid it.items) := by
    intro c hc
    obtain ⟨b, h1, h2⟩ := smallPrealloc_ok limit c it hr hh hc
    rw [h1]; simp [Except.map, h2]
  obtain ⟨hr1, hr2⟩ := hr
  unfold invalidMany
  cases hu : (it.hint 0).2 with
  | none =>
    simp only
    split
    · exact hcol
    · exact hpre _ (by omega)
  | some u =>
    simp only
    by_cases hul : u ≤ limit
    · rw [if_pos hul]
      split
      · split
        · exact hcol
        · exact hpre _ hul
      · split
        · exact hcol
        · exact hpre _ hul
    · rw [if_neg hul, if_neg (by have := h0.1; omega), if_neg (by omega)]
      unfold smallPrealloc
      rw [smallWithCapacity_fails limit u (by omega)]
      rfl

/-- The first three numbers of a range, taken while they are below three. -/
theorem takeWhile_range (n : Nat) (h : 4 ≤ n) : (List.range n).takeWhile (fun i => decide (i < 3)) = [0, 1, 2] := by
  obtain ⟨m, rfl⟩ : ∃ m, n = 4 + m := ⟨n - 4, by omega⟩
  rw [List.range_add]
  rfl

theorem items_takeWhile_range (n : Nat) (h : 4 ≤ n) :
    (takeWhile (fun i => decide (i < 3)) (range n)).items = [0, 1, 2] := takeWhile_range n h

/-- C87 fails for `invalid_many`: however much room there is, `(0..limit + 1).take_while(|i| *i < 3)` yields three errors
and `invalid_many` cannot be built from it, while every other constructor can.  (With `limit + 1 = usize::MAX`: the
program panics with "capacity overflow".) -/
theorem c87_invalid_many_counterexample (limit : Nat) (hl : 16 ≤ limit) :
    ∃ it : Hinted Nat, Honest it ∧ Room limit it.items.length ∧ it.items = [0, 1, 2] ∧
      (∀ A : Type, (invalidMany limit it : Except Nat (Validated Nat A)) = .error (limit + 1)) ∧
      (∀ A : Type, (invalidVec limit it : Option (Except Nat (Validated Nat A))) = some (.ok (.Invalid [0, 1, 2]))) := by
  have hi : (takeWhile (fun i => decide (i < 3)) (range (limit + 1))).items = [0, 1, 2] :=
    takeWhile_range _ (by omega)
  have hh : Honest (takeWhile (fun i => decide (i < 3)) (range (limit + 1))) :=
    honest_takeWhile _ _ (honest_ofList _)
  have hr : Room limit (takeWhile (fun i => decide (i < 3)) (range (limit + 1))).items.length := by
    rw [hi]; exact ⟨hl, by simp; omega⟩
  refine ⟨_, hh, hr, hi, fun A => ?_, fun A => ?_⟩
  · rw [c87_invalid_many_partial limit _ hr hh]
    have : ((takeWhile (fun i => decide (i < 3)) (range (limit + 1))).hint 0).2 = some (limit + 1) := by
      simp [takeWhile, range, ofList]
    rw [this]
    simp only
    rw [if_neg (by omega)]
  · rw [c87_invalid_vec limit _ hr hh, hi]
    simp

/-- The hypotheses hold of `(0..1000).take_while(..)` with room for 2^40 elements, and the number of items is 3. -/
example : Honest (takeWhile (fun i => decide (i < 3)) (range 1000)) ∧
    Room (2 ^ 40) (takeWhile (fun i => decide (i < 3)) (range 1000)).items.length ∧
    (invalidMany (2 ^ 40) (takeWhile (fun i => decide (i < 3)) (range 1000)) : Except Nat (Validated Nat Unit)) =
      .ok (.Invalid [0, 1, 2]) ∧
    (invalidMany 999 (takeWhile (fun i => decide (i < 3)) (range 1000)) : Except Nat (Validated Nat Unit)) =
      .error 1000 := by
  have hi : (takeWhile (fun i => decide (i < 3)) (range 1000)).items = [0, 1, 2] :=
    items_takeWhile_range 1000 (by omega)
  have hh := honest_takeWhile (fun i => decide (i < 3)) (range 1000) (honest_ofList _)
  have hr : ∀ l, 16 ≤ l → Room l (takeWhile (fun i => decide (i < 3)) (range 1000)).items.length := by
    intro l hl
    rw [hi]
    exact ⟨hl, by simp; omega⟩
  have hu : ((takeWhile (fun i => decide (i < 3)) (range 1000)).hint 0).2 = some 1000 := by
    simp [takeWhile, range, ofList]
  refine ⟨hh, hr _ (by omega), ?_, ?_⟩
  · rw [c87_invalid_many_partial _ _ (hr _ (by omega)) hh, hu, hi]; rfl
  · rw [c87_invalid_many_partial _ _ (hr _ (by omega)) hh, hu]; rfl

/-! ## `Choice::new` and the inline storage -/

/-- C87: `Choice::new` stays inline when the bounds agree and there are at most 7 alternatives. -/
theorem c87_choice_new_inline (limit : Nat) (item : T) (xs : List T) (h : xs.length ≤ 7) :
    ∃ b, choiceNewBuf limit item (ofList xs) = .ok b ∧ b.items = item :: xs ∧ b.cap = 8 := by
  have key : ∀ (ys : List T) (b : Buf T), b.cap = 8 → b.items.length + ys.length ≤ 8 →
      ∃ b', smallPushAll limit b ys = .ok b' ∧ b'.items = b.items ++ ys ∧ b'.cap = 8 := by
    intro ys
    induction ys with
    | nil => intro b hb _; exact ⟨b, rfl, by simp, hb⟩
    | cons y ys ih =>
      intro b hb hl
      simp only [List.length_cons] at hl
      obtain ⟨b', h1, h2, h3⟩ := ih ⟨b.items ++ [y], b.cap⟩ hb (by simp; omega)
      refine ⟨b', ?_, by simp [h2], h3⟩
      unfold smallPushAll smallPush
      rw [if_neg (by omega)]
      exact h1
  obtain ⟨b', h1, h2, h3⟩ := key xs ⟨[item], 8⟩ rfl (by simp; omega)
  refine ⟨b', ?_, by simpa using h2, h3⟩
  have hx : choiceCapacity xs.length (some xs.length) = xs.length + 1 := by simp [choiceCapacity]
  unfold choiceNewBuf
  simp only [ofList, Nat.sub_zero, hx]
  unfold smallWithCapacity
  rw [if_pos (by omega)]
  simp only
  unfold smallPush
  rw [if_neg (by simp)]
  simp only [List.nil_append]
  unfold smallExtend smallReserve
  rw [if_pos (by simp; omega)]
  exact h1

/-- Seven alternatives. -/
example : ([1, 2, 3, 4, 5, 6, 7] : List Nat).length ≤ 7 := by decide

/-- C87: the branch of `Choice::new` commented "Fits in SmallVec inline" (`choice.rs` 253) asks for nine places when the
upper bound is 8, so the values go to the heap even though there may be no alternative at all. -/
theorem c87_choice_new_spills (limit : Nat) (hl : 9 ≤ limit) (item : T) :
    ∃ it : Hinted T, Honest it ∧ it.items = [] ∧ ∃ b, choiceNewBuf limit item it = .ok b ∧ b.items = [item] ∧ b.cap = 9 := by
  refine ⟨⟨[], fun _ => (0, some 8)⟩, fun k _ => by simp, rfl, ⟨[item], 9⟩, ?_, rfl, rfl⟩
  unfold choiceNewBuf
  have : choiceCapacity 0 (some 8) = 9 := rfl
  simp only [this]
  unfold smallWithCapacity
  rw [if_neg (by omega), if_pos hl]
  rfl

/-- There is room for 9. -/
example : 9 ≤ 16 := by decide

/-! ## The filters of `utils` -/

theorem vecPush_ok (limit n : Nat) (b : Buf T) (x : T) (hn : b.items.length < n) (hb : b.cap ≤ limit)
    (hc : b.items.length ≤ b.cap) (hl : 2 * n ≤ limit) (h4 : 4 ≤ limit) :
    ∃ b', vecPush limit b x = .ok b' ∧ b'.items = b.items ++ [x] ∧ b'.items.length ≤ b'.cap ∧ b'.cap ≤ limit := by
  unfold vecPush
  split
  · rw [if_pos (by omega)]
    refine ⟨_, rfl, rfl, ?_, ?_⟩
    · simp only [List.length_append, List.length_cons, List.length_nil]; omega
    · simp only; omega
  · exact ⟨_, rfl, rfl, by simp; omega, hb⟩

theorem filterMapLoop_ok (limit : Nat) (f : T → Option U) (xs : List T) (b : Buf U)
    (hl : 2 * (b.items.length + xs.length) ≤ limit) (hb : b.cap ≤ limit) (hc : b.items.length ≤ b.cap) (h4 : 4 ≤ limit) :
    ∃ b', filterMapLoop limit f b xs = .ok b' ∧ b'.items = b.items ++ xs.filterMap f := by
  induction xs generalizing b with
  | nil => exact ⟨b, rfl, by simp⟩
  | cons x xs ih =>
    simp only [List.length_cons] at hl
    unfold filterMapLoop
    cases hf : f x with
    | none =>
      obtain ⟨b', h1, h2⟩ := ih b (by omega) hb hc
      exact ⟨b', h1, by rw [h2, List.filterMap_cons_none hf]⟩
    | some y =>
      obtain ⟨b1, h1, h2, h3, h5⟩ := vecPush_ok limit (b.items.length + xs.length + 1) b y (by omega) hb hc
        (by omega) h4
      obtain ⟨b', h6, h7⟩ := ih b1 (by rw [h2]; simp; omega) h5 h3
      refine ⟨b', by simp [h1, h6], ?_⟩
      rw [h7, h2, List.filterMap_cons_some hf]
      simp

/-- C87: `filter_map_collect` returns what `f` returns, whatever the hint, when there is room for the items consumed. -/
theorem c87_filter_map_collect (limit : Nat) (it : Hinted T) (f : T → Option U) (hr : Room limit it.items.length)
    (hh : Honest it) : filterMapCollect limit it f = .ok (it.items.filterMap f) := by
  have h0 := (hh 0 (by omega)).1
  simp only [Nat.sub_zero] at h0
  obtain ⟨hr1, hr2⟩ := hr
  unfold filterMapCollect vecWithCapacity
  rw [if_pos (by omega)]
  obtain ⟨b, h1, h2⟩ := filterMapLoop_ok limit f it.items ⟨[], max ((it.hint 0).1 / 2) 8⟩ (by simp; omega)
    (by simp only; omega) (by simp) (by omega)
  simp [h1, Except.map, h2]

/-- C87: `filter_map` returns the images of the items that pass, whatever the hint. -/
theorem c87_filter_map (limit : Nat) (it : Hinted A) (p : A → Bool) (f : A → B) (hr : Room limit it.items.length)
    (hh : Honest it) : filterMap' limit it p f = .ok ((it.items.filter p).map f) := by
  have h0 := (hh 0 (by omega)).1
  simp only [Nat.sub_zero] at h0
  obtain ⟨hr1, hr2⟩ := hr
  unfold filterMap' vecWithCapacity
  rw [if_pos (by omega)]
  obtain ⟨b, h1, h2⟩ := filterMapLoop_ok limit (fun a => if p a then some (f a) else none) it.items
    ⟨[], max ((it.hint 0).1 / 2) 8⟩ (by simp; omega) (by simp only; omega) (by simp) (by omega)
  simp only [h1, Except.map, h2, List.nil_append, Except.ok.injEq]
  induction it.items with
  | nil => rfl
  | cons x xs ih =>
    simp only [List.filterMap_cons, List.filter_cons]
    cases p x <;> simp [ih]

/-- An iterator that promises nothing, with three items and room for 16. -/
example : Honest (fromFn [1, 2, 3]) ∧ Room 16 (fromFn [1, 2, 3]).items.length ∧
    filterMapCollect 16 (fromFn [1, 2, 3]) (fun x => if x = 2 then none else some (x * 10)) = .ok [10, 30] := by
  have hh := honest_fromFn [1, 2, 3]
  have hr : Room 16 (fromFn [1, 2, 3]).items.length := ⟨by decide, by decide⟩
  exact ⟨hh, hr, by rw [c87_filter_map_collect _ _ _ hr hh]; rfl⟩

/-! ## Capacities computed from lengths -/

/-- C87: the capacity `bind` computes does not underflow where it is computed (both choices have a value). -/
theorem c87_bind_capacity (a b : Nat) (ha : 1 ≤ a) (hb : 1 ≤ b) :
    bindCapacity a b = some (a - 1 + (b - 1)) ∧ bindOwnedCapacity a (b - 1) = some (a - 1 + (b - 1)) := by
  unfold bindCapacity bindOwnedCapacity checkedSub
  rw [if_pos ha]
  simp only
  rw [if_pos (by omega)]
  exact ⟨by congr 1; omega, by simp⟩

/-- Two values bound to choices of three. -/
example : (1 ≤ 3 ∧ 1 ≤ 2) ∧ bindCapacity 3 2 = some 3 := by decide

theorem foldl_grow {C I : Type} (step : List C → I → List C) (n : Nat) (l : List I) (acc : List C)
    (h : ∀ p ∈ l, ∀ acc, (step acc p).length = acc.length + n) :
    (l.foldl step acc).length = acc.length + l.length * n := by
  induction l generalizing acc with
  | nil => simp
  | cons p l ih =>
    rw [List.foldl_cons, ih _ (fun q hq => h q (by simp [hq])), h p (by simp)]
    simp only [List.length_cons, Nat.add_mul]
    omega

theorem zipIdx_one_ne {l : List A} {p : A × Nat} (h : p ∈ l.zipIdx 1) : p.2 ≠ 0 := by
  have := List.le_snd_of_mem_zipIdx h
  omega

theorem liftLoop2_length {C : Type} (f : A → B → C) (as : List A) (bs : List B) (a : A) (b : B) :
    (Choice.liftLoop2 f (a :: as) (b :: bs)).length = (as.length + 1) * (bs.length + 1) - 1 := by
  unfold Choice.liftLoop2
  rw [show (a :: as).zipIdx = (a, 0) :: as.zipIdx 1 from rfl, List.foldl_cons,
    foldl_grow _ (bs.length + 1) (as.zipIdx 1)]
  · rw [show (b :: bs).zipIdx = (b, 0) :: bs.zipIdx 1 from rfl, List.foldl_cons,
      foldl_grow _ 1 (bs.zipIdx 1)]
    · simp only [BEq.rfl, Bool.and_self, if_true, List.length_nil, List.length_zipIdx, Nat.add_mul]
      omega
    · intro p hp acc
      simp [zipIdx_one_ne hp]
  · intro p hp acc
    rw [foldl_grow _ 1]
    · simp
    · intro q _ acc
      simp [zipIdx_one_ne hp]

theorem liftLoop3_length {C D : Type} (f : A → B → C → D) (as : List A) (bs : List B) (cs : List C) (a : A) (b : B)
    (c : C) : (Choice.liftLoop3 f (a :: as) (b :: bs) (c :: cs)).length =
      (as.length + 1) * (bs.length + 1) * (cs.length + 1) - 1 := by
  unfold Choice.liftLoop3
  rw [show (a :: as).zipIdx = (a, 0) :: as.zipIdx 1 from rfl, List.foldl_cons,
    foldl_grow _ ((bs.length + 1) * (cs.length + 1)) (as.zipIdx 1)]
  · rw [show (b :: bs).zipIdx = (b, 0) :: bs.zipIdx 1 from rfl, List.foldl_cons,
      foldl_grow _ (cs.length + 1) (bs.zipIdx 1)]
    · rw [show (c :: cs).zipIdx = (c, 0) :: cs.zipIdx 1 from rfl, List.foldl_cons,
        foldl_grow _ 1 (cs.zipIdx 1)]
      · simp only [BEq.rfl, Bool.and_self, if_true, List.length_nil, List.length_zipIdx, Nat.add_mul, Nat.mul_add, Nat.one_mul, Nat.mul_one, Nat.mul_assoc]
        omega
      · intro p hp acc
        simp [zipIdx_one_ne hp]
    · intro p hp acc
      rw [foldl_grow _ 1]
      · simp
      · intro q _ acc
        simp [zipIdx_one_ne hp]
  · intro p hp acc
    rw [foldl_grow _ (cs.length + 1)]
    · simp
    · intro q _ acc
      rw [foldl_grow _ 1]
      · simp
      · intro r _ acc
        simp [zipIdx_one_ne hp]

/-- C87: the capacity `lift2` computes does not underflow and is exactly the number of alternatives it stores. -/
theorem c87_lift2_capacity {C : Type} (f : A → B → C) (as : List A) (bs : List B) (ha : as ≠ []) (hb : bs ≠ []) :
    lift2Capacity as.length bs.length = some (Choice.liftLoop2 f as bs).length := by
  obtain ⟨a, as, rfl⟩ := List.exists_cons_of_ne_nil ha
  obtain ⟨b, bs, rfl⟩ := List.exists_cons_of_ne_nil hb
  rw [liftLoop2_length]
  unfold lift2Capacity checkedSub
  rw [if_pos]
  · simp
  · simp only [List.length_cons, Nat.add_mul]; omega

/-- Two values and three values: five alternatives. -/
example : ([1, 2] : List Nat) ≠ [] ∧ ([10, 20, 30] : List Nat) ≠ [] ∧ lift2Capacity 2 3 = some 5 := by decide

/-- C87: the capacity `lift3` computes does not underflow and is exactly the number of alternatives it stores. -/
theorem c87_lift3_capacity {C D : Type} (f : A → B → C → D) (as : List A) (bs : List B) (cs : List C) (ha : as ≠ [])
    (hb : bs ≠ []) (hc : cs ≠ []) :
    lift3Capacity as.length bs.length cs.length = some (Choice.liftLoop3 f as bs cs).length := by
  obtain ⟨a, as, rfl⟩ := List.exists_cons_of_ne_nil ha
  obtain ⟨b, bs, rfl⟩ := List.exists_cons_of_ne_nil hb
  obtain ⟨c, cs, rfl⟩ := List.exists_cons_of_ne_nil hc
  rw [liftLoop3_length]
  unfold lift3Capacity checkedSub
  rw [if_pos]
  · simp
  · simp only [List.length_cons, Nat.add_mul, Nat.mul_add]; omega

/-- Two, three and two values: eleven alternatives. -/
example : ([1, 2] : List Nat) ≠ [] ∧ ([10, 20, 30] : List Nat) ≠ [] ∧ ([5, 6] : List Nat) ≠ [] ∧
    lift3Capacity 2 3 2 = some 11 := by decide

private theorem length_inner {A B : Type} (g : A → B) (ys : List A) (r : List B) :
    (ys.foldl (fun result b => result ++ [g b]) r).length = r.length + ys.length := by
  induction ys generalizing r with
  | nil => rfl
  | cons y ys ih => rw [List.foldl_cons, ih]; simp; omega

private theorem length_vecLoop {A B C : Type} (f : A → B → C) (xs : List A) (ys : List B) :
    (vecLoop f xs ys).length = xs.length * ys.length := by
  have : ∀ (xs : List A) (r : List C),
      (xs.foldl (fun result a => ys.foldl (fun result b => result ++ [f a b]) result) r).length =
        r.length + xs.length * ys.length := by
    intro xs
    induction xs with
    | nil => intro r; simp
    | cons x xs ih => intro r; rw [List.foldl_cons, ih, length_inner]; simp [Nat.add_mul]; omega
  simpa [vecLoop] using this xs []

private theorem length_vecLoop3 {A B C D : Type} (f : A → B → C → D) (xs : List A) (ys : List B) (zs : List C) :
    (vecLoop3 f xs ys zs).length = xs.length * ys.length * zs.length := by
  have h1 : ∀ (x : A) (ys : List B) (r : List D),
      (ys.foldl (fun result b => zs.foldl (fun result c => result ++ [f x b c]) result) r).length =
        r.length + ys.length * zs.length := by
    intro x ys
    induction ys with
    | nil => intro r; simp
    | cons y ys ih => intro r; rw [List.foldl_cons, ih, length_inner]; simp [Nat.add_mul]; omega
  have : ∀ (xs : List A) (r : List D), (xs.foldl (fun result a => ys.foldl (fun result b =>
      zs.foldl (fun result c => result ++ [f a b c]) result) result) r).length =
        r.length + xs.length * (ys.length * zs.length) := by
    intro xs
    induction xs with
    | nil => intro r; simp
    | cons x xs ih => intro r; rw [List.foldl_cons, ih, h1]; simp [Nat.add_mul]; omega
  simpa [vecLoop3, Nat.mul_assoc] using this xs []

/-- C87: the capacities of `Vec::lift2` and `lift3` are the numbers of results, when no product on the way overflows; the
first product of `lift3` is computed even when the third vector is empty. -/
theorem c87_vec_lift_capacity {C D : Type} (f : A → B → C) (g : A → B → C → D) (as : List A) (bs : List B) (cs : List C) :
    vecLift2Capacity as.length bs.length =
      (if (vecLoop f as bs).length < 2 ^ 64 then some (vecLoop f as bs).length else none) ∧
    vecLift3Capacity as.length bs.length cs.length =
      (if (vecLoop f as bs).length < 2 ^ 64 ∧ (vecLoop3 g as bs cs).length < 2 ^ 64
        then some (vecLoop3 g as bs cs).length else none) := by
  rw [length_vecLoop, length_vecLoop3]
  constructor
  · rfl
  · unfold vecLift3Capacity checkedMul
    by_cases h : as.length * bs.length < 2 ^ 64
    · by_cases h2 : as.length * bs.length * cs.length < 2 ^ 64 <;> simp [h, h2]
    · simp [h]

/-- C87 fails for `Vec::lift3` with overflow checks: two vectors of 2^32 elements (of `()`, say) and an empty one; the
result is empty, the capacity overflows. -/
theorem c87_vec_lift3_counterexample (f : Unit → Unit → Unit → Unit) :
    ∃ as bs cs : List Unit, vecLoop3 f as bs cs = [] ∧ vecLift3Capacity as.length bs.length cs.length = none := by
  have key : ∀ n, 2 ^ 64 ≤ n * n →
      ∃ as bs cs : List Unit, vecLoop3 f as bs cs = [] ∧ vecLift3Capacity as.length bs.length cs.length = none := by
    intro n hn
    refine ⟨List.replicate n (), List.replicate n (), [], ?_, ?_⟩
    · apply List.eq_nil_of_length_eq_zero
      rw [length_vecLoop3, List.length_nil, Nat.mul_zero]
    · rw [List.length_replicate, vecLift3Capacity, checkedMul, if_neg (by omega)]; rfl
  exact key (2 ^ 32) (by decide)

/-! ## Hints that break the contract, and too little room -/

/-- A call ends in one of two ways: it fails for want of room, or it returns `x`. -/
def FailsOr (r : Except Nat X) (x : X) : Prop := r = .ok x ∨ ∃ n, r = .error n

theorem smallPushAll_or (limit : Nat) (xs : List T) (b b' : Buf T) (h : smallPushAll limit b xs = .ok b') :
    b'.items = b.items ++ xs := by
  induction xs generalizing b with
  | nil => cases h; simp
  | cons x xs ih =>
    unfold smallPushAll at h
    cases h1 : smallPush limit b x with
    | error e => rw [h1] at h; cases h
    | ok b1 =>
      rw [h1] at h
      rw [ih b1 h]
      have : b1.items = b.items ++ [x] := by
        unfold smallPush smallGrow at h1
        split at h1
        · split at h1
          · next heq => split at heq <;> cases heq; cases h1; rfl
          · cases h1
        · cases h1; rfl
      simp [this]

theorem smallReserve_or (limit : Nat) (b b' : Buf T) (n : Nat) (h : smallReserve limit b n = .ok b') :
    b'.items = b.items ∧ (b.items.length ≤ b.cap → b.items.length + n ≤ b'.cap) := by
  unfold smallReserve smallGrow at h
  split at h
  · cases h; exact ⟨rfl, fun _ => by omega⟩
  · split at h
    · cases h; exact ⟨rfl, fun _ => le_nextPow2 _⟩
    · cases h

theorem smallExtend_or (limit : Nat) (b b' : Buf T) (n : Nat) (xs : List T) (h : smallExtend limit b n xs = .ok b') :
    b'.items = b.items ++ xs := by
  unfold smallExtend at h
  cases h1 : smallReserve limit b n with
  | error e => rw [h1] at h; cases h
  | ok b1 => rw [h1] at h; rw [smallPushAll_or limit xs b1 b' h, (smallReserve_or limit b b1 n h1).1]

theorem smallWithCapacity_or (limit n : Nat) (b : Buf T) (h : smallWithCapacity limit n = .ok b) :
    b.items = [] ∧ n ≤ b.cap := by
  unfold smallWithCapacity at h
  split at h
  · cases h; exact ⟨rfl, by assumption⟩
  · split at h <;> cases h
    exact ⟨rfl, Nat.le_refl _⟩

theorem smallCollect_or (limit : Nat) (it : Hinted T) (b : Buf T) (h : smallCollect limit it = .ok b) :
    b.items = it.items := by
  simpa using smallExtend_or limit _ b _ _ h

theorem smallPrealloc_or (limit cap : Nat) (it : Hinted T) (b : Buf T) (h : smallPrealloc limit cap it = .ok b) :
    b.items = it.items := by
  unfold smallPrealloc at h
  cases h1 : (smallWithCapacity limit cap : Except Nat (Buf T)) with
  | error e => rw [h1] at h; cases h
  | ok b1 =>
    rw [h1] at h
    rw [smallExtend_or limit b1 b _ _ h, (smallWithCapacity_or limit cap b1 h1).1]; rfl

theorem smallPush_or (limit : Nat) (b b' : Buf T) (x : T) (h : smallPush limit b x = .ok b') :
    b'.items = b.items ++ [x] := by
  refine smallPushAll_or limit [x] b b' ?_
  simp [smallPushAll, h]

theorem filterMapLoop_or (limit : Nat) (f : T → Option U) (xs : List T) (b b' : Buf U)
    (h : filterMapLoop limit f b xs = .ok b') : b'.items = b.items ++ xs.filterMap f := by
  induction xs generalizing b with
  | nil => cases h; simp
  | cons x xs ih =>
    unfold filterMapLoop at h
    cases h1 : f x with
    | none => rw [h1] at h; rw [ih b h, List.filterMap_cons_none h1]
    | some y =>
      rw [h1] at h
      simp only at h
      cases h2 : vecPush limit b y with
      | error e => rw [h2] at h; cases h
      | ok b1 =>
        rw [h2] at h
        have : b1.items = b.items ++ [y] := by
          unfold vecPush at h2
          split at h2
          · simp only at h2; split at h2 <;> cases h2; rfl
          · cases h2; rfl
        rw [ih b1 h, this, List.filterMap_cons_some h1]; simp

theorem failsOr_map {b : Except Nat (Buf T)} (f : Buf T → X) (x : X) (h : ∀ c, b = .ok c → f c = x) :
    FailsOr (b.map f) x := by
  cases b with
  | error e => exact .inr ⟨e, rfl⟩
  | ok c => exact .inl (by simp [Except.map, h c rfl])

/-- C87: whatever the hint says, even against its contract, and however little room there is: a constructor that returns has
taken all the items, in order.  A wrong hint costs room or a failure, never an item. -/
theorem c87_all_or_nothing (limit : Nat) (item : T) (it : Hinted T) (f : T → Option U) (p : T → Bool) (g : T → U) :
    FailsOr (choiceNew limit item it) ⟨item :: it.items⟩ ∧
    FailsOr (choiceOfMany limit it) ⟨it.items⟩ ∧
    FailsOr (invalidMany limit it : Except Nat (Validated T A)) (.Invalid it.items) ∧
    (∀ r : Except Nat (Validated T A), invalidVec limit it = some r → FailsOr r (.Invalid it.items)) ∧
    FailsOr (filterMapCollect limit it f) (it.items.filterMap f) ∧
    FailsOr (filterMap' limit it p g) ((it.items.filter p).map g) := by
  have hfm : ∀ (f : T → Option U) n, FailsOr (match (vecWithCapacity limit n : Except Nat (Buf U)) with
      | .ok b => (filterMapLoop limit f b it.items).map (fun b => b.items)
      | .error e => .error e) (it.items.filterMap f) := by
    intro f n
    cases h : (vecWithCapacity limit n : Except Nat (Buf U)) with
    | error e => exact .inr ⟨e, rfl⟩
    | ok b =>
      refine failsOr_map _ _ fun c hc => ?_
      rw [filterMapLoop_or limit f it.items b c hc]
      unfold vecWithCapacity at h
      split at h <;> cases h
      rfl
  refine ⟨?_, ?_, ?_, ?_, hfm f _, ?_⟩
  · refine failsOr_map _ _ fun c hc => ?_
    unfold choiceNewBuf at hc
    cases h1 : (smallWithCapacity limit (choiceCapacity (it.hint 0).1 (it.hint 0).2) : Except Nat (Buf T)) with
    | error e => rw [h1] at hc; cases hc
    | ok b =>
      rw [h1] at hc
      simp only at hc
      cases h2 : smallPush limit b item with
      | error e => rw [h2] at hc; cases hc
      | ok b' =>
        rw [h2] at hc
        rw [smallExtend_or limit b' c _ _ hc, smallPush_or limit b b' item h2,
          (smallWithCapacity_or limit _ b h1).1]; rfl
  · refine failsOr_map _ _ fun c hc => ?_
    have := smallCollect_or limit it c hc
    split
    · next h => rw [← this, List.isEmpty_iff.1 h]; rfl
    · rw [this]
  · unfold invalidMany
    refine failsOr_map _ _ fun c hc => ?_
    have h1 := smallCollect_or limit it c
    have h2 := fun n => smallPrealloc_or limit n it c
    simp only [Validated.Invalid.injEq]
    split at hc
    · split at hc
      · split at hc
        · exact h1 hc
        · exact h2 _ hc
      · split at hc
        · exact h1 hc
        · exact h2 _ hc
    · split at hc
      · exact h1 hc
      · exact h2 _ hc
  · intro r hr
    unfold invalidVec at hr
    cases hi : it.items with
    | nil => rw [hi] at hr; cases hr
    | cons first rest =>
      rw [hi] at hr
      cases hr
      refine failsOr_map _ _ fun c hc => ?_
      unfold invalidVecBuf at hc
      cases h1 : (smallWithCapacity limit ((it.hint 1).1 + 1) : Except Nat (Buf T)) with
      | error e => rw [h1] at hc; cases hc
      | ok b =>
        rw [h1] at hc
        simp only at hc
        cases h2 : smallPush limit b first with
        | error e => rw [h2] at hc; cases hc
        | ok b' =>
          rw [h2] at hc
          rw [smallExtend_or limit b' c _ _ hc, smallPush_or limit b b' first h2,
            (smallWithCapacity_or limit _ b h1).1]; rfl
  · have h := hfm (fun a => if p a then some (g a) else none) (max ((it.hint 0).1 / 2) 8)
    have e : it.items.filterMap (fun a => if p a then some (g a) else none) = (it.items.filter p).map g := by
      induction it.items with
      | nil => rfl
      | cons x xs ih => by_cases hx : p x <;> simp [hx, ih]
    rw [e] at h
    exact h

/-- An iterator that promises a hundred items and yields nine. -/
example : FailsOr (choiceOfMany 20 ⟨[1, 2, 3, 4, 5, 6, 7, 8, 9], fun _ => (100, none)⟩) ⟨[1, 2, 3, 4, 5, 6, 7, 8, 9]⟩ :=
  (c87_all_or_nothing (U := Nat) (A := Nat) 20 0 _ some (fun _ => true) id).2.1

/-- C87: the capacity `Choice::new` asks for holds the first value and all the items the hint promises, and is at most that many,
or 9. -/
theorem c87_choice_capacity (lower : Nat) (upper : Option Nat) (h : ∀ u, upper = some u → lower ≤ u) :
    lower + 1 ≤ choiceCapacity lower upper ∧ choiceCapacity lower upper ≤ max (lower + 1) 9 := by
  unfold choiceCapacity
  cases upper with
  | none => simp only; omega
  | some u =>
    have := h u rfl
    simp only
    split
    · omega
    · split <;> omega

/-- A hint of three to five items: room for six. -/
example : (∀ u, some 5 = some u → 3 ≤ u) ∧ choiceCapacity 3 (some 5) = 6 := by decide

/-! ## Exactly how much room is needed -/

/-- The call returns. -/
def Returns (r : Except Nat X) : Prop := ∃ x, r = .ok x

theorem returns_map {r : Except Nat X} (f : X → U) : Returns (r.map f) ↔ Returns r := by
  cases r with
  | error e => exact ⟨(fun ⟨_, h⟩ => by cases h), (fun ⟨_, h⟩ => by cases h)⟩
  | ok x => exact ⟨fun _ => ⟨x, rfl⟩, fun _ => ⟨f x, rfl⟩⟩

theorem smallPushAll_fits (limit : Nat) (xs : List T) (b : Buf T) (h : b.items.length + xs.length ≤ b.cap) :
    smallPushAll limit b xs = .ok ⟨b.items ++ xs, b.cap⟩ := by
  induction xs generalizing b with
  | nil => simp [smallPushAll]
  | cons x xs ih =>
    simp only [List.length_cons] at h
    have h1 : smallPush limit b x = .ok ⟨b.items ++ [x], b.cap⟩ := by
      unfold smallPush; rw [if_neg (by omega)]
    simp only [smallPushAll, h1]
    rw [ih _ (by simp; omega)]
    simp

theorem smallExtend_fits (limit : Nat) (b : Buf T) (xs : List T) (h : b.items.length + xs.length ≤ b.cap) :
    smallExtend limit b xs.length xs = .ok ⟨b.items ++ xs, b.cap⟩ := by
  unfold smallExtend smallReserve
  rw [if_pos (by omega)]
  exact smallPushAll_fits limit xs b h

theorem returns_smallWithCapacity (limit n : Nat) (k : Buf T → Except Nat X) (hk : ∀ c, n ≤ c → Returns (k ⟨[], c⟩)) :
    Returns (match (smallWithCapacity limit n : Except Nat (Buf T)) with
      | .ok b => k b
      | .error e => .error e) ↔ n ≤ max 8 limit := by
  by_cases h : n ≤ max 8 limit
  · obtain ⟨c, h1, h2, _⟩ := smallWithCapacity_ok (T := T) limit n h
    rw [h1]
    exact ⟨fun _ => h, fun _ => hk c h2⟩
  · rw [smallWithCapacity_fails limit n (by omega)]
    exact ⟨(fun ⟨_, h⟩ => by cases h), fun h' => absurd h' h⟩

theorem filterMapLoop_iff (limit : Nat) (f : T → Option U) (xs : List T) (b : Buf U) (h4 : 4 ≤ b.cap)
    (hc : b.items.length ≤ b.cap) :
    Returns (filterMapLoop limit f b xs) ↔
      ∀ j, b.cap * 2 ^ j < b.items.length + (xs.filterMap f).length → b.cap * 2 ^ (j + 1) ≤ limit := by
  induction xs generalizing b with
  | nil =>
    refine ⟨fun _ j h => ?_, fun _ => ⟨b, rfl⟩⟩
    have : b.cap * 1 ≤ b.cap * 2 ^ j := Nat.mul_le_mul_left _ (Nat.one_le_two_pow)
    simp at h; omega
  | cons x xs ih =>
    unfold filterMapLoop
    cases hx : f x with
    | none => simp only [List.filterMap_cons_none hx]; exact ih b h4 hc
    | some y =>
      simp only [List.filterMap_cons_some hx, List.length_cons]
      by_cases hl : b.items.length = b.cap
      · have hm : max (max (2 * b.cap) (b.items.length + 1)) 4 = 2 * b.cap := by omega
        unfold vecPush
        simp only [if_pos hl, hm]
        by_cases hr : 2 * b.cap ≤ limit
        · rw [if_pos hr]
          simp only
          rw [ih _ (by simp; omega) (by simp; omega)]
          simp only [List.length_append, List.length_cons, List.length_nil]
          constructor
          · intro h j hj
            cases j with
            | zero => simpa [Nat.mul_comm] using hr
            | succ j =>
              have := h j (by rw [Nat.pow_succ] at hj; rw [Nat.mul_comm 2, Nat.mul_assoc, Nat.mul_comm 2]; omega)
              rw [Nat.mul_comm 2, Nat.mul_assoc, Nat.mul_comm 2, ← Nat.pow_succ] at this
              exact this
          · intro h j hj
            have := h (j + 1) (by
              rw [Nat.mul_comm 2, Nat.mul_assoc, Nat.mul_comm 2, ← Nat.pow_succ, Nat.succ_eq_add_one] at hj; omega)
            rw [Nat.mul_comm 2, Nat.mul_assoc, Nat.mul_comm 2, ← Nat.pow_succ]
            exact this
        · rw [if_neg hr]
          refine ⟨(fun ⟨_, h⟩ => by cases h), fun h => ?_⟩
          have := h 0 (by simp; omega)
          simp at this; omega
      · have hp : vecPush limit b y = .ok ⟨b.items ++ [y], b.cap⟩ := by
          unfold vecPush; rw [if_neg hl]
        simp only [hp]
        rw [ih ⟨b.items ++ [y], b.cap⟩ h4 (by simp; omega)]
        simp only [List.length_append, List.length_cons, List.length_nil]
        constructor <;> intro h j hj <;> exact h j (by omega)

/-- C87: of an iterator that knows its length `n` (a `Vec`, a slice, a range), exactly how much room a constructor needs.
`Choice::new` needs room for `n + 1`, `invalid_many` and `invalid_vec` for `n` (8 are inline); collecting into a `Choice` needs the
next power of two; the filtering helpers need half of `n` (at least 8), doubled as often as what is kept does not fit. -/
theorem c87_room_needed (limit : Nat) (item : T) (xs : List T) (f : T → Option U) :
    (Returns (choiceNew limit item (ofList xs)) ↔ xs.length + 1 ≤ max 8 limit) ∧
    (Returns (choiceOfMany limit (ofList xs)) ↔ xs.length ≤ 8 ∨ nextPow2 xs.length ≤ limit) ∧
    (Returns (invalidMany limit (ofList xs) : Except Nat (Validated T A)) ↔ xs.length ≤ max 8 limit) ∧
    (∀ r : Except Nat (Validated T A), invalidVec limit (ofList xs) = some r → (Returns r ↔ xs.length ≤ max 8 limit)) ∧
    (Returns (filterMapCollect limit (ofList xs) f) ↔
      let c := max (xs.length / 2) 8
      c ≤ limit ∧ ∀ j, c * 2 ^ j < (xs.filterMap f).length → c * 2 ^ (j + 1) ≤ limit) := by
  have hpush : ∀ (c : Nat) (x : T), 1 ≤ c → smallPush limit (⟨[], c⟩ : Buf T) x = .ok ⟨[x], c⟩ := by
    intro c x h
    unfold smallPush; rw [if_neg (by simp; omega)]; rfl
  have hcollect : Returns (smallCollect limit (ofList xs)) ↔ xs.length ≤ 8 ∨ nextPow2 xs.length ≤ limit := by
    unfold smallCollect
    simp only [ofList, Nat.sub_zero]
    by_cases h : xs.length ≤ 8
    · rw [smallExtend_fits limit _ xs (by simpa using h)]
      exact ⟨fun _ => .inl h, fun _ => ⟨_, rfl⟩⟩
    · unfold smallExtend smallReserve smallGrow
      simp only [List.length_nil, Nat.sub_zero, Nat.zero_add]
      rw [if_neg (by omega)]
      by_cases h2 : nextPow2 xs.length ≤ limit
      · rw [if_pos h2]
        simp only
        rw [smallPushAll_fits limit xs _ (by simpa using le_nextPow2 _)]
        exact ⟨fun _ => .inr h2, fun _ => ⟨_, rfl⟩⟩
      · rw [if_neg h2]
        exact ⟨(fun ⟨_, h⟩ => by cases h), fun h' => by omega⟩
  have hpre : Returns (smallPrealloc limit xs.length (ofList xs)) ↔ xs.length ≤ max 8 limit := by
    unfold smallPrealloc
    refine returns_smallWithCapacity limit xs.length _ fun c hc => ?_
    simp only [ofList, Nat.sub_zero]
    rw [smallExtend_fits limit _ xs (by simpa using hc)]
    exact ⟨_, rfl⟩
  refine ⟨?_, ?_, ?_, ?_, ?_⟩
  · unfold choiceNew choiceNewBuf
    rw [returns_map]
    have hcap : choiceCapacity ((ofList xs).hint 0).1 ((ofList xs).hint 0).2 = xs.length + 1 := by
      simp [ofList, choiceCapacity]
    rw [hcap]
    refine returns_smallWithCapacity limit _ _ fun c hc => ?_
    rw [hpush c item (by omega)]
    simp only [ofList, Nat.sub_zero]
    rw [smallExtend_fits limit _ xs (by simp; omega)]
    exact ⟨_, rfl⟩
  · unfold choiceOfMany
    rw [returns_map]; exact hcollect
  · unfold invalidMany
    simp only
    rw [returns_map]
    have e : ((ofList xs).hint 0).2 = some xs.length ∧ ((ofList xs).hint 0).1 = xs.length := by simp [ofList]
    rw [e.1, e.2]
    simp only [if_true]
    split
    · rw [hcollect]; omega
    · exact hpre
  · intro r hr
    unfold invalidVec at hr
    cases xs with
    | nil => cases hr
    | cons first rest =>
      cases hr
      rw [returns_map]
      unfold invalidVecBuf
      have e : ((ofList (first :: rest)).hint 1).1 = rest.length := by simp [ofList]
      rw [e, List.length_cons]
      refine returns_smallWithCapacity limit _ _ fun c hc => ?_
      rw [hpush c first (by omega)]
      simp only
      rw [smallExtend_fits limit _ rest (by simp; omega)]
      exact ⟨_, rfl⟩
  · unfold filterMapCollect vecWithCapacity
    have e : ((ofList xs).hint 0).1 = xs.length := by simp [ofList]
    rw [e]
    simp only
    by_cases h : max (xs.length / 2) 8 ≤ limit
    · rw [if_pos h]
      simp only
      rw [returns_map, filterMapLoop_iff limit f _ _ (by simp; omega) (by simp)]
      simp only [List.length_nil, Nat.zero_add]
      exact ⟨fun k => ⟨h, k⟩, fun k => k.2⟩
    · rw [if_neg h]
      exact ⟨(fun ⟨_, h⟩ => by cases h), fun h' => absurd h'.1 h⟩

/-- Collecting 9 items into a `Choice` needs room for 16, making it with `Choice::new` room for 9. -/
example : ¬ Returns (choiceOfMany 15 (ofList (List.range 9))) ∧ Returns (choiceNew 9 0 (ofList (List.range 8))) :=
  ⟨fun h => by
    have := ((c87_room_needed (U := Nat) (A := Nat) 15 0 (List.range 9) some).2.1).1 h
    revert this; decide, ((c87_room_needed (U := Nat) (A := Nat) 9 0 (List.range 8) some).1).2 (by decide)⟩

end Rustica.Alloc
