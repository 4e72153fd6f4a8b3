import Verif.Theorems.Async

/-!
# C101: a cancelled `AsyncM` has run a prefix of its effects

Dropping a future is the way to cancel it (`tokio::time::timeout`, `select!`, `JoinHandle::abort`).  A future can be
dropped before its first segment or between two segments, so a future that is dropped after `n` segments leaves the
world `Fut.segments n x w`.  The theorems hold for every `n`, whichever of these points the runtime really offers.
-/

namespace Rustica
open AsyncM

variable {σ σ' A B C E : Type}

namespace Fut

/-! ## How far a future has come -/

theorem segments_ret (n : Nat) (a : A) (w : σ) : segments n (.ret a) w = w := by cases n <;> rfl
theorem segments_panic (n : Nat) (p : Panic) (w : σ) : segments n (.panic p : Fut σ A) w = w := by cases n <;> rfl

theorem segments_all (x : Fut σ A) (w : σ) (n : Nat) (h : x.count w ≤ n) : segments n x w = (x.run w).2 := by
  induction x generalizing w n with
  | ret a => exact segments_ret n a w
  | panic p => exact segments_panic n p w
  | step upd k ih =>
    cases n with
    | zero => exact absurd h (Nat.not_succ_le_zero _)
    | succ n => exact ih w (upd w) n (Nat.le_of_succ_le_succ h)

/-- One future after another: nothing of the second one has happened before the first one is complete. -/
theorem segments_bind (x : Fut σ A) (f : A → Fut σ B) (w : σ) (n : Nat) :
    segments n (x.bind f) w =
      if n ≤ x.count w then segments n x w
      else match x.run w with
        | (.ok a, u) => segments (n - x.count w) (f a) u
        | (.error _, u) => u := by
  induction x generalizing w n with
  | ret a =>
    show segments n (f a) w = if n ≤ 0 then segments n (.ret a) w else segments n (f a) w
    cases n <;> rfl
  | panic p =>
    show segments n (.panic p) w = if n ≤ 0 then segments n (.panic p : Fut σ A) w else w
    cases n <;> rfl
  | step upd k ih =>
    cases n with
    | zero => rfl
    | succ n =>
      show segments n ((k w).bind f) (upd w) = _
      rw [ih]
      simp only [count, Nat.add_le_add_iff_right, segments, run, Nat.add_sub_add_right]

theorem segments_catch (x : Fut σ A) (w : σ) (n : Nat) : segments n x.catchUnwind w = segments n x w := by
  induction x generalizing w n with
  | ret a => exact (segments_ret n _ w).trans (segments_ret n _ w).symm
  | panic p => exact (segments_ret n _ w).trans (segments_panic n _ w).symm
  | step upd k ih =>
    cases n with
    | zero => rfl
    | succ n => exact ih w (upd w) n

theorem count_catch (x : Fut σ A) (w : σ) : x.catchUnwind.count w = x.count w := by
  induction x generalizing w with
  | ret a => rfl
  | panic p => rfl
  | step upd k ih => exact congrArg (· + 1) (ih w (upd w))

/-! ## Two futures side by side -/

theorem segments_onSnd_bind (y : Fut σ' B) (a : A) (w : σ) (w' : σ') (n : Nat) :
    segments n ((onSnd y : Fut (σ × σ') B).bind fun b => .ret (a, b)) (w, w') = (w, segments n y w') := by
  induction y generalizing w' n with
  | ret c => cases n <;> rfl
  | panic p => cases n <;> rfl
  | step upd k ih =>
    cases n with
    | zero => rfl
    | succ n => exact ih w' (upd w') n

theorem count_onSnd_bind (y : Fut σ' B) (a : A) (w : σ) (w' : σ') :
    ((onSnd y : Fut (σ × σ') B).bind fun b => .ret (a, b)).count (w, w') = y.count w' := by
  induction y generalizing w' with
  | ret c => rfl
  | panic p => rfl
  | step upd k ih => exact congrArg (· + 1) (ih w' (upd w'))

theorem segments_min (x : Fut σ A) (w : σ) (n : Nat) : segments (min n (x.count w)) x w = segments n x w := by
  by_cases h : n ≤ x.count w
  · rw [Nat.min_eq_left h]
  · rw [Nat.min_eq_right (by omega), segments_all x w _ (Nat.le_refl _), segments_all x w n (by omega)]

/-- Two parts that share nothing, dropped after `n` segments: each part has done some of its first segments, `n` in
all unless a panic has ended the pair. -/
theorem segments_join (x : Fut σ A) (y : Fut σ' B) (w : σ) (w' : σ') (s : List Bool) (n : Nat) :
    ∃ i j, segments n ((onFst x : Fut (σ × σ') A).join (onSnd y) s) (w, w') = (segments i x w, segments j y w') ∧
      i ≤ x.count w ∧ j ≤ y.count w' ∧ i + j ≤ n ∧
      (((∃ a, (x.run w).1 = .ok a) ∧ ∃ b, (y.run w').1 = .ok b) → i + j = min n (x.count w + y.count w')) := by
  induction x generalizing w y w' s n with
  | ret a =>
    refine ⟨0, min n (y.count w'), ?_, Nat.le_refl _, Nat.min_le_right _ _, ?_, fun _ => ?_⟩
    · rw [segments_min]; exact segments_onSnd_bind y a w w' n
    · rw [Nat.zero_add]; exact Nat.min_le_left _ _
    · simp [count]
  | panic p =>
    show ∃ i j, segments n (joinPanic p (onSnd y) s) (w, w') = _ ∧ _
    induction s generalizing y w' n with
    | nil =>
      refine ⟨0, 0, ?_, Nat.zero_le _, Nat.zero_le _, Nat.zero_le _, fun h => ?_⟩
      · cases y <;> exact segments_panic n p _
      · obtain ⟨⟨a, h⟩, _⟩ := h; cases h
    | cons c s ihs =>
      cases c with
      | false =>
        refine ⟨0, 0, ?_, Nat.zero_le _, Nat.zero_le _, Nat.zero_le _, fun h => ?_⟩
        · cases y <;> exact segments_panic n p _
        · obtain ⟨⟨a, h⟩, _⟩ := h; cases h
      | true =>
        cases y with
        | ret b =>
          refine ⟨0, 0, segments_panic n p _, Nat.zero_le _, Nat.zero_le _, Nat.zero_le _, fun h => ?_⟩
          obtain ⟨⟨a, h⟩, _⟩ := h; cases h
        | panic q =>
          refine ⟨0, 0, segments_panic n q _, Nat.zero_le _, Nat.zero_le _, Nat.zero_le _, fun h => ?_⟩
          obtain ⟨⟨a, h⟩, _⟩ := h; cases h
        | step upd' k' =>
          cases n with
          | zero => exact ⟨0, 0, rfl, Nat.zero_le _, Nat.zero_le _, Nat.zero_le _, fun _ => by simp⟩
          | succ n =>
            obtain ⟨i, j, h, hi, hj, hn, _⟩ := ihs (k' w') (upd' w') n
            refine ⟨i, j + 1, ?_, hi, Nat.succ_le_succ hj, Nat.succ_le_succ hn, fun h => ?_⟩
            · refine Eq.trans h ?_
              rw [segments_panic]; rfl
            · obtain ⟨⟨a, h⟩, _⟩ := h; cases h
  | step upd k ih =>
    show ∃ i j, segments n (joinStep _ (fun w => Fut.join (onFst (k w.1))) (onSnd y) s) (w, w') = _ ∧ _
    cases n with
    | zero =>
      exact ⟨0, 0, by cases s <;> rfl, Nat.zero_le _, Nat.zero_le _, Nat.zero_le _, fun _ => by simp⟩
    | succ n =>
      have go : ∀ s y w' n, ∃ i j, segments n ((onFst (k w) : Fut (σ × σ') A).join (onSnd y) s) (upd w, w')
          = (segments i (.step upd k) w, segments j y w') ∧ i ≤ (Fut.step upd k).count w ∧ j ≤ y.count w' ∧
            i + j ≤ n + 1 ∧ (((∃ a, ((Fut.step upd k).run w).1 = .ok a) ∧ ∃ b, (y.run w').1 = .ok b) →
              i + j = min (n + 1) ((Fut.step upd k).count w + y.count w')) := fun s y w' n => by
        obtain ⟨i, j, h, hi, hj, hn, he⟩ := ih w y (upd w) w' s n
        refine ⟨i + 1, j, h, Nat.succ_le_succ hi, hj, by omega, fun hh => ?_⟩
        have := he hh
        simp only [count]
        omega
      induction s generalizing y w' n with
      | nil => cases y <;> exact go [] _ w' n
      | cons c s ihs =>
        cases c with
        | false => cases y <;> exact go s _ w' n
        | true =>
          cases y with
          | ret b => exact go s (.ret b) w' n
          | panic q =>
            refine ⟨0, 0, segments_panic _ q _, Nat.zero_le _, Nat.zero_le _, Nat.zero_le _, fun h => ?_⟩
            obtain ⟨_, b, h⟩ := h; cases h
          | step upd' k' =>
            cases n with
            | zero =>
              refine ⟨0, 1, by cases s <;> rfl, Nat.zero_le _, ?_, Nat.le_refl _, fun _ => ?_⟩
              · exact Nat.succ_le_succ (Nat.zero_le _)
              · simp only [count]; omega
            | succ n =>
              obtain ⟨i, j, h, hi, hj, hn, he⟩ := ihs (k' w') (upd' w') n
              refine ⟨i, j + 1, h, hi, Nat.succ_le_succ hj, by omega, fun hh => ?_⟩
              have := he hh
              simp only [count] at this ⊢
              omega

/-- Two parts that share nothing and both finish: the pair takes as many segments as both. -/
theorem count_join (x : Fut σ A) (y : Fut σ' B) (w : σ) (w' : σ') (a : A) (u : σ) (b : B) (u' : σ')
    (hx : x.run w = (.ok a, u)) (hy : y.run w' = (.ok b, u')) (s : List Bool) :
    ((onFst x : Fut (σ × σ') A).join (onSnd y) s).count (w, w') = x.count w + y.count w' := by
  induction x generalizing w y w' s with
  | ret c =>
    refine Eq.trans (count_onSnd_bind y c w w') ?_
    exact (Nat.zero_add _).symm
  | panic p => cases hx
  | step upd k ih =>
    show (joinStep _ (fun w => Fut.join (onFst (k w.1))) (onSnd y) s).count (w, w') = _
    have go : ∀ s y w', y.run w' = (.ok b, u') →
        ((onFst (k w) : Fut (σ × σ') A).join (onSnd y) s).count (upd w, w') + 1
          = (Fut.step upd k).count w + y.count w' := fun s y w' hy => by
      rw [ih w y (upd w) w' hx hy s]; simp only [count]; omega
    induction s generalizing y w' with
    | nil => cases y <;> exact go [] _ w' hy
    | cons c s ihs =>
      cases c with
      | false => cases y <;> exact go s _ w' hy
      | true =>
        cases y with
        | ret d => exact go s (.ret d) w' hy
        | panic p => cases hy
        | step upd' k' =>
          refine Eq.trans (congrArg (· + 1) (ihs (k' w') (upd' w') hy)) ?_
          simp only [count]; omega

/-- If a part panics, so does the pair. -/
theorem join_error (x : Fut σ A) (y : Fut σ' B) (w : σ) (w' : σ') (s : List Bool)
    (h : ∀ a u b u', x.run w = (.ok a, u) → y.run w' = (.ok b, u') → False) :
    ∃ p v, ((onFst x : Fut (σ × σ') A).join (onSnd y) s).run (w, w') = (.error p, v) := by
  rcases hx : x.run w with ⟨rx, u⟩
  rcases hy : y.run w' with ⟨ry, u'⟩
  cases rx with
  | ok a =>
    cases ry with
    | ok b => exact (h a u b u' hx hy).elim
    | error q =>
      obtain ⟨n, e⟩ := run_join_panic_right x y w w' q u a u' hx hy s
      exact ⟨_, _, e⟩
  | error p =>
    cases ry with
    | ok b =>
      obtain ⟨n, e⟩ := run_join_panic_left x y w w' p u b u' hx hy s
      exact ⟨_, _, e⟩
    | error q =>
      obtain ⟨n, e⟩ := c45_both_panic s x y w u w' u' p q hx hy
      rw [e]
      split
      · exact ⟨_, _, rfl⟩
      · exact ⟨_, _, rfl⟩

/-- A pair and a function of both values, dropped after `n` segments. -/
theorem segments_join_bind (x : Fut σ A) (y : Fut σ' B) (f : A → B → Act (σ × σ') C) (w : σ) (w' : σ') (s : List Bool)
    (n : Nat) :
    (∃ i j, segments n (((onFst x : Fut (σ × σ') A).join (onSnd y) s).bind fun p => ofAct (f p.1 p.2)) (w, w')
        = (segments i x w, segments j y w') ∧ i ≤ x.count w ∧ j ≤ y.count w' ∧ i + j ≤ n ∧
        (((∃ a, (x.run w).1 = .ok a) ∧ ∃ b, (y.run w').1 = .ok b) → i + j = n)) ∨
      ∃ a u b u', x.run w = (.ok a, u) ∧ y.run w' = (.ok b, u') ∧ x.count w + y.count w' < n ∧
        segments n (((onFst x : Fut (σ × σ') A).join (onSnd y) s).bind fun p => ofAct (f p.1 p.2)) (w, w')
          = (f a b (u, u')).2 := by
  rw [segments_bind]
  by_cases hb : ∃ a u b u', x.run w = (.ok a, u) ∧ y.run w' = (.ok b, u')
  · obtain ⟨a, u, b, u', hx, hy⟩ := hb
    rw [count_join x y w w' a u b u' hx hy s]
    by_cases hn : n ≤ x.count w + y.count w'
    · left
      obtain ⟨i, j, h, hi, hj, hij, he⟩ := segments_join x y w w' s n
      refine ⟨i, j, ?_, hi, hj, hij, fun hh => ?_⟩
      · rw [if_pos hn]; exact h
      · rw [he hh]; exact Nat.min_eq_left hn
    · right
      refine ⟨a, u, b, u', hx, hy, by omega, ?_⟩
      rw [if_neg hn, run_join x y w w' a u b u' hx hy s]
      obtain ⟨k, hk⟩ : ∃ k, n - (x.count w + y.count w') = k + 1 := ⟨n - (x.count w + y.count w') - 1, by omega⟩
      rw [hk]
      show segments k (match (f a b (u, u')).1 with | .ok c => .ret c | .error p => .panic p) (f a b (u, u')).2 = _
      cases (f a b (u, u')).1 with
      | ok c => exact segments_ret k _ _
      | error p => exact segments_panic k _ _
  · left
    have hno : ¬ ((∃ a, (x.run w).1 = .ok a) ∧ ∃ b, (y.run w').1 = .ok b) := by
      rintro ⟨⟨a, ha⟩, b, hb'⟩
      exact hb ⟨a, _, b, _, Prod.ext ha rfl, Prod.ext hb' rfl⟩
    split
    · obtain ⟨i, j, h, hi, hj, hij, _⟩ := segments_join x y w w' s n
      exact ⟨i, j, h, hi, hj, hij, fun hh => absurd hh hno⟩
    · rename_i hn
      obtain ⟨p, v, hr⟩ := join_error x y w w' s fun a u b u' hx hy => hb ⟨a, u, b, u', hx, hy⟩
      obtain ⟨i, j, h, hi, hj, hij, _⟩ :=
        segments_join x y w w' s (((onFst x : Fut (σ × σ') A).join (onSnd y) s).count (w, w'))
      rw [segments_all _ _ _ (Nat.le_refl _), hr] at h
      refine ⟨i, j, ?_, hi, hj, by omega, fun hh => absurd hh hno⟩
      rw [hr]; exact h

/-! ## Parts that share their world -/

/-- Specification: every segment of the future takes the world, whatever it is by then, to a world related to it
by `R`, and every value it can end with has the property `P`. -/
inductive Only (R : σ → σ → Prop) (P : A → Prop) : Fut σ A → Prop
  | ret {a : A} : P a → Only R P (.ret a)
  | panic (p : Panic) : Only R P (.panic p)
  | step {upd : σ → σ} {k : σ → Fut σ A} : (∀ w, R w (upd w)) → (∀ w, Only R P (k w)) → Only R P (.step upd k)

variable {R : σ → σ → Prop} {P : A → Prop} {Q : B → Prop}

theorem Only.bind {x : Fut σ A} {f : A → Fut σ B} (hx : Only R P x) (hf : ∀ a, P a → Only R Q (f a)) :
    Only R Q (x.bind f) := by
  induction hx with
  | ret h => exact hf _ h
  | panic p => exact .panic p
  | step hu _ ih => exact .step hu ih

theorem Only.catch {x : Fut σ A} (hx : Only R P x) : Only R (fun _ => True) x.catchUnwind := by
  induction hx with
  | ret h => exact .ret trivial
  | panic p => exact .ret trivial
  | step hu _ ih => exact .step hu ih

theorem Only.ofAct {m : Act σ A} (h : ∀ w, R w (m w).2) : Only R (fun _ => True) (Fut.ofAct m) :=
  .step h fun w => by
    cases (m w).1 with
    | ok a => exact .ret trivial
    | error p => exact .panic p

theorem Only.join {x : Fut σ A} {y : Fut σ B} (hx : Only R P x) (hy : Only R Q y) :
    ∀ s, Only R (fun p => P p.1 ∧ Q p.2) (x.join y s) := by
  induction hx generalizing y with
  | ret h => intro s; exact hy.bind fun _ h' => .ret ⟨h, h'⟩
  | panic p =>
    intro s
    show Only R _ (joinPanic p y s)
    induction s generalizing y with
    | nil => cases y <;> exact .panic p
    | cons c s ihs =>
      cases c with
      | false => cases y <;> exact .panic p
      | true =>
        cases hy with
        | ret h => exact .panic p
        | panic q => exact .panic q
        | step hu hk => exact .step hu fun w => ihs (hk w)
  | @step upd k hu _ ih =>
    intro s
    show Only R _ (joinStep upd (fun w => Fut.join (k w)) y s)
    induction s generalizing y with
    | nil => cases y <;> exact .step hu fun w => ih w hy []
    | cons c s ihs =>
      cases c with
      | false => cases y <;> exact .step hu fun w => ih w hy s
      | true =>
        cases hy with
        | ret h => exact .step hu fun w => ih w (.ret h) s
        | panic q => exact .panic q
        | step hu' hk => exact .step hu' fun w => ihs (hk w)

theorem Only.segments {x : Fut σ A} (hx : Only R P x) (hr : ∀ w, R w w) (ht : ∀ u v w, R u v → R v w → R u w)
    (w : σ) (n : Nat) : R w (segments n x w) := by
  induction hx generalizing w n with
  | ret h => rw [segments_ret]; exact hr w
  | panic p => rw [segments_panic]; exact hr w
  | step hu _ ih =>
    cases n with
    | zero => exact hr w
    | succ n => exact ht _ _ _ (hu w) (ih w _ n)

theorem Only.mono {x : Fut σ A} (hx : Only R P x) (hr : ∀ w, R w w) (ht : ∀ u v w, R u v → R v w → R u w)
    (w : σ) (i j : Nat) (h : i ≤ j) : R (Fut.segments i x w) (Fut.segments j x w) := by
  induction hx generalizing w i j with
  | ret h => rw [segments_ret, segments_ret]; exact hr w
  | panic p => rw [segments_panic, segments_panic]; exact hr w
  | step hu hk ih =>
    cases i with
    | zero => exact (Only.step hu hk).segments hr ht w j
    | succ i =>
      cases j with
      | zero => exact absurd h (Nat.not_succ_le_zero _)
      | succ j => exact ih w _ i j (Nat.le_of_succ_le_succ h)

end Fut

/-! ## C101 -/

namespace AsyncM

/-- Specification: the world when the future of `try_get` is dropped after `n` segments. -/
def cancelled (m : AsyncM σ A) (n : Nat) (w : σ) : σ := m.tryGet.segments n w

/-- Specification: how many segments awaiting `m` takes. -/
def length (m : AsyncM σ A) (w : σ) : Nat := m.tryGet.count w

end AsyncM

/-- A computation that is dropped before its first segment has done nothing; one dropped after its last segment has
done everything. -/
theorem c101_ends (m : AsyncM σ A) (n : Nat) (w : σ) :
    m.cancelled 0 w = w ∧ (m.length w ≤ n → m.cancelled n w = (m.tryGet.run w).2) :=
  ⟨rfl, Fut.segments_all m.tryGet w n⟩

/-- Not vacuous: a computation that writes twice, dropped after none, one and two segments. -/
example :
    let m : AsyncM (List Nat) Nat := .new (.step (· ++ [1]) fun _ => .step (· ++ [2]) fun _ => .ret 5)
    m.length [] = 2 ∧ m.cancelled 0 [] = [] ∧ m.cancelled 1 [] = [1] ∧ m.cancelled 2 [] = [1, 2] := by decide

/-- `fmap`, `bind` and their owned variants, dropped after `n` segments: as long as `m` itself is not through, exactly
`m` dropped after `n` segments, and nothing of the function has happened; after that, the effects of all of `m` and of
what the function returned, dropped after the remaining segments.  If `m` panics the function never runs. -/
theorem c101_sequential (m : AsyncM σ A) (f : A → Fut σ B) (g : A → Fut σ (AsyncM σ B)) (n : Nat) (w : σ) :
    (n ≤ m.length w → (m.fmap f).cancelled n w = m.cancelled n w ∧ (m.fmapOwned f).cancelled n w = m.cancelled n w ∧
      (m.bind g).cancelled n w = m.cancelled n w ∧ (m.bindOwned g).cancelled n w = m.cancelled n w) ∧
    (∀ k a u, n = m.length w + k → m.tryGet.run w = (.ok a, u) →
      (m.fmap f).cancelled n w = (AsyncM.new (f a)).cancelled k u ∧
      (m.fmapOwned f).cancelled n w = (AsyncM.new (f a)).cancelled k u ∧
      (m.bind g).cancelled n w = ((AsyncM.new (g a)).bind .ret).cancelled k u ∧
      (m.bindOwned g).cancelled n w = ((AsyncM.new (g a)).bind .ret).cancelled k u) ∧
    (∀ p u, m.length w ≤ n → m.tryGet.run w = (.error p, u) →
      (m.fmap f).cancelled n w = u ∧ (m.fmapOwned f).cancelled n w = u ∧ (m.bind g).cancelled n w = u ∧
      (m.bindOwned g).cancelled n w = u) := by
  obtain ⟨e1, e2, e3, e4⟩ := c45_sequential m f g
  have e5 : ∀ a, ((AsyncM.new (g a)).bind .ret).tryGet = (g a).bind tryGet := fun a =>
    (c45_sequential (AsyncM.new (g a)) (fun _ => (.panic .other : Fut σ B)) .ret).2.2.1
  have key : ∀ {D : Type} (h : A → Fut σ D),
      (n ≤ m.length w → (m.tryGet.bind h).segments n w = m.cancelled n w) ∧
      (∀ k a u, n = m.length w + k → m.tryGet.run w = (.ok a, u) →
        (m.tryGet.bind h).segments n w = (h a).segments k u) ∧
      (∀ p u, m.length w ≤ n → m.tryGet.run w = (.error p, u) → (m.tryGet.bind h).segments n w = u) := by
    intro D h
    refine ⟨fun hn => ?_, fun k a u hn hr => ?_, fun p u hn hr => ?_⟩
    · rw [Fut.segments_bind]; exact if_pos hn
    · rw [Fut.segments_bind]
      have hall := Fut.segments_all m.tryGet w n
      unfold AsyncM.length at hn
      split
      · rename_i hle
        rw [hall (by omega), hr, show k = 0 by omega]; rfl
      · rw [hr, hn, Nat.add_sub_cancel_left]
    · rw [Fut.segments_bind]
      have hall := Fut.segments_all m.tryGet w n hn
      split
      · rw [hall, hr]
      · rw [hr]
  unfold AsyncM.cancelled
  rw [e1, e2, e3, e4]
  refine ⟨fun hn => ?_, fun k a u hn hr => ?_, fun p u hn hr => ?_⟩
  · exact ⟨(key _).1 hn, (key _).1 hn, (key _).1 hn, (key _).1 hn⟩
  · rw [e5]
    exact ⟨(key _).2.1 k a u hn hr, (key _).2.1 k a u hn hr, (key _).2.1 k a u hn hr, (key _).2.1 k a u hn hr⟩
  · exact ⟨(key _).2.2 p u hn hr, (key _).2.2 p u hn hr, (key _).2.2 p u hn hr, (key _).2.2 p u hn hr⟩

/-- Not vacuous: two writes, then a function that writes; dropped after two segments the function has not written,
dropped after three it has. -/
example :
    let m : AsyncM (List Nat) Nat := .new (.step (· ++ [1]) fun _ => .step (· ++ [2]) fun _ => .ret 5)
    let f : Nat → Fut (List Nat) Nat := fun a => .step (· ++ [a]) fun _ => .ret 0
    (m.fmap f).cancelled 2 [] = [1, 2] ∧ (m.fmap f).cancelled 3 [] = [1, 2, 5] := by decide

/-- `zip_with`, `apply` and `apply_owned` of two parts that share no data, dropped after `n` segments, under every
schedule: either each part has done some of its first segments and the function has not been called, or both parts are
through and the function has been called once.  Without panics the segments of the two parts add up to `n`. -/
theorem c101_joined (s : List Bool) (x : Fut σ A) (y : Fut σ' B) (z : Fut σ' (A → Act (σ × σ') C))
    (f : A → B → Act (σ × σ') C) (n : Nat) (w : σ) (w' : σ') :
    (∃ r, ((AsyncM.Effect x.onFst).zipWith s (.Effect y.onSnd) f) (w, w') = (.ok r, (w, w')) ∧
      ((∃ i j, r.cancelled n (w, w') = (x.segments i w, y.segments j w') ∧ i ≤ x.count w ∧ j ≤ y.count w' ∧
          i + j ≤ n ∧ (((∃ a, (x.run w).1 = .ok a) ∧ ∃ b, (y.run w').1 = .ok b) → i + j = n)) ∨
        ∃ a u b u', x.run w = (.ok a, u) ∧ y.run w' = (.ok b, u') ∧ x.count w + y.count w' < n ∧
          r.cancelled n (w, w') = (f a b (u, u')).2)) ∧
    (∃ r, ((AsyncM.Effect x.onFst).apply s (.Effect z.onSnd)) (w, w') = (.ok r, (w, w')) ∧
      r.tryGet = ((AsyncM.Effect x.onFst).applyOwned s (.Effect z.onSnd)).tryGet ∧
      ((∃ i j, r.cancelled n (w, w') = (x.segments i w, z.segments j w') ∧ i ≤ x.count w ∧ j ≤ z.count w' ∧
          i + j ≤ n ∧ (((∃ a, (x.run w).1 = .ok a) ∧ ∃ g, (z.run w').1 = .ok g) → i + j = n)) ∨
        ∃ a u g u', x.run w = (.ok a, u) ∧ z.run w' = (.ok g, u') ∧ x.count w + z.count w' < n ∧
          r.cancelled n (w, w') = (g a (u, u')).2)) :=
  ⟨⟨_, rfl, Fut.segments_join_bind x y f w w' s n⟩,
    ⟨_, rfl, rfl, Fut.segments_join_bind x z (fun a g => g a) w w' s n⟩⟩

/-- Not vacuous: each part writes twice into its own log; under one schedule three segments are two of the first part
and one of the second, under another one and two, and the function that writes has not run. -/
example :
    let x : Fut (List Nat) Nat := .step (· ++ [1]) fun _ => .step (· ++ [2]) fun _ => .ret 5
    let m (s : List Bool) : AsyncM (List Nat × List Nat) Nat :=
      .Effect ((x.onFst.join x.onSnd s).bind fun p => Fut.ofAct fun w => (.ok (p.1 + p.2), ([], w.2)))
    (m []).cancelled 3 ([], []) = ([1, 2], [1]) ∧ (m [true, true]).cancelled 3 ([], []) = ([1], [1, 2]) ∧
    (m []).cancelled 5 ([], []) = ([], [1, 2]) := by decide

/-- `recover_with` and `from_result_or_default` add no effect of their own at any point: dropped after `n` segments
they leave what the computation itself leaves, and they take as many segments.  A dropped computation is not a failed
one: the default is only returned at the end. -/
theorem c101_recover (m : AsyncM σ A) (x : Fut σ (Except E A)) (d : A) (n : Nat) (w : σ) :
    (m.recoverWith d).cancelled n w = m.cancelled n w ∧ (m.recoverWith d).length w = m.length w ∧
    (fromResultOrDefault x d).cancelled n w = x.segments n w ∧ (fromResultOrDefault x d).length w = x.count w := by
  have hside : side m = m.tryGet := by cases m <;> rfl
  have seg : ∀ {D F : Type} (x : Fut σ D) (f : D → Fut σ F) (_ : ∀ a, (∃ b, f a = .ret b)) (n : Nat) (w : σ),
      (x.bind f).segments n w = x.segments n w ∧ (x.bind f).count w = x.count w := by
    intro D F x f hf n w
    induction x generalizing n w with
    | ret a =>
      obtain ⟨b, hb⟩ := hf a
      show (f a).segments n w = _ ∧ (f a).count w = 0
      rw [hb, Fut.segments_ret, Fut.segments_ret]; exact ⟨rfl, rfl⟩
    | panic p => exact ⟨(Fut.segments_panic n p w).trans (Fut.segments_panic n p w).symm, rfl⟩
    | step upd k ih =>
      refine ⟨?_, congrArg (· + 1) (ih w 0 (upd w)).2⟩
      cases n with
      | zero => rfl
      | succ n => exact (ih w n (upd w)).1
  have h1 := seg m.tryGet.catchUnwind (fun result => match result with
    | .ok value => .ret value
    | .error _ => .ret d) (fun a => by cases a <;> exact ⟨_, rfl⟩) n w
  have h2 := seg x (fun result => match result with
    | .ok value => .ret value
    | .error _ => .ret d) (fun a => by cases a <;> exact ⟨_, rfl⟩) n w
  rw [Fut.segments_catch, Fut.count_catch] at h1
  rw [← hside] at h1
  refine ⟨h1.1.trans ?_, h1.2.trans ?_, h2.1, h2.2⟩ <;> rw [hside] <;> rfl

/-- Specification: every segment of `m` adds to the world in the sense of `R`. -/
abbrev AsyncM.Adds (R : σ → σ → Prop) (m : AsyncM σ A) : Prop := Fut.Only R (fun _ => True) m.tryGet

/-- Parts that share their world, under every schedule: if every segment of the parts and of the functions they return
or are given only adds to the world (`R`: any reflexive and transitive relation, such as "is a prefix of" for a log),
then what a shorter run leaves is contained in what a longer one leaves, and in what the complete run leaves. -/
theorem c101_prefix (R : σ → σ → Prop) (hr : ∀ w, R w w) (ht : ∀ u v w, R u v → R v w → R u w) (s : List Bool)
    (m : AsyncM σ A) (m' : AsyncM σ B) (mf : AsyncM σ (A → Act σ C)) (f : A → Fut σ B) (g : A → Fut σ (AsyncM σ B))
    (h : A → B → Act σ C) (d : A) (hm : m.Adds R) (hm' : m'.Adds R)
    (hmf : Fut.Only R (fun k => ∀ a w, R w (k a w).2) mf.tryGet) (hf : ∀ a, Fut.Only R (fun _ => True) (f a))
    (hg : ∀ a, Fut.Only R (fun r => r.Adds R) (g a)) (hh : ∀ a b w, R w (h a b w).2) (i j : Nat) (hij : i ≤ j)
    (w : σ) :
    let grows {D : Type} (r : AsyncM σ D) : Prop :=
      R (r.cancelled i w) (r.cancelled j w) ∧ R (r.cancelled i w) (r.tryGet.run w).2
    grows (m.fmap f) ∧ grows (m.fmapOwned f) ∧ grows (m.bind g) ∧ grows (m.bindOwned g) ∧
    grows (m.recoverWith d) ∧ grows (m.applyOwned s mf) ∧
    (∀ v v' r, m.apply s mf v = (.ok r, v') → grows r) ∧ (∀ v v' r, m.zipWith s m' h v = (.ok r, v') → grows r) := by
  intro grows
  obtain ⟨e1, e2, e3, e4⟩ := c45_sequential m f g
  have key : ∀ {D : Type} (r : AsyncM σ D), r.Adds R → grows r := by
    intro D r h
    refine ⟨h.mono hr ht w i j hij, ?_⟩
    have e := Fut.segments_all r.tryGet w (max i (r.tryGet.count w)) (Nat.le_max_right _ _)
    rw [← e]
    exact h.mono hr ht w i _ (Nat.le_max_left _ _)
  have hside : ∀ {D : Type} (r : AsyncM σ D), side r = r.tryGet := fun r => by cases r <;> rfl
  have hbind : Fut.Only R (fun _ => True) (m.tryGet.bind fun a => (g a).bind tryGet) :=
    Fut.Only.bind hm fun a _ => Fut.Only.bind (hg a) fun _ h => h
  have happ : Fut.Only R (fun _ => True) (((side m).join (side mf) s).bind fun p => Fut.ofAct (p.2 p.1)) := by
    rw [hside, hside]
    exact Fut.Only.bind (Fut.Only.join hm hmf s) fun p h => .ofAct (h.2 _)
  have hzip : Fut.Only R (fun _ => True) (((side m).join (side m') s).bind fun p => Fut.ofAct (h p.1 p.2)) := by
    rw [hside, hside]
    exact Fut.Only.bind (Fut.Only.join hm hm' s) fun p _ => .ofAct (hh _ _)
  refine ⟨key _ ?_, key _ ?_, key _ ?_, key _ ?_, key _ ?_, key _ happ, fun v v' r hr' => ?_, fun v v' r hr' => ?_⟩
  · rw [AsyncM.Adds, e1]; exact Fut.Only.bind hm fun a _ => hf a
  · rw [AsyncM.Adds, e2]; exact Fut.Only.bind hm fun a _ => hf a
  · rw [AsyncM.Adds, e3]; exact hbind
  · rw [AsyncM.Adds, e4]; exact hbind
  · refine Fut.Only.bind (Fut.Only.catch (P := fun _ => True) (by rw [hside]; exact hm)) fun a _ => ?_
    cases a <;> exact .ret trivial
  · cases m with
    | Effect x => cases hr'; exact key _ happ
    | Pure a =>
      cases mf with
      | Effect y => cases hr'; exact key _ happ
      | Pure k =>
        simp only [AsyncM.apply, Act.seq] at hr'
        split at hr'
        · cases hr'; exact key _ (.ret trivial)
        · cases hr'
  · cases m with
    | Effect x => cases hr'; exact key _ hzip
    | Pure a =>
      cases m' with
      | Effect y => cases hr'; exact key _ hzip
      | Pure b =>
        simp only [AsyncM.zipWith, Act.seq] at hr'
        split at hr'
        · cases hr'; exact key _ (.ret trivial)
        · cases hr'

/-- Not vacuous: two parts that write to one log, joined by a function that writes to it too; whatever the schedule,
what is in the log when the pair is dropped is a prefix of what is in it later. -/
example (s : List Bool) (i j : Nat) (hij : i ≤ j) (w v v' : List Nat) (r : AsyncM (List Nat) Nat)
    (hr : (AsyncM.new (.step (· ++ [1]) fun _ => .step (· ++ [2]) fun _ => .ret 5)).zipWith s
      (AsyncM.new (.step (· ++ [3]) fun _ => .ret 6)) (fun a b w => (.ok (a + b), w ++ [a])) v = (.ok r, v')) :
    r.cancelled i w <+: r.cancelled j w ∧ r.cancelled i w <+: (r.tryGet.run w).2 :=
  (c101_prefix (· <+: ·) List.prefix_refl (fun _ _ _ => List.IsPrefix.trans) s
    (AsyncM.new (.step (· ++ [1]) fun _ => .step (· ++ [2]) fun _ => .ret 5))
    (AsyncM.new (.step (· ++ [3]) fun _ => .ret 6)) (AsyncM.pure fun _ => Act.ret 0) (fun _ => .ret 0)
    (fun _ => .ret (AsyncM.pure 0)) (fun a b w => (.ok (a + b), w ++ [a])) 0
    (.step (fun w => List.prefix_append w _) fun _ => .step (fun w => List.prefix_append w _) fun _ => .ret trivial)
    (.step (fun w => List.prefix_append w _) fun _ => .ret trivial) (.ret fun _ w => List.prefix_refl w)
    (fun _ => .ret trivial) (fun _ => .ret (.ret trivial)) (fun a _ w => List.prefix_append w [a]) i j hij w).2.2.2.2.2.2.2
    v v' r hr

/-- What building does: `zip_with` and `apply` touch the world only when both parts are pure values, and then they
do all that the function does.  (`new`, `pure`, `fmap`, `bind`, `recover_with`, `from_result_or_default`, the owned
variants and `zip` call nothing when they build: in the model they are plain values.) -/
theorem c101_building (s : List Bool) (m : AsyncM σ A) (n : AsyncM σ B) (mf : AsyncM σ (A → Act σ C))
    (f : A → B → Act σ C) (w : σ) :
    ((m.zipWith s n f) w).2 = (match m, n with
      | .Pure a, .Pure b => (f a b w).2
      | _, _ => w) ∧
    ((m.apply s mf) w).2 = (match m, mf with
      | .Pure a, .Pure k => (k a w).2
      | _, _ => w) ∧
    ((m.zip s n) w).2 = w := by
  have act : ∀ {D : Type} (q : Act σ D) (w : σ),
      ((q.seq fun result => Act.ret (AsyncM.pure (σ := σ) result)) w).2 = (q w).2 := by
    intro D q w
    simp only [Act.seq]
    rcases q w with ⟨_ | _, _⟩ <;> rfl
  refine ⟨?_, ?_, ?_⟩
  · cases m <;> cases n <;> first | exact act _ w | rfl
  · cases m <;> cases mf <;> first | exact act _ w | rfl
  · cases m <;> cases n <;> rfl

/-- A computation that is built and never awaited has no effect, if one of the two parts of `zip_with` and `apply` is
not a pure value.  Partial: for two pure values it is false (`c101_eager`). -/
theorem c101_unawaited_partial (s : List Bool) (m : AsyncM σ A) (n : AsyncM σ B) (mf : AsyncM σ (A → Act σ C))
    (f : A → B → Act σ C) (x : Fut σ A) (y : Fut σ B) (z : Fut σ (A → Act σ C)) (w : σ) :
    ((m.zipWith s (.Effect y) f) w).2 = w ∧ (((AsyncM.Effect x).zipWith s n f) w).2 = w ∧
    ((m.apply s (.Effect z)) w).2 = w ∧ (((AsyncM.Effect x).apply s mf) w).2 = w := by
  refine ⟨?_, rfl, ?_, rfl⟩ <;> cases m <;> rfl

/-- `pure(1).zip_with(pure(2), f)` and `pure(1).apply(pure(f))` run `f` when they are built: its effects happen
although nothing is ever awaited, and awaiting the result later does not repeat them.  `apply_owned` waits for the
await; with one part made by `new` nothing happens before the first await, and every await repeats the effects of
`f`. -/
theorem c101_eager :
    ∃ (f : Nat → Nat → Act (List Nat) Nat) (r r' : AsyncM (List Nat) Nat),
      (AsyncM.pure 1).zipWith [] (AsyncM.pure 2) f [] = (.ok r, [12]) ∧
      ((AsyncM.pure 1).apply [] (AsyncM.pure fun a => f a 2) []).2 = [12] ∧
      (∀ n, r.cancelled n [12] = [12]) ∧
      ((AsyncM.pure 1).applyOwned [] (AsyncM.pure fun a => f a 2)).cancelled 0 [] = [] ∧
      (AsyncM.pure 1).zipWith [] (AsyncM.new (.ret 2)) f [] = (.ok r', []) ∧
      r'.cancelled 0 [] = [] ∧ (r'.tryGet.run []).2 = [12] ∧ (r'.tryGet.run [12]).2 = [12, 12] :=
  ⟨fun a b w => (.ok (a + b), w ++ [10 * a + b]), _, _, rfl, rfl, fun n => Fut.segments_ret n _ _, rfl, rfl, rfl, rfl,
    rfl⟩

end Rustica
