import Verif.Effect.MemoUse
import Verif.Effect.Memoizer

/-!
# The laws that `Memoizer` documents, for one thread and any closures (C91)
-/

namespace Rustica
namespace MemoProg
variable {σ K V R : Type}
open MemoWorld

/-- The run of `p` from `s` calls memoizer `m`. -/
def Touches [DecidableEq K] (p : MemoProg σ K V R) (s : MemoWorld σ K V) (m : Nat) : Prop :=
  s.used.count m < (p.run s).2.used.count m

instance [DecidableEq K] (p : MemoProg σ K V R) (s : MemoWorld σ K V) (m : Nat) : Decidable (Touches p s m) :=
  inferInstanceAs (Decidable (_ < _))

/-- A memoizer that can be called: not poisoned and not in use by a closure that is running. -/
def Free (s : MemoWorld σ K V) (m : Nat) : Prop := (s.memos m).held = false ∧ (s.memos m).poisoned = false

/-! ## Lemmas on the steps -/

section
variable (s : MemoWorld σ K V) (m n : Nat)

theorem upd_same (g : MemoCell K V → MemoCell K V) : (s.upd m g).memos m = g (s.memos m) := by simp [upd]
theorem upd_other (g : MemoCell K V → MemoCell K V) (h : n ≠ m) : (s.upd m g).memos n = s.memos n := by
  simp [upd, h]
theorem upd_comm (g g' : MemoCell K V → MemoCell K V) (h : n ≠ m) :
    (s.upd m g).upd n g' = (s.upd n g').upd m g := by
  have : (fun i => if i = n then g' (if i = m then g (s.memos i) else s.memos i) else if i = m then g (s.memos i)
      else s.memos i) = (fun i => if i = m then g (if i = n then g' (s.memos i) else s.memos i) else if i = n
      then g' (s.memos i) else s.memos i) := by
    funext i
    by_cases hi : i = n
    · have : i ≠ m := fun e => h (hi.symm.trans e)
      simp [hi, h]
    · simp [hi]
  simp only [upd, this]
theorem upd_id (g : MemoCell K V → MemoCell K V) (h : g (s.memos m) = s.memos m) : s.upd m g = s := by
  have : (fun i => if i = m then g (s.memos i) else s.memos i) = s.memos := by
    funext i
    by_cases hi : i = m
    · rw [if_pos hi, hi, h]
    · rw [if_neg hi]
  simp only [upd, this]
end

theorem pair_eta {A B : Type} {x : A × B} {a : A} (h : x.1 = a) : x = (a, x.2) := by cases x; cases h; rfl

theorem count_note (s : MemoWorld σ K V) {m n : Nat} (h : n ≠ m) : (s.note n).used.count m = s.used.count m := by
  simp [note, h]

theorem count_note_self (s : MemoWorld σ K V) (m : Nat) : (s.note m).used.count m = s.used.count m + 1 := by
  simp [note]

theorem hold_other (s : MemoWorld σ K V) {m n : Nat} (h : n ≠ m) : (s.hold m).memos n = s.memos n := upd_other _ _ _ _ h

theorem hold_self (s : MemoWorld σ K V) (m : Nat) : ((s.hold m).memos m).held = true := by rw [hold, upd_same]

theorem hold_upd (s : MemoWorld σ K V) {m n : Nat} (g : MemoCell K V → MemoCell K V) (h : n ≠ m) :
    (s.hold m).upd n g = (s.upd n g).hold m := upd_comm s m n _ _ h

variable [DecidableEq K]

/-- The log only grows. -/
theorem used_le (p : MemoProg σ K V R) (s : MemoWorld σ K V) (m : Nat) : s.used.count m ≤ (p.run s).2.used.count m := by
  induction p generalizing s with
  | ret r => exact Nat.le_refl _
  | panic => exact Nat.le_refl _
  | act f next ih => exact ih _ { s with world := (f s.world).2 }
  | get n k f next ihf ihn =>
    have h0 : s.used.count m ≤ (s.note n).used.count m := by
      simp only [note, List.count_cons]; exact Nat.le_add_right _ _
    rw [run]
    split
    · exact h0
    split
    · exact h0
    split
    · exact Nat.le_trans h0 (ihn _ _)
    · have h1 : s.used.count m ≤ ((f k).run ((s.note n).hold n)).2.used.count m := Nat.le_trans h0 (ihf k ((s.note n).hold n))
      split
      next v s' he => rw [he] at h1; exact Nat.le_trans h1 (ihn v ((s'.insert n k v).drop n))
      next s' he => rw [he] at h1; exact h1
      next s' he => rw [he] at h1; exact h1
  | clear n next ih =>
    have h0 : s.used.count m ≤ (s.note n).used.count m := by
      simp only [note, List.count_cons]; exact Nat.le_add_right _ _
    rw [run]
    split
    · exact h0
    split
    · exact h0
    · exact Nat.le_trans h0 (ih ((s.note n).wipe n))
  | attempt p next ihp ihn =>
    have h1 := ihp s
    rw [run]
    split
    next a s' he => rw [he] at h1; exact Nat.le_trans h1 (ihn _ s')
    next s' he => rw [he] at h1; exact Nat.le_trans h1 (ihn _ s')
    next s' he => rw [he] at h1; exact h1

theorem get_touches (n : Nat) (k : K) (f : K → MemoProg σ K V V) (next : V → MemoProg σ K V R) (s : MemoWorld σ K V) :
    s.used.count n < ((MemoProg.get n k f next).run s).2.used.count n := by
  have h0 := count_note_self s n
  show s.used.count n + 1 ≤ _
  rw [run]
  split
  · exact Nat.le_of_eq h0.symm
  split
  · exact Nat.le_of_eq h0.symm
  split
  · exact h0 ▸ used_le _ _ _
  · have h1 : s.used.count n + 1 ≤ ((f k).run ((s.note n).hold n)).2.used.count n := by
      have := used_le (f k) ((s.note n).hold n) n
      have e : ((s.note n).hold n).used.count n = s.used.count n + 1 := h0
      omega
    split
    next v s' he => rw [he] at h1; exact Nat.le_trans h1 (used_le (next v) ((s'.insert n k v).drop n) n)
    next s' he => rw [he] at h1; exact h1
    next s' he => rw [he] at h1; exact h1

theorem clear_touches (n : Nat) (next : MemoProg σ K V R) (s : MemoWorld σ K V) :
    s.used.count n < ((MemoProg.clear n next).run s).2.used.count n := by
  have h0 := count_note_self s n
  show s.used.count n + 1 ≤ _
  rw [run]
  split
  · exact Nat.le_of_eq h0.symm
  split
  · exact Nat.le_of_eq h0.symm
  · exact h0 ▸ used_le _ ((s.note n).wipe n) _

/-- Holding the lock of `m` changes nothing for a program that does not call `m`, and stops one that does. -/
theorem frame (p : MemoProg σ K V R) (s : MemoWorld σ K V) (m : Nat) :
    ((p.run s).2.used.count m = s.used.count m → p.run (s.hold m) = ((p.run s).1, (p.run s).2.hold m)) ∧
    (s.used.count m < (p.run s).2.used.count m → (p.run (s.hold m)).1 = .stuck) := by
  induction p generalizing s with
  | ret r => exact ⟨fun _ => rfl, fun h => absurd h (Nat.lt_irrefl _)⟩
  | panic => exact ⟨fun _ => rfl, fun h => absurd h (Nat.lt_irrefl _)⟩
  | act f next ih => exact ih _ { s with world := (f s.world).2 }
  | get n k f next ihf ihn =>
    by_cases hn : n = m
    · subst hn
      have hst : ((MemoProg.get n k f next).run (s.hold n)).1 = .stuck := by
        rw [run, if_pos (hold_self s n)]
      refine ⟨fun h => ?_, fun _ => hst⟩
      exfalso
      have hle := get_touches n k f next s
      omega
    · have h0 := count_note s hn
      have hm := hold_other s hn
      have hmn : m ≠ n := fun e => hn e.symm
      rw [run, run, hm]
      by_cases hh : (s.memos n).held = true
      · rw [if_pos hh, if_pos hh]
        exact ⟨fun _ => rfl, fun _ => rfl⟩
      rw [if_neg hh, if_neg hh]
      by_cases hp : (s.memos n).poisoned = true
      · rw [if_pos hp, if_pos hp]
        exact ⟨fun _ => rfl, fun h => absurd h (by rw [h0]; exact Nat.lt_irrefl _)⟩
      rw [if_neg hp, if_neg hp]
      cases hc : (s.memos n).cache k with
      | some v =>
        have := ihn v (s.note n)
        rw [h0] at this
        exact this
      | none =>
        have hcomm : ((s.hold m).note n).hold n = ((s.note n).hold n).hold m := hold_upd (s.note n) _ hn
        simp only [hcomm]
        have hf := ihf k ((s.note n).hold n)
        have hle := used_le (f k) ((s.note n).hold n) m
        have hu : ((s.note n).hold n).used.count m = s.used.count m := h0
        rw [hu] at hf hle
        rcases hr : (f k).run ((s.note n).hold n) with ⟨o, s'⟩
        rw [hr] at hf hle
        by_cases ht : s'.used.count m = s.used.count m
        · rw [hf.1 ht]
          cases o with
          | done v =>
            have hnx := ihn v ((s'.insert n k v).drop n)
            have e1 : ((s'.insert n k v).drop n).used.count m = s.used.count m := ht
            rw [e1] at hnx
            have e2 : ((s'.hold m).insert n k v).drop n = ((s'.insert n k v).drop n).hold m := by
              rw [hold, MemoWorld.insert, MemoWorld.drop, upd_comm _ _ _ _ _ hn, upd_comm _ _ _ _ _ hn]; rfl
            simp only [e2]
            exact hnx
          | panicked =>
            have e2 : (s'.hold m).poison n = (s'.poison n).hold m := hold_upd s' _ hn
            exact ⟨fun _ => by simp only [e2], fun h => absurd h (by
              show ¬ _ < s'.used.count m
              omega)⟩
          | stuck => exact ⟨fun _ => rfl, fun _ => rfl⟩
        · have hlt : s.used.count m < s'.used.count m := by
            have : s.used.count m ≤ s'.used.count m := hle
            omega
          have hst := pair_eta (hf.2 hlt)
          rw [hst]
          refine ⟨fun h => ?_, fun _ => rfl⟩
          exfalso
          cases o with
          | done v =>
            have := used_le (next v) ((s'.insert n k v).drop n) m
            have e1 : ((s'.insert n k v).drop n).used.count m = s'.used.count m := rfl
            simp only at h
            omega
          | panicked => exact ht h
          | stuck => exact ht h
  | clear n next ih =>
    by_cases hn : n = m
    · subst hn
      have hst : ((MemoProg.clear n next).run (s.hold n)).1 = .stuck := by
        rw [run, if_pos (hold_self s n)]
      refine ⟨fun h => ?_, fun _ => hst⟩
      exfalso
      have hle := clear_touches n next s
      omega
    · have h0 := count_note s hn
      have hm := hold_other s hn
      rw [run, run, hm]
      by_cases hh : (s.memos n).held = true
      · rw [if_pos hh, if_pos hh]
        exact ⟨fun _ => rfl, fun _ => rfl⟩
      rw [if_neg hh, if_neg hh]
      by_cases hp : (s.memos n).poisoned = true
      · rw [if_pos hp, if_pos hp]
        exact ⟨fun _ => rfl, fun h => absurd h (by rw [h0]; exact Nat.lt_irrefl _)⟩
      rw [if_neg hp, if_neg hp]
      have e2 : ((s.hold m).note n).wipe n = ((s.note n).wipe n).hold m := hold_upd (s.note n) _ hn
      rw [e2]
      have := ih ((s.note n).wipe n)
      have e1 : ((s.note n).wipe n).used.count m = s.used.count m := h0
      rw [e1] at this
      exact this
  | attempt p next ihp ihn =>
    have hp := ihp s
    have hle := used_le p s m
    rw [run, run]
    rcases hr : p.run s with ⟨o, s'⟩
    rw [hr] at hp hle
    by_cases ht : s'.used.count m = s.used.count m
    · rw [hp.1 ht]
      cases o with
      | done a => have := ihn (some a) s'; rw [ht] at this; exact this
      | panicked => have := ihn none s'; rw [ht] at this; exact this
      | stuck => exact ⟨fun _ => rfl, fun _ => rfl⟩
    · have hlt : s.used.count m < s'.used.count m := by
        have : s.used.count m ≤ s'.used.count m := hle
        omega
      rw [pair_eta (hp.2 hlt)]
      refine ⟨fun h => ?_, fun _ => rfl⟩
      exfalso
      cases o with
      | done a => have := used_le (next (some a)) s' m; simp only at h; omega
      | panicked => have := used_le (next none) s' m; simp only at h; omega
      | stuck => exact ht h

/-- A program that does not end `stuck` leaves a memoizer alone whose lock is held outside. -/
theorem held_stay (p : MemoProg σ K V R) (s : MemoWorld σ K V) (m : Nat) (h : (s.memos m).held = true)
    (hs : (p.run s).1 ≠ .stuck) : (p.run s).2.memos m = s.memos m := by
  induction p generalizing s with
  | ret r => rfl
  | panic => rfl
  | act f next ih => exact ih _ { s with world := (f s.world).2 } h hs
  | get n k f next ihf ihn =>
    by_cases hn : n = m
    · subst hn
      rw [run, if_pos h] at hs
      exact absurd rfl hs
    · have hmn : m ≠ n := fun e => hn e.symm
      revert hs
      rw [run]
      split
      · exact fun hs => absurd rfl hs
      split
      · exact fun _ => rfl
      split
      · exact fun hs => ihn _ (s.note n) h hs
      · have h1 := ihf k ((s.note n).hold n) (by rw [hold_other _ hmn]; exact h)
        rw [hold_other _ hmn] at h1
        split
        next v s' he =>
          intro hs
          rw [he] at h1
          have h2 : s'.memos m = s.memos m := h1 (by simp)
          have h3 : ((s'.insert n k v).drop n).memos m = s.memos m := by
            rw [MemoWorld.drop, upd_other _ _ _ _ hmn, MemoWorld.insert, upd_other _ _ _ _ hmn, h2]
          rw [ihn v _ (by rw [h3]; exact h) hs, h3]
        next s' he =>
          intro _
          rw [he] at h1
          have h2 : s'.memos m = s.memos m := h1 (by simp)
          exact (upd_other s' n m _ hmn : (s'.poison n).memos m = _).trans h2
        next s' he => exact fun hs => absurd rfl hs
  | clear n next ih =>
    by_cases hn : n = m
    · subst hn
      rw [run, if_pos h] at hs
      exact absurd rfl hs
    · have hmn : m ≠ n := fun e => hn e.symm
      revert hs
      rw [run]
      split
      · exact fun hs => absurd rfl hs
      split
      · exact fun _ => rfl
      · intro hs
        have h3 : ((s.note n).wipe n).memos m = s.memos m := upd_other _ _ _ _ hmn
        rw [ih _ (by rw [h3]; exact h) hs, h3]
  | attempt p next ihp ihn =>
    revert hs
    rw [run]
    have h1 := ihp s h
    split
    next a s' he =>
      intro hs
      rw [he] at h1
      have h2 : s'.memos m = s.memos m := h1 (by simp)
      rw [ihn _ s' (by rw [h2]; exact h) hs, h2]
    next s' he =>
      intro hs
      rw [he] at h1
      have h2 : s'.memos m = s.memos m := h1 (by simp)
      rw [ihn _ s' (by rw [h2]; exact h) hs, h2]
    next s' he => exact fun hs => absurd rfl hs

/-- The log is not read: from another log the run is the same and adds the same calls. -/
theorem log_irrel (p : MemoProg σ K V R) (s : MemoWorld σ K V) (l : List Nat) : ∃ d,
    (p.run s).2.used = d ++ s.used ∧ p.run { s with used := l } = ((p.run s).1, { (p.run s).2 with used := d ++ l }) := by
  induction p generalizing s l with
  | ret r => exact ⟨[], rfl, rfl⟩
  | panic => exact ⟨[], rfl, rfl⟩
  | act f next ih => exact ih _ { s with world := (f s.world).2 } l
  | get n k f next ihf ihn =>
    rw [run, run]
    by_cases hh : (s.memos n).held = true
    · rw [if_pos hh, if_pos hh]; exact ⟨[n], rfl, rfl⟩
    rw [if_neg hh, if_neg hh]
    by_cases hp : (s.memos n).poisoned = true
    · rw [if_pos hp, if_pos hp]; exact ⟨[n], rfl, rfl⟩
    rw [if_neg hp, if_neg hp]
    cases hc : (s.memos n).cache k with
    | some v =>
      obtain ⟨d, h1, h2⟩ := ihn v (s.note n) (n :: l)
      exact ⟨d ++ [n], by simpa [note] using h1, by simpa [note] using h2⟩
    | none =>
      obtain ⟨d, h1, h2⟩ := ihf k ((s.note n).hold n) (n :: l)
      have e : (({ s with used := l } : MemoWorld σ K V).note n).hold n = { (s.note n).hold n with used := n :: l } := rfl
      simp only [e, h2]
      rcases hr : (f k).run ((s.note n).hold n) with ⟨o, s'⟩
      rw [hr] at h1
      have h1' : s'.used = d ++ n :: s.used := h1
      cases o with
      | done v =>
        obtain ⟨d', h3, h4⟩ := ihn v ((s'.insert n k v).drop n) (d ++ n :: l)
        refine ⟨d' ++ (d ++ [n]), ?_, ?_⟩
        · have : ((s'.insert n k v).drop n).used = s'.used := rfl
          rw [this, h1'] at h3
          simpa using h3
        · have : ((({ s' with used := d ++ n :: l } : MemoWorld σ K V).insert n k v).drop n)
              = { (s'.insert n k v).drop n with used := d ++ n :: l } := rfl
          simp only [this, h4]
          simp
      | panicked => exact ⟨d ++ [n], by simpa [poison, upd] using h1', by simp [poison, upd]⟩
      | stuck => exact ⟨d ++ [n], by simpa using h1', by simp⟩
  | clear n next ih =>
    rw [run, run]
    by_cases hh : (s.memos n).held = true
    · rw [if_pos hh, if_pos hh]; exact ⟨[n], rfl, rfl⟩
    rw [if_neg hh, if_neg hh]
    by_cases hp : (s.memos n).poisoned = true
    · rw [if_pos hp, if_pos hp]; exact ⟨[n], rfl, rfl⟩
    rw [if_neg hp, if_neg hp]
    obtain ⟨d, h1, h2⟩ := ih ((s.note n).wipe n) (n :: l)
    have e : (({ s with used := l } : MemoWorld σ K V).note n).wipe n = { (s.note n).wipe n with used := n :: l } := rfl
    rw [e, h2]
    have e' : ((s.note n).wipe n).used = n :: s.used := rfl
    rw [e'] at h1
    exact ⟨d ++ [n], by simpa using h1, by simp⟩
  | attempt p next ihp ihn =>
    obtain ⟨d, h1, h2⟩ := ihp s l
    rw [run, run, h2]
    rcases hr : p.run s with ⟨o, s'⟩
    rw [hr] at h1
    have h1' : s'.used = d ++ s.used := h1
    cases o with
    | done a =>
      obtain ⟨d', h3, h4⟩ := ihn (some a) s' (d ++ l)
      exact ⟨d' ++ d, by simp only [h3, h1', List.append_assoc], by simp only [h4, List.append_assoc]⟩
    | panicked =>
      obtain ⟨d', h3, h4⟩ := ihn none s' (d ++ l)
      exact ⟨d' ++ d, by simp only [h3, h1', List.append_assoc], by simp only [h4, List.append_assoc]⟩
    | stuck => exact ⟨d, h1', rfl⟩

/-- The run of a closure inside `get_or_compute`, against its run outside. -/
theorem inside (p : MemoProg σ K V R) (s : MemoWorld σ K V) (m : Nat) :
    (¬ Touches p s m → ∃ l, p.run ((s.note m).hold m) = ((p.run s).1, { (p.run s).2.hold m with used := l })) ∧
    (Touches p s m → (p.run ((s.note m).hold m)).1 = .stuck) := by
  obtain ⟨d, h1, h2⟩ := log_irrel p s (m :: s.used)
  have hf := frame p (s.note m) m
  have e : s.note m = { s with used := m :: s.used } := rfl
  rw [e, h2] at hf
  have hc : (p.run s).2.used.count m = d.count m + s.used.count m := by rw [h1, List.count_append]
  have hc' : (d ++ m :: s.used).count m = d.count m + (m :: s.used).count m := List.count_append
  refine ⟨fun ht => ⟨_, hf.1 ?_⟩, fun ht => hf.2 ?_⟩
  · rw [Touches, hc] at ht
    show (d ++ m :: s.used).count m = (m :: s.used).count m
    omega
  · rw [Touches, hc] at ht
    show (m :: s.used).count m < (d ++ m :: s.used).count m
    omega

/-- Locks are released: a program that ends leaves every lock as it found it. -/
theorem held_eq (p : MemoProg σ K V R) (s : MemoWorld σ K V) (m : Nat) (hs : (p.run s).1 ≠ .stuck) :
    ((p.run s).2.memos m).held = (s.memos m).held := by
  induction p generalizing s with
  | ret r => rfl
  | panic => rfl
  | act f next ih => exact ih _ { s with world := (f s.world).2 } hs
  | get n k f next ihf ihn =>
    revert hs
    rw [run]
    split
    · exact fun hs => absurd rfl hs
    next hh =>
    split
    · exact fun _ => rfl
    split
    · exact fun hs => ihn _ (s.note n) hs
    · have h1 := ihf k ((s.note n).hold n)
      split
      next v s' he =>
        intro hs
        rw [ihn v _ hs]
        by_cases hn : m = n
        · subst hn; rw [MemoWorld.drop, upd_same]; simpa using hh
        · rw [he] at h1
          have h2 := h1 (by simp)
          rw [hold_other _ hn] at h2
          rw [MemoWorld.drop, upd_other _ _ _ _ hn, MemoWorld.insert, upd_other _ _ _ _ hn]
          exact h2
      next s' he =>
        intro _
        show ((s'.poison n).memos m).held = _
        by_cases hn : m = n
        · subst hn; rw [poison, upd_same]; simpa using hh
        · rw [he] at h1
          have h2 := h1 (by simp)
          rw [hold_other _ hn] at h2
          rw [poison, upd_other _ _ _ _ hn]
          exact h2
      next s' he => exact fun hs => absurd rfl hs
  | clear n next ih =>
    revert hs
    rw [run]
    split
    · exact fun hs => absurd rfl hs
    split
    · exact fun _ => rfl
    · intro hs
      rw [ih _ hs]
      by_cases hn : m = n
      · subst hn; rw [wipe, upd_same]; rfl
      · rw [wipe, upd_other _ _ _ _ hn]; rfl
  | attempt p next ihp ihn =>
    revert hs
    rw [run]
    have h1 := ihp s
    split
    next a s' he => intro hs; rw [he] at h1; rw [ihn _ s' hs]; exact h1 (by simp)
    next s' he => intro hs; rw [he] at h1; rw [ihn _ s' hs]; exact h1 (by simp)
    next s' he => exact fun hs => absurd rfl hs

/-- A poisoned memoizer never changes again. -/
theorem poisoned_stay (p : MemoProg σ K V R) (s : MemoWorld σ K V) (m : Nat) (h : (s.memos m).poisoned = true)
    (hh : (s.memos m).held = false) : (p.run s).2.memos m = s.memos m := by
  induction p generalizing s with
  | ret r => rfl
  | panic => rfl
  | act f next ih => exact ih _ { s with world := (f s.world).2 } h hh
  | get n k f next ihf ihn =>
    by_cases hn : m = n
    · subst hn; rw [run, hh, h]; rfl
    rw [run]
    split
    · rfl
    split
    · rfl
    split
    · exact ihn _ (s.note n) h hh
    · have h1 := ihf k ((s.note n).hold n)
      rw [hold_other _ hn] at h1
      have h2 : ((f k).run ((s.note n).hold n)).2.memos m = s.memos m := h1 h hh
      split
      next v s' he =>
        rw [he] at h2
        have h3 : ((s'.insert n k v).drop n).memos m = s.memos m := by
          rw [MemoWorld.drop, upd_other _ _ _ _ hn, MemoWorld.insert, upd_other _ _ _ _ hn]; exact h2
        rw [ihn v _ (by rw [h3]; exact h) (by rw [h3]; exact hh), h3]
      next s' he =>
        rw [he] at h2
        exact (upd_other s' n m _ hn : (s'.poison n).memos m = _).trans h2
      next s' he => rw [he] at h2; exact h2
  | clear n next ih =>
    by_cases hn : m = n
    · subst hn; rw [run, hh, h]; rfl
    rw [run]
    split
    · rfl
    split
    · rfl
    · have h3 : ((s.note n).wipe n).memos m = s.memos m := upd_other _ _ _ _ hn
      rw [ih _ (by rw [h3]; exact h) (by rw [h3]; exact hh), h3]
  | attempt p next ihp ihn =>
    rw [run]
    have h1 := ihp s h hh
    split
    next a s' he =>
      rw [he] at h1
      have h2 : s'.memos m = s.memos m := h1
      rw [ihn _ s' (by rw [h2]; exact h) (by rw [h2]; exact hh), h2]
    next s' he =>
      rw [he] at h1
      have h2 : s'.memos m = s.memos m := h1
      rw [ihn _ s' (by rw [h2]; exact h) (by rw [h2]; exact hh), h2]
    next s' he => rw [he] at h1; exact h1

/-- Without a `clear` a cached value stays. -/
theorem cache_stay (p : MemoProg σ K V R) (s : MemoWorld σ K V) (m : Nat) (k : K) (v : V) (hp : NoClear m p)
    (h : (s.memos m).cache k = some v) : ((p.run s).2.memos m).cache k = some v := by
  have hupd : ∀ (s : MemoWorld σ K V) (n : Nat) (g : MemoCell K V → MemoCell K V),
      (m = n → ∀ c, c.cache k = some v → (g c).cache k = some v) → (s.memos m).cache k = some v →
      ((s.upd n g).memos m).cache k = some v := by
    intro s n g hg h
    by_cases hn : m = n
    · subst hn; rw [upd_same]; exact hg rfl _ h
    · rw [upd_other _ _ _ _ hn]; exact h
  induction hp generalizing s with
  | ret r => exact h
  | panic => exact h
  | act f next _ ih => exact ih _ { s with world := (f s.world).2 } h
  | get n k' f next _ _ ihf ihn =>
    rw [run]
    split
    · exact h
    split
    · exact h
    split
    · exact ihn _ (s.note n) h
    next hc =>
      have h1 := ihf k' ((s.note n).hold n) (hupd _ _ _ (fun _ _ h => h) h)
      split
      next w s' he =>
        rw [he] at h1
        refine ihn w _ (hupd _ _ _ (fun _ _ h => h) (hupd _ _ _ (fun hn c hc' => ?_) h1))
        subst hn
        have hk : k ≠ k' := fun e => by rw [e, hc] at h; cases h
        simp [hk, hc']
      next s' he => rw [he] at h1; exact hupd s' n (fun c => { c with held := false, poisoned := true }) (fun _ _ h => h) h1
      next s' he => rw [he] at h1; exact h1
  | clear n next hn _ ih =>
    rw [run]
    split
    · exact h
    split
    · exact h
    · exact ih _ (hupd _ _ _ (fun e => absurd e.symm hn) h)
  | attempt p next _ _ ihp ihn =>
    rw [run]
    have h1 := ihp s h
    split
    next a s' he => rw [he] at h1; exact ihn _ s' h1
    next s' he => rw [he] at h1; exact ihn _ s' h1
    next s' he => rw [he] at h1; exact h1

end MemoProg

/-! ## The property -/

open MemoProg
variable {σ K V R : Type} [DecidableEq K]

/-- For the examples: a closure that counts its runs and returns ten times the key. -/
def countedTen (k : Nat) : MemoProg Nat Nat Nat Nat := .act (fun w => (k * 10, w + 1)) .ret
/-- For the examples: all memoizers new, no run counted. -/
def freshMemos : MemoWorld Nat Nat Nat := ⟨fun _ => .new, 0, []⟩

/-- A call for a cached key returns the cached value.  Its closure is not run: nothing else changes. -/
theorem c91_hit (s : MemoWorld σ K V) (m : Nat) (k : K) (v : V) (f : K → MemoProg σ K V V) (hf : Free s m)
    (hc : (s.memos m).cache k = some v) :
    ((call m k f).run s).1 = .done v ∧ ((call m k f).run s).2.memos = s.memos ∧
    ((call m k f).run s).2.world = s.world := by
  rw [call, run, hf.1, hf.2, hc]
  exact ⟨rfl, rfl, rfl⟩

example : ((call 0 4 countedTen).run ((call 0 4 (fun k => .ret (k + 1))).run freshMemos).2).1 = .done 5 :=
  (c91_hit _ 0 4 5 countedTen ⟨rfl, rfl⟩ rfl).1

/-- Transparency: the first call for a key behaves as its closure run alone, when the closure does not call the same
memoizer: same end (value or panic), same effects, also on other memoizers.  The value is stored under that key only. -/
theorem c91_transparent (s : MemoWorld σ K V) (m : Nat) (k : K) (f : K → MemoProg σ K V V) (hf : Free s m)
    (hc : (s.memos m).cache k = none) (ht : ¬ Touches (f k) s m) :
    ((call m k f).run s).1 = ((f k).run s).1 ∧ ((call m k f).run s).2.world = ((f k).run s).2.world ∧
    (∀ n, n ≠ m → ((call m k f).run s).2.memos n = ((f k).run s).2.memos n) ∧
    (∀ v, ((f k).run s).1 = .done v → ∀ k', (((call m k f).run s).2.memos m).cache k' =
      if k' = k then some v else (s.memos m).cache k') := by
  obtain ⟨l, hi⟩ := (inside (f k) s m).1 ht
  have hst := held_stay (f k) ((s.note m).hold m) m (hold_self _ _)
  rw [hi] at hst
  rw [call, run, hf.1, hf.2, hc]
  simp only [hi]
  rcases hr : (f k).run s with ⟨o, s'⟩
  rw [hr] at hst
  cases o with
  | done v =>
    refine ⟨rfl, rfl, fun n hn => ?_, fun w hw k' => ?_⟩
    · show ((((({ s'.hold m with used := l } : MemoWorld σ K V).insert m k v).drop m).memos n)) = _
      rw [MemoWorld.drop, upd_other _ _ _ _ hn, MemoWorld.insert, upd_other _ _ _ _ hn]
      exact hold_other s' hn
    · cases hw
      have h2 : (s'.hold m).memos m = ((s.note m).hold m).memos m := hst (by simp)
      show ((((({ s'.hold m with used := l } : MemoWorld σ K V).insert m k v).drop m).memos m)).cache k' = _
      rw [MemoWorld.drop, upd_same, MemoWorld.insert, upd_same]
      show (if k' = k then some v else ((s'.hold m).memos m).cache k') = _
      rw [h2, MemoWorld.hold, upd_same]
      rfl
  | panicked =>
    refine ⟨rfl, rfl, fun n hn => ?_, fun w hw => by cases hw⟩
    show ((({ s'.hold m with used := l } : MemoWorld σ K V).poison m).memos n) = _
    rw [MemoWorld.poison, upd_other _ _ _ _ hn]
    exact hold_other s' hn
  | stuck =>
    refine ⟨rfl, rfl, fun n hn => ?_, fun w hw => by cases hw⟩
    exact hold_other s' hn

/-- The closure for key 3 of memoizer 0 uses memoizer 1. -/
example : ((call 0 3 fun k => .get 1 (k + 1) countedTen .ret).run freshMemos).1 = .done 40 ∧
    ((call 0 3 fun k => .get 1 (k + 1) countedTen .ret).run freshMemos).2.world = 1 ∧
    (((call 0 3 fun k => .get 1 (k + 1) countedTen .ret).run freshMemos).2.memos 1).cache 4 = some 40 :=
  have h := c91_transparent freshMemos 0 3 (fun k => .get 1 (k + 1) countedTen .ret) ⟨rfl, rfl⟩ rfl (by decide +kernel)
  ⟨h.1, h.2.1, by rw [h.2.2.1 1 (by decide)]; rfl⟩

/-- A closure that calls the memoizer it is computing for never returns, whatever it asks for: the key may be another
one and may be cached. -/
theorem c91_reenter (s : MemoWorld σ K V) (m : Nat) (k : K) (f : K → MemoProg σ K V V) (hf : Free s m)
    (hc : (s.memos m).cache k = none) (ht : Touches (f k) s m) : ((call m k f).run s).1 = .stuck := by
  obtain ⟨s', hi⟩ : ∃ s', (f k).run ((s.note m).hold m) = (.stuck, s') := ⟨_, pair_eta ((inside (f k) s m).2 ht)⟩
  rw [call, run, hf.1, hf.2, hc]
  simp only [hi]
  rfl

/-- The closure for key 3 asks the same memoizer for key 4, which is cached. -/
example : ((call 0 3 fun _ => .get 0 4 countedTen .ret).run ((call 0 4 countedTen).run freshMemos).2).1 = .stuck :=
  c91_reenter _ 0 3 _ ⟨rfl, rfl⟩ rfl (by decide +kernel)

/-- The usual memoized recursion, `fib(n) = memo(n - 1) + memo(n - 2)` with one memoizer. -/
def memoFib : Nat → MemoProg σ Nat Nat Nat
  | 0 => .ret 0
  | 1 => .ret 1
  | n + 2 => .get 0 (n + 1) (fun _ => memoFib (n + 1)) fun a => .get 0 n (fun _ => memoFib n) fun b => .ret (a + b)

/-- Memoized recursion with one memoizer never returns for a new key above 1, even when all smaller values are cached. -/
theorem c91_recursion (s : MemoWorld σ Nat Nat) (n : Nat) (hf : Free s 0) (hc : (s.memos 0).cache (n + 2) = none) :
    ((call 0 (n + 2) memoFib).run s).1 = .stuck := by
  refine c91_reenter s 0 (n + 2) memoFib hf hc ?_
  rw [memoFib]
  exact get_touches _ _ _ _ s

example : ((call 0 5 memoFib).run freshMemos).1 = .stuck := c91_recursion freshMemos 3 ⟨rfl, rfl⟩ rfl

/-- Exactly when a first call returns, and what: when the closure alone returns that value without calling the same
memoizer. -/
theorem c91_returns_iff (s : MemoWorld σ K V) (m : Nat) (k : K) (v : V) (f : K → MemoProg σ K V V) (hf : Free s m)
    (hc : (s.memos m).cache k = none) :
    ((call m k f).run s).1 = .done v ↔ ((f k).run s).1 = .done v ∧ ¬ Touches (f k) s m := by
  by_cases ht : Touches (f k) s m
  · rw [c91_reenter s m k f hf hc ht]
    exact ⟨fun h => (by cases h), fun h => absurd ht h.2⟩
  · rw [(c91_transparent s m k f hf hc ht).1]
    exact ⟨fun h => ⟨h, ht⟩, fun h => h.1⟩

example : ((call 0 3 fun k => .get 0 (k + 1) countedTen .ret).run freshMemos).1 ≠ .done 40 ∧
    ((call 0 3 fun k => .get 1 (k + 1) countedTen .ret).run freshMemos).1 = .done 40 :=
  ⟨fun h => ((c91_returns_iff freshMemos 0 3 40 _ ⟨rfl, rfl⟩ rfl).1 h).2 (by decide +kernel),
   (c91_returns_iff freshMemos 0 3 40 _ ⟨rfl, rfl⟩ rfl).2 ⟨rfl, by decide +kernel⟩⟩

/-- Whatever a closure does, a call that returned left its memoizer callable with the value cached. -/
theorem c91_stored (s s' : MemoWorld σ K V) (m : Nat) (k : K) (v : V) (f : K → MemoProg σ K V V)
    (h : (call m k f).run s = (.done v, s')) : Free s' m ∧ (s'.memos m).cache k = some v := by
  revert h
  rw [call, run]
  split
  · exact fun h => by cases h
  next hh =>
  split
  · exact fun h => by cases h
  next hp =>
  have hh' : (s.memos m).held = false := by simpa using hh
  have hp' : (s.memos m).poisoned = false := by simpa using hp
  split
  next w hc => intro h; cases h; exact ⟨⟨hh', hp'⟩, hc⟩
  · have hst := held_stay (f k) ((s.note m).hold m) m (hold_self _ _)
    split
    next w s'' he =>
      intro h
      rw [he] at hst
      have h2 : s''.memos m = ((s.note m).hold m).memos m := hst (by simp)
      rw [MemoWorld.hold, upd_same] at h2
      have h3 : MemoOut.done w = .done v ∧ (s''.insert m k w).drop m = s' := Prod.mk.inj h
      cases h3.1
      rw [← h3.2]
      refine ⟨⟨?_, ?_⟩, ?_⟩ <;> rw [MemoWorld.drop, upd_same, MemoWorld.insert, upd_same]
      · rw [h2]; exact hp'
      · simp
    next s'' he => exact fun h => by cases h
    next s'' he => exact fun h => by cases h

example : ∃ s', (call 0 3 countedTen).run freshMemos = (.done 30, s') ∧ Free s' 0 ∧ (s'.memos 0).cache 3 = some 30 :=
  ⟨_, rfl, c91_stored freshMemos _ 0 3 30 countedTen rfl⟩

/-- Idempotence: after a call that returned, a call for the same key with any closure returns the same value, runs
nothing and changes nothing. -/
theorem c91_idempotent (s s' : MemoWorld σ K V) (m : Nat) (k : K) (v : V) (f g : K → MemoProg σ K V V)
    (h : (call m k f).run s = (.done v, s')) :
    ((call m k g).run s').1 = .done v ∧ ((call m k g).run s').2.memos = s'.memos ∧
    ((call m k g).run s').2.world = s'.world :=
  have hs := c91_stored s s' m k v f h
  c91_hit s' m k v g hs.1 hs.2

/-- Two calls with the counting closure: one run. -/
example : ((call 0 3 countedTen).run ((call 0 3 countedTen).run freshMemos).2).1 = .done 30 ∧
    ((call 0 3 countedTen).run ((call 0 3 countedTen).run freshMemos).2).2.world = 1 :=
  have h := c91_idempotent freshMemos _ 0 3 30 countedTen countedTen rfl
  ⟨h.1, h.2.2⟩

/-- Consistency: once a value is cached for a key, it is cached after any program that does not clear that memoizer,
however that program ends. -/
theorem c91_consistent (p : MemoProg σ K V R) (s : MemoWorld σ K V) (m : Nat) (k : K) (v : V) (hp : NoClear m p)
    (h : (s.memos m).cache k = some v) : ((p.run s).2.memos m).cache k = some v := cache_stay p s m k v hp h

/-- A program that asks for another key, clears another memoizer, and catches the panic of a closure. -/
example : ((((MemoProg.get 0 8 countedTen fun _ => .clear 1 (.attempt (call 0 9 fun _ => .panic) fun _ => .ret ())).run
    ((call 0 3 countedTen).run freshMemos).2).2.memos 0).cache 3) = some 30 :=
  c91_consistent _ _ 0 3 30
    (.get _ _ _ _ (fun _ => .act _ _ fun _ => .ret _) fun _ => .clear _ _ (by decide)
      (.attempt _ _ (.get _ _ _ _ (fun _ => .panic) fun _ => .ret _) fun _ => .ret _)) rfl

/-- … and every call for it afterwards returns that value, or panics because the memoizer was poisoned meanwhile. -/
theorem c91_consistent_call (p : MemoProg σ K V R) (s : MemoWorld σ K V) (m : Nat) (k : K) (v : V)
    (f : K → MemoProg σ K V V) (hp : NoClear m p) (h : (s.memos m).cache k = some v) (hf : (s.memos m).held = false)
    (hs : (p.run s).1 ≠ .stuck) :
    ((call m k f).run (p.run s).2).1 = .done v ∨
    ((call m k f).run (p.run s).2).1 = .panicked ∧ ((p.run s).2.memos m).poisoned = true := by
  have hc := cache_stay p s m k v hp h
  have hh := held_eq p s m hs
  rw [hf] at hh
  cases hpo : ((p.run s).2.memos m).poisoned with
  | false => exact .inl (c91_hit _ m k v f ⟨hh, hpo⟩ hc).1
  | true => rw [call, run, hh, hpo]; exact .inr ⟨rfl, rfl⟩

example : ((call 0 3 fun _ => .panic).run ((call 0 8 countedTen).run ((call 0 3 countedTen).run freshMemos).2).2).1 = .done 30 := by
  refine (c91_consistent_call (call 0 8 countedTen) ((call 0 3 countedTen).run freshMemos).2 0 3 30 (fun _ => .panic)
    (.get _ _ _ _ (fun _ => .act _ _ fun _ => .ret _) fun _ => .ret _) rfl rfl (by decide +kernel)).resolve_right ?_
  intro h
  exact Bool.noConfusion (h.2 : false = true)

/-- `clear` makes a memoizer as good as new, and changes nothing else. -/
theorem c91_clear (s : MemoWorld σ K V) (m : Nat) (hf : Free s m) :
    ((MemoProg.clear m (.ret ())).run s).1 = .done () ∧ ((MemoProg.clear m (.ret ())).run s).2.memos m = MemoCell.new ∧
    (∀ n, n ≠ m → ((MemoProg.clear m (.ret ())).run s).2.memos n = s.memos n) ∧
    ((MemoProg.clear m (.ret ())).run s).2.world = s.world := by
  have e : (MemoProg.clear m (.ret ())).run s = (.done (), (s.note m).wipe m) := by rw [run, hf.1, hf.2]; rfl
  rw [e]
  refine ⟨rfl, ?_, fun n hn => (upd_other (s.note m) m n _ hn : ((s.note m).wipe m).memos n = _), rfl⟩
  show ((s.note m).wipe m).memos m = _
  rw [MemoWorld.wipe, upd_same]
  show (⟨fun _ => none, (s.memos m).held, (s.memos m).poisoned⟩ : MemoCell K V) = _
  rw [hf.1, hf.2]
  rfl

example : (((MemoProg.clear 0 (.ret ())).run ((call 0 3 countedTen).run freshMemos).2).2.memos 0).cache 3 = none := by
  rw [(c91_clear ((call 0 3 countedTen).run freshMemos).2 0 ⟨rfl, rfl⟩).2.1]; rfl

/-- Locks are released: a program that ends leaves every lock as it found it. -/
theorem c91_released (p : MemoProg σ K V R) (s : MemoWorld σ K V) (m : Nat) (hs : (p.run s).1 ≠ .stuck) :
    ((p.run s).2.memos m).held = (s.memos m).held := held_eq p s m hs

example : (((call 0 3 fun _ => .panic).run freshMemos).2.memos 0).held = false :=
  c91_released (call 0 3 fun _ => .panic) freshMemos 0 (by decide +kernel)

/-- Commutativity: for different keys and closures that just return values, the two orders give the same results and
leave the same state, whatever is cached, held or poisoned before. -/
theorem c91_commute (s : MemoWorld σ K V) (m : Nat) (j k : K) (f g : K → V) (hjk : j ≠ k) :
    (MemoProg.get m j (fun x => .ret (f x)) fun a => .get m k (fun x => .ret (g x)) fun b => .ret (a, b)).run s =
    (MemoProg.get m k (fun x => .ret (g x)) fun b => .get m j (fun x => .ret (f x)) fun a => .ret (a, b)).run s := by
  have hkj : k ≠ j := fun e => hjk e.symm
  simp only [run]
  by_cases hh : (s.memos m).held = true
  · simp [hh]
  by_cases hp : (s.memos m).poisoned = true
  · simp [hh, hp]
  have hh' : (s.memos m).held = false := by simpa using hh
  have hp' : (s.memos m).poisoned = false := by simpa using hp
  cases hcj : (s.memos m).cache j <;> cases hck : (s.memos m).cache k <;>
    simp [hh', hp', hcj, hck, MemoWorld.note, MemoWorld.hold, MemoWorld.insert, MemoWorld.drop, MemoWorld.upd, hjk, hkj]
  funext i
  by_cases hi : i = m
  · simp only [if_pos hi]
    congr 1
    funext k'
    by_cases h1 : k' = j
    · simp [h1, hjk]
    · simp [h1]
  · simp [hi]

example : (MemoProg.get 0 2 (fun x => .ret (x + 1)) fun a => .get 0 5 (fun x => .ret (x * 2)) fun b => .ret (a, b)).run
    freshMemos = (MemoProg.get 0 5 (fun x => .ret (x * 2)) fun b => .get 0 2 (fun x => .ret (x + 1)) fun a =>
      .ret (a, b)).run freshMemos :=
  c91_commute freshMemos 0 2 5 (· + 1) (· * 2) (by decide)

/-- Commutativity is false when a closure panics: the order decides whether the other key still gets its value. -/
theorem c91_commute_false : ∃ (s : MemoWorld Nat Nat Nat) (j k : Nat), j ≠ k ∧ Free s 0 ∧
    ((MemoProg.attempt (call 0 j fun _ => .panic) fun a => .attempt (call 0 k fun _ => .ret 7) fun b => .ret (a, b)).run
      s).1 = .done (none, none) ∧
    ((MemoProg.attempt (call 0 k fun _ => .ret 7) fun b => .attempt (call 0 j fun _ => .panic) fun a => .ret (a, b)).run
      s).1 = .done (none, some 7) :=
  ⟨freshMemos, 1, 2, by decide, ⟨rfl, rfl⟩, rfl, rfl⟩

/-- A panic of the closure of a first call poisons the memoizer: after any further program, every `get_or_compute` and
every `clear` on it panics, and no closure given to it runs. -/
theorem c91_poison (s : MemoWorld σ K V) (m : Nat) (k : K) (f : K → MemoProg σ K V V) (hf : Free s m)
    (hc : (s.memos m).cache k = none) (hp : ((f k).run s).1 = .panicked) (ht : ¬ Touches (f k) s m) :
    ((call m k f).run s).1 = .panicked ∧ ∀ {R : Type} (p : MemoProg σ K V R) (k' : K) (g : K → MemoProg σ K V V),
      let s' := (p.run ((call m k f).run s).2).2
      (call m k' g).run s' = (.panicked, s'.note m) ∧ (MemoProg.clear m (.ret ())).run s' = (.panicked, s'.note m) := by
  refine ⟨by rw [(c91_transparent s m k f hf hc ht).1, hp], ?_⟩
  intro R p k' g s'
  have h1 : (((call m k f).run s).2.memos m).poisoned = true ∧ (((call m k f).run s).2.memos m).held = false := by
    obtain ⟨l, hi⟩ := (inside (f k) s m).1 ht
    rw [call, run, hf.1, hf.2, hc]
    simp only [hi, hp]
    show ((MemoWorld.poison _ m).memos m).poisoned = true ∧ ((MemoWorld.poison _ m).memos m).held = false
    rw [MemoWorld.poison, upd_same]
    exact ⟨rfl, rfl⟩
  have h3 : s'.memos m = _ := poisoned_stay p _ m h1.1 h1.2
  have h2 : (s'.memos m).poisoned = true := by rw [h3]; exact h1.1
  have hh : (s'.memos m).held = false := by rw [h3]; exact h1.2
  constructor
  · rw [call, run, hh, h2]; rfl
  · rw [run, hh, h2]; rfl

example : ((call 0 3 fun _ => .panic).run freshMemos).1 = .panicked ∧
    ((MemoProg.clear 0 (.ret ())).run ((call 0 3 fun _ => .panic).run freshMemos).2).1 = .panicked :=
  have h := c91_poison freshMemos 0 3 (fun _ => .panic) ⟨rfl, rfl⟩ rfl rfl (by decide +kernel)
  have h2 := (h.2 (.ret () : MemoProg Nat Nat Nat Unit) 4 countedTen).2
  ⟨h.1, congrArg Prod.fst h2⟩

/-- The two models of `Memoizer` agree: where no thread is inside a call, one thread of the interleaving model makes the
call that this model makes, with the same value and the same cache afterwards. -/
theorem c91_agree (f : K → V) (s : MState K V) (k : K) (hi : ∀ u, s.pc u = .idle) (hp : s.poisoned = false) :
    ∃ (s' : MState K V) (v : V), MRun (fun k v => v = f k) s s' ∧
      ((call 0 k fun x => .ret (f x)).run (⟨fun _ => ⟨s.cache, false, false⟩, (), []⟩ : MemoWorld Unit K V)).1 = .done v ∧
      (((call 0 k fun x => .ret (f x)).run (⟨fun _ => ⟨s.cache, false, false⟩, (), []⟩ : MemoWorld Unit K V)).2.memos
        0).cache = s'.cache ∧
      s'.rets = ⟨k, v, s.epoch, s.epoch, s.epoch⟩ :: s.rets ∧ (∀ u, s'.pc u = .idle) ∧ s'.poisoned = false := by
  have hu : ∀ u : Nat, u = 0 ∨ u ≠ 0 := by intro u; omega
  have hg : ∀ (x : MState K V) (q : MPc K V), (x.goto 0 q).pc 0 = q := fun x q => by simp [MState.goto]
  have r1 := (MRun.refl (allowed := fun k v => v = f k) s).step (MStep.call (t := 0) s k (hi 0))
  have r2 := r1.step (MStep.acqRead (t := 0) _ k s.epoch (hg _ _) hp
    (fun u => by rcases hu u with h | h <;> simp [MState.goto, h, MPc.writes, hi]))
  cases hc : s.cache k with
  | some v =>
    have r3 := r2.step (MStep.readHit (t := 0) _ k s.epoch v (hg _ _) hc)
    have r4 := r3.step (MStep.ret (t := 0) _ k v s.epoch s.epoch (hg _ _))
    refine ⟨_, v, r4, ?_, ?_, rfl, ?_, hp⟩
    · simp [call, run, hc]
    · simp [call, run, hc, MemoWorld.note]; rfl
    · intro u
      rcases hu u with h | h <;> simp [MState.goto, h, hi]
  | none =>
    have r3 := r2.step (MStep.readMiss (t := 0) _ k s.epoch (hg _ _) hc)
    have r4 := r3.step (MStep.acqWrite (t := 0) _ k s.epoch (hg _ _) hp
      (fun u => by rcases hu u with h | h <;> simp [MState.goto, h, MPc.writes, MPc.reads, hi]))
    have r5 := r4.step (MStep.compute (t := 0) _ k s.epoch (hg _ _) hc)
    have r6 := r5.step (MStep.computed (t := 0) _ k s.epoch (f k) (hg _ _) rfl)
    have r7 := r6.step (MStep.insert (t := 0) _ k (f k) s.epoch (hg _ _))
    have r8 := r7.step (MStep.ret (t := 0) _ k (f k) s.epoch s.epoch (hg _ _))
    refine ⟨_, f k, r8, ?_, ?_, rfl, ?_, hp⟩
    · simp [call, run, hc]
    · simp [call, run, hc, MemoWorld.note, MemoWorld.hold, MemoWorld.insert, MemoWorld.drop, MemoWorld.upd]; rfl
    · intro u
      rcases hu u with h | h <;> simp [MState.goto, h, hi]

example : ∃ (s' : MState Nat Nat) (v : Nat), MRun (fun k v => v = k + 5) MState.init s' ∧
    s'.rets = [⟨1, v, 0, 0, 0⟩] :=
  have ⟨s', v, h, _, _, hr, _⟩ := c91_agree (fun k => k + 5) (MState.init : MState Nat Nat) 1 (fun _ => rfl) rfl
  ⟨s', v, h, hr⟩

end Rustica
