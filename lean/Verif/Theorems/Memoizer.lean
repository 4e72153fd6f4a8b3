import Verif.Effect.Memoizer

/-!
# C46
-/

set_option linter.unusedSectionVars false

namespace Rustica
open MState

variable {K V : Type} [DecidableEq K] {allowed : K → V → Prop}

@[simp] theorem mgoto_self (s : MState K V) (t : Nat) (p : MPc K V) : (s.goto t p).pc t = p := by simp [MState.goto]
theorem mgoto_ne (s : MState K V) (t : Nat) (p : MPc K V) {u : Nat} (h : u ≠ t) : (s.goto t p).pc u = s.pc u := by
  simp [MState.goto, h]

/-- What holds of a thread at each place. -/
def PcOk (s : MState K V) : MPc K V → Prop
  | .wantRead _ e0 => e0 ≤ s.epoch
  | .inRead _ e0 => e0 ≤ s.epoch
  | .wantWrite _ e0 => e0 ≤ s.epoch
  | .inWrite _ e0 => e0 ≤ s.epoch
  | .computing k e0 => e0 ≤ s.epoch ∧ s.cache k = none ∧ (s.epoch, k) ∈ s.starts ∧
      ∀ v, (s.epoch, k, v) ∉ s.results
  | .computed k v e0 => e0 ≤ s.epoch ∧ s.cache k = none ∧ (s.epoch, k, v) ∈ s.results
  | .returning k v e0 e => e0 ≤ e ∧ e ≤ s.epoch ∧ (e, k, v) ∈ s.results
  | _ => True

/-- The invariant of all schedules. -/
structure MInv (allowed : K → V → Prop) (s : MState K V) : Prop where
  pcs : ∀ t, PcOk s (s.pc t)
  mutex : ∀ t u, t ≠ u → (s.pc t).writes = true → (s.pc u).writes = false ∧ (s.pc u).reads = false
  poison : s.poisoned = true → ∀ t, (s.pc t).writes = false ∧ (s.pc t).reads = false
  cacheVal : ∀ k v, s.cache k = some v → (s.epoch, k, v) ∈ s.results
  startsOnce : s.starts.Nodup
  startsEpoch : ∀ e k, (e, k) ∈ s.starts → e ≤ s.epoch
  fresh : s.poisoned = false → ∀ k, s.cache k = none → (∀ t e0, s.pc t ≠ .computing k e0) →
    (∀ t v e0, s.pc t ≠ .computed k v e0) → (s.epoch, k) ∉ s.starts
  resStart : ∀ e k v, (e, k, v) ∈ s.results → (e, k) ∈ s.starts
  resUnique : ∀ e k v v', (e, k, v) ∈ s.results → (e, k, v') ∈ s.results → v = v'
  resAllowed : ∀ e k v, (e, k, v) ∈ s.results → allowed k v
  rets : ∀ r ∈ s.rets, (r.at_, r.key, r.val) ∈ s.results ∧ r.began ≤ r.at_ ∧ r.at_ ≤ r.ended

theorem MInv.init : MInv allowed (MState.init : MState K V) := by
  constructor <;> simp [MState.init, PcOk, MPc.writes]

/-- A place outside the write section keeps its fact when the epoch and the results grow. -/
theorem PcOk.mono {s s' : MState K V} {p : MPc K V} (h : PcOk s p) (hw : p.writes = false)
    (he : s.epoch ≤ s'.epoch) (hr : ∀ x, x ∈ s.results → x ∈ s'.results) : PcOk s' p := by
  cases p <;> simp_all [PcOk, MPc.writes] <;> omega

/-- A place keeps its fact when nothing shared changes. -/
theorem PcOk.goto {s : MState K V} {p q : MPc K V} {t : Nat} (h : PcOk s p) : PcOk (s.goto t q) p := by
  cases p <;> exact h

/-- A step that only moves `t`. -/
theorem MInv.move {s : MState K V} (h : MInv allowed s) (t : Nat) (q : MPc K V) (hq : PcOk s q)
    (hw : q.writes = true → s.poisoned = false ∧ ∀ u, u ≠ t → (s.pc u).writes = false ∧ (s.pc u).reads = false)
    (hr : q.reads = true → s.poisoned = false ∧ ∀ u, u ≠ t → (s.pc u).writes = false)
    (hc : ∀ k e0, s.pc t ≠ .computing k e0) (hc' : ∀ k v e0, s.pc t ≠ .computed k v e0) :
    MInv allowed (s.goto t q) := by
  refine ⟨?_, ?_, ?_, h.cacheVal, h.startsOnce, h.startsEpoch, ?_, h.resStart, h.resUnique, h.resAllowed, h.rets⟩
  · intro u
    by_cases hu : u = t
    · subst hu; rw [mgoto_self]; exact hq.goto
    · rw [mgoto_ne _ _ _ hu]; exact (h.pcs u).goto
  · intro a b hab ha
    by_cases hat : a = t
    · subst hat
      rw [mgoto_self] at ha
      rw [mgoto_ne _ _ _ (Ne.symm hab)]
      exact (hw ha).2 b (Ne.symm hab)
    · rw [mgoto_ne _ _ _ hat] at ha
      by_cases hbt : b = t
      · subst hbt
        rw [mgoto_self]
        constructor
        · cases hx : q.writes with
          | false => rfl
          | true => have := ((hw hx).2 a hat).1; rw [ha] at this; cases this
        · cases hx : q.reads with
          | false => rfl
          | true => have := (hr hx).2 a hat; rw [ha] at this; cases this
      · rw [mgoto_ne _ _ _ hbt]; exact h.mutex a b hab ha
  · intro hp u
    have hp' : s.poisoned = true := hp
    by_cases hu : u = t
    · subst hu
      rw [mgoto_self]
      constructor
      · cases hx : q.writes with
        | false => rfl
        | true => have := (hw hx).1; rw [hp'] at this; cases this
      · cases hx : q.reads with
        | false => rfl
        | true => have := (hr hx).1; rw [hp'] at this; cases this
    · rw [mgoto_ne _ _ _ hu]; exact h.poison hp' u
  · intro hp k hk h1 h2
    refine h.fresh hp k hk (fun u e0 => ?_) (fun u v e0 => ?_)
    · by_cases hu : u = t
      · subst hu; exact hc k e0
      · have := h1 u e0; rwa [mgoto_ne _ _ _ hu] at this
    · by_cases hu : u = t
      · subst hu; exact hc' k v e0
      · have := h2 u v e0; rwa [mgoto_ne _ _ _ hu] at this

/-- A thread in the write section excludes all others and poison. -/
theorem MInv.alone {s : MState K V} (h : MInv allowed s) {t : Nat} (ht : (s.pc t).writes = true) :
    s.poisoned = false ∧ ∀ u, u ≠ t → (s.pc u).writes = false ∧ (s.pc u).reads = false := by
  constructor
  · cases hp : s.poisoned with
    | false => rfl
    | true => have := (h.poison hp t).1; rw [ht] at this; cases this
  · intro u hu; exact h.mutex t u (Ne.symm hu) ht

/-- Mutual exclusion after a step of a writer. -/
theorem mutex_after {s : MState K V} (h : MInv allowed s) {t : Nat} (ht : (s.pc t).writes = true) (q : MPc K V)
    (s' : MState K V) (hs' : s'.pc = s.pc) :
    ∀ a b, a ≠ b → ((s'.goto t q).pc a).writes = true →
      ((s'.goto t q).pc b).writes = false ∧ ((s'.goto t q).pc b).reads = false := by
  intro a b hab ha
  have hal := (h.alone ht).2
  by_cases hat : a = t
  · subst hat
    rw [mgoto_ne _ _ _ (Ne.symm hab), hs']
    exact hal b (Ne.symm hab)
  · rw [mgoto_ne _ _ _ hat, hs', (hal a hat).1] at ha
    cases ha

/-- The facts of the other threads after a step of a writer. -/
theorem others_after {s : MState K V} (h : MInv allowed s) {t : Nat} (ht : (s.pc t).writes = true) (q : MPc K V)
    (s' : MState K V) (hs' : s'.pc = s.pc) (he : s.epoch ≤ s'.epoch) (hr : ∀ x, x ∈ s.results → x ∈ s'.results)
    (hq : PcOk s' q) : ∀ u, PcOk (s'.goto t q) ((s'.goto t q).pc u) := by
  intro u
  by_cases hu : u = t
  · subst hu; rw [mgoto_self]; exact hq.goto
  · rw [mgoto_ne _ _ _ hu, hs']
    exact ((h.pcs u).mono ((h.alone ht).2 u hu).1 he hr).goto

theorem MInv.step {s s' : MState K V} {t : Nat} (h : MInv allowed s) (hs : MStep allowed t s s') :
    MInv allowed s' := by
  cases hs with
  | call k hp =>
    exact h.move t _ (Nat.le_refl _) (fun x => by cases x) (fun x => by cases x) (by simp [hp]) (by simp [hp])
  | acqRead k e0 hp hpo hu =>
    have hk : PcOk s (s.pc t) := h.pcs t
    rw [hp] at hk
    exact h.move t _ hk (fun x => by cases x) (fun _ => ⟨hpo, fun u _ => hu u⟩) (by simp [hp]) (by simp [hp])
  | readPoison k e0 hp hpo =>
    exact h.move t _ trivial (fun x => by cases x) (fun x => by cases x) (by simp [hp]) (by simp [hp])
  | readHit k e0 v hp hc =>
    have hk : PcOk s (s.pc t) := h.pcs t
    rw [hp] at hk
    exact h.move t _ ⟨hk, Nat.le_refl _, h.cacheVal k v hc⟩ (fun x => by cases x) (fun x => by cases x)
      (by simp [hp]) (by simp [hp])
  | readMiss k e0 hp hc =>
    have hk : PcOk s (s.pc t) := h.pcs t
    rw [hp] at hk
    exact h.move t _ hk (fun x => by cases x) (fun x => by cases x) (by simp [hp]) (by simp [hp])
  | acqWrite k e0 hp hpo hu =>
    have hk : PcOk s (s.pc t) := h.pcs t
    rw [hp] at hk
    exact h.move t _ hk (fun _ => ⟨hpo, fun u _ => hu u⟩) (fun x => by cases x) (by simp [hp]) (by simp [hp])
  | writePoison k e0 hp hpo =>
    exact h.move t _ trivial (fun x => by cases x) (fun x => by cases x) (by simp [hp]) (by simp [hp])
  | writeHit k e0 v hp hc =>
    have hk : PcOk s (s.pc t) := h.pcs t
    rw [hp] at hk
    exact h.move t _ ⟨hk, Nat.le_refl _, h.cacheVal k v hc⟩ (fun x => by cases x) (fun x => by cases x)
      (by simp [hp]) (by simp [hp])
  | callClear hp =>
    exact h.move t _ trivial (fun x => by cases x) (fun x => by cases x) (by simp [hp]) (by simp [hp])
  | acqClear hp hpo hu =>
    exact h.move t _ trivial (fun _ => ⟨hpo, fun u _ => hu u⟩) (fun x => by cases x) (by simp [hp]) (by simp [hp])
  | clearPoison hp hpo =>
    exact h.move t _ trivial (fun x => by cases x) (fun x => by cases x) (by simp [hp]) (by simp [hp])
  | ret k v e0 e hp =>
    have hk : PcOk s (s.pc t) := h.pcs t
    rw [hp] at hk
    have h1 := h.move t .idle trivial (fun x => by cases x) (fun x => by cases x) (by simp [hp]) (by simp [hp])
    refine ⟨fun u => ?_, h1.mutex, h1.poison, h1.cacheVal, h1.startsOnce, h1.startsEpoch, h1.fresh, h1.resStart,
      h1.resUnique, h1.resAllowed, ?_⟩
    · have h2 := h1.pcs u
      revert h2
      show PcOk (s.goto t .idle) ((s.goto t .idle).pc u) → _
      cases hx : (s.goto t .idle).pc u <;> intro h2 <;>
        (show PcOk _ ((s.goto t .idle).pc u); rw [hx]; exact h2)
    · intro r hr
      rcases List.mem_cons.mp hr with rfl | hr
      · exact ⟨hk.2.2, hk.1, hk.2.1⟩
      · exact h.rets r hr
  | compute k e0 hp hc =>
    have ht : (s.pc t).writes = true := by rw [hp]; rfl
    have hk : PcOk s (s.pc t) := h.pcs t
    rw [hp] at hk
    have hal := h.alone ht
    have hnc : ∀ k' u e, s.pc u ≠ .computing k' e := by
      intro k' u e hu
      by_cases hut : u = t
      · subst hut; rw [hp] at hu; cases hu
      · have := (hal.2 u hut).1; rw [hu] at this; cases this
    have hnd : ∀ k' u v e, s.pc u ≠ .computed k' v e := by
      intro k' u v e hu
      by_cases hut : u = t
      · subst hut; rw [hp] at hu; cases hu
      · have := (hal.2 u hut).1; rw [hu] at this; cases this
    have hfr := h.fresh hal.1 k hc (hnc k) (hnd k)
    refine ⟨?_, mutex_after h ht _ _ rfl, ?_, h.cacheVal, ?_, ?_, ?_, ?_, h.resUnique, h.resAllowed, h.rets⟩
    · refine others_after h ht _ _ rfl (Nat.le_refl _) (fun _ h => h) ⟨hk, hc, List.mem_cons_self, ?_⟩
      intro v hv
      exact hfr (h.resStart _ _ _ hv)
    · intro hpo; rw [show s.poisoned = true from hpo] at hal; cases hal.1
    · exact List.nodup_cons.mpr ⟨hfr, h.startsOnce⟩
    · intro e k' hm
      rcases List.mem_cons.mp hm with heq | hm
      · cases heq; exact Nat.le_refl _
      · exact h.startsEpoch e k' hm
    · intro hpo k' hk' h1 h2 hm
      have hne : k' ≠ k := by
        intro heq
        subst heq
        exact h1 t e0 (mgoto_self _ _ _)
      rcases List.mem_cons.mp hm with heq | hm
      · exact hne (by cases heq; rfl)
      · exact h.fresh hal.1 k' hk' (hnc k') (hnd k') hm
    · intro e k' v hv
      exact List.mem_cons_of_mem _ (h.resStart e k' v hv)
  | computed k e0 v hp hav =>
    have ht : (s.pc t).writes = true := by rw [hp]; rfl
    have hk : PcOk s (s.pc t) := h.pcs t
    rw [hp] at hk
    have hal := h.alone ht
    refine ⟨?_, mutex_after h ht _ _ rfl, ?_, ?_, h.startsOnce, h.startsEpoch, ?_, ?_, ?_, ?_, ?_⟩
    · exact others_after h ht _ _ rfl (Nat.le_refl _) (fun _ h => List.mem_cons_of_mem _ h)
        ⟨hk.1, hk.2.1, List.mem_cons_self⟩
    · intro hpo; rw [show s.poisoned = true from hpo] at hal; cases hal.1
    · intro k' v' hc; exact List.mem_cons_of_mem _ (h.cacheVal k' v' hc)
    · intro hpo k' hk' h1 h2
      have hne : k' ≠ k := by
        intro heq
        subst heq
        exact h2 t v e0 (mgoto_self _ _ _)
      refine h.fresh hal.1 k' hk' (fun u e hu => ?_) (fun u v' e hu => ?_)
      · by_cases hut : u = t
        · subst hut; rw [hp] at hu; cases hu; exact hne rfl
        · have := (hal.2 u hut).1; rw [hu] at this; cases this
      · by_cases hut : u = t
        · subst hut; rw [hp] at hu; cases hu
        · have := (hal.2 u hut).1; rw [hu] at this; cases this
    · intro e k' v' hv
      rcases List.mem_cons.mp hv with heq | hv
      · cases heq; exact hk.2.2.1
      · exact h.resStart e k' v' hv
    · intro e k' v1 v2 h1 h2
      rcases List.mem_cons.mp h1 with heq1 | h1 <;> rcases List.mem_cons.mp h2 with heq2 | h2
      · cases heq1; cases heq2; rfl
      · cases heq1; exact absurd h2 (hk.2.2.2 _)
      · cases heq2; exact absurd h1 (hk.2.2.2 _)
      · exact h.resUnique e k' v1 v2 h1 h2
    · intro e k' v' hv
      rcases List.mem_cons.mp hv with heq | hv
      · cases heq; exact hav
      · exact h.resAllowed e k' v' hv
    · intro r hr
      have := h.rets r hr
      exact ⟨List.mem_cons_of_mem _ this.1, this.2⟩
  | fnPanic k e0 hp =>
    have ht : (s.pc t).writes = true := by rw [hp]; rfl
    have hal := h.alone ht
    refine ⟨?_, mutex_after h ht _ _ rfl, ?_, h.cacheVal, h.startsOnce, h.startsEpoch, ?_, h.resStart,
      h.resUnique, h.resAllowed, h.rets⟩
    · exact others_after h ht _ _ rfl (Nat.le_refl _) (fun _ h => h) trivial
    · intro _ u
      by_cases hu : u = t
      · subst hu; rw [mgoto_self]; exact ⟨rfl, rfl⟩
      · rw [mgoto_ne _ _ _ hu]; exact hal.2 u hu
    · intro hpo; cases hpo
  | insert k v e0 hp =>
    have ht : (s.pc t).writes = true := by rw [hp]; rfl
    have hk : PcOk s (s.pc t) := h.pcs t
    rw [hp] at hk
    have hal := h.alone ht
    refine ⟨?_, mutex_after h ht _ _ rfl, ?_, ?_, h.startsOnce, h.startsEpoch, ?_, h.resStart,
      h.resUnique, h.resAllowed, h.rets⟩
    · exact others_after h ht _ _ rfl (Nat.le_refl _) (fun _ h => h) ⟨hk.1, Nat.le_refl _, hk.2.2⟩
    · intro hpo; rw [show s.poisoned = true from hpo] at hal; cases hal.1
    · intro k' v' hc
      have hc' : mInsert s.cache k v k' = some v' := hc
      unfold mInsert at hc'
      split at hc'
      · rename_i heq; subst heq; cases hc'; exact hk.2.2
      · exact h.cacheVal k' v' hc'
    · intro hpo k' hk' h1 h2
      have hk'' : mInsert s.cache k v k' = none := hk'
      unfold mInsert at hk''
      split at hk''
      · cases hk''
      · rename_i hne
        refine h.fresh hal.1 k' hk'' (fun u e hu => ?_) (fun u v' e hu => ?_)
        · by_cases hut : u = t
          · subst hut; rw [hp] at hu; cases hu
          · have := (hal.2 u hut).1; rw [hu] at this; cases this
        · by_cases hut : u = t
          · subst hut; rw [hp] at hu; cases hu; exact hne rfl
          · have := (hal.2 u hut).1; rw [hu] at this; cases this
  | clear hp =>
    have ht : (s.pc t).writes = true := by rw [hp]; rfl
    have hal := h.alone ht
    refine ⟨?_, mutex_after h ht _ _ rfl, ?_, ?_, h.startsOnce, ?_, ?_, h.resStart,
      h.resUnique, h.resAllowed, h.rets⟩
    · exact others_after h ht _ _ rfl (Nat.le_succ _) (fun _ h => h) trivial
    · intro hpo; rw [show s.poisoned = true from hpo] at hal; cases hal.1
    · intro k v hc; cases hc
    · intro e k hm; exact Nat.le_succ_of_le (h.startsEpoch e k hm)
    · intro _ k _ _ _ hm
      exact absurd (h.startsEpoch _ k hm) (by show ¬ s.epoch + 1 ≤ s.epoch; omega)

theorem MInv.run {s s' : MState K V} (h : MInv allowed s) (hr : MRun allowed s s') : MInv allowed s' := by
  induction hr with
  | refl => exact h
  | step _ hs ih => exact ih.step hs

/-! ## C46 -/

/-- Every finished call for a key returned a value that some caller's closure produced for that key, at a moment
between the beginning and the end of the call (no clear in between for the value: it was produced in the same
epoch in which it was read). -/
theorem c46_produced {s : MState K V} (hr : MRun allowed MState.init s) (r : MRet K V) (h : r ∈ s.rets) :
    (r.at_, r.key, r.val) ∈ s.results ∧ allowed r.key r.val ∧ r.began ≤ r.at_ ∧ r.at_ ≤ r.ended := by
  have hi := (MInv.init (allowed := allowed)).run hr
  have := hi.rets r h
  exact ⟨this.1, hi.resAllowed _ _ _ this.1, this.2⟩

/-- Between two clears, all calls for a key return the same value. -/
theorem c46_agree {s : MState K V} (hr : MRun allowed MState.init s) (r r' : MRet K V) (h : r ∈ s.rets)
    (h' : r' ∈ s.rets) (hk : r.key = r'.key) (he : r.began = r.ended) (he' : r'.began = r'.ended)
    (hee : r.began = r'.began) : r.val = r'.val := by
  have hi := (MInv.init (allowed := allowed)).run hr
  have h1 := hi.rets r h
  have h2 := hi.rets r' h'
  have ha : r.at_ = r'.at_ := by omega
  rw [hk, ha] at h1
  exact hi.resUnique _ _ _ _ h1.1 h2.1

/-- More generally, two calls that read in the same epoch return the same value. -/
theorem c46_agree_epoch {s : MState K V} (hr : MRun allowed MState.init s) (r r' : MRet K V) (h : r ∈ s.rets)
    (h' : r' ∈ s.rets) (hk : r.key = r'.key) (ha : r.at_ = r'.at_) : r.val = r'.val := by
  have hi := (MInv.init (allowed := allowed)).run hr
  have h1 := (hi.rets r h).1
  have h2 := (hi.rets r' h').1
  rw [hk, ha] at h1
  exact hi.resUnique _ _ _ _ h1 h2

/-- Between two clears the closures run at most once for a key: every `(epoch, key)` occurs at most once in the
list of started executions (executions that panic included). -/
theorem c46_once {s : MState K V} (hr : MRun allowed MState.init s) (e : Nat) (k : K) :
    s.starts.count (e, k) ≤ 1 :=
  List.nodup_iff_count.mp ((MInv.init (allowed := allowed)).run hr).startsOnce _

/-- With a pure function every call returns its value. -/
theorem c46_pure (f : K → V) {s : MState K V} (hr : MRun (fun k v => v = f k) MState.init s) (r : MRet K V)
    (h : r ∈ s.rets) : r.val = f r.key := (c46_produced hr r h).2.1

/-- A panic of the closure poisons the memoizer: afterwards no closure runs and no thread is in the lock. -/
theorem c46_poisoned {s s' : MState K V} (hr : MRun allowed MState.init s) (hp : s.poisoned = true) {t : Nat}
    (hs : MStep allowed t s s') : s'.poisoned = true ∧ s'.starts = s.starts ∧ s'.cache = s.cache := by
  have hi := (MInv.init (allowed := allowed)).run hr
  have hw := hi.poison hp t
  cases hs with
  | compute k e0 hpc => rw [hpc] at hw; cases hw.1
  | insert k v e0 hpc => rw [hpc] at hw; cases hw.1
  | clear hpc => rw [hpc] at hw; cases hw.1
  | fnPanic => exact ⟨rfl, rfl, rfl⟩
  | _ => exact ⟨hp, rfl, rfl⟩

/-- Mutual exclusion, and no deadlock: in every reachable state, when some thread is inside a call then some thread
can take a step (a closure that returns counts as a step). -/
theorem c46_progress {s : MState K V} (hall : ∀ k, ∃ v, allowed k v) (t : Nat)
    (ht : s.pc t ≠ .idle ∧ s.pc t ≠ .panicked) : ∃ u s', MStep allowed u s s' ∧ s.pc u ≠ .idle := by
  by_cases hw : ∃ u, (s.pc u).writes = true
  · obtain ⟨u, hu⟩ := hw
    cases hp : s.pc u with
    | inWrite k e0 =>
      cases hc : s.cache k with
      | none => exact ⟨u, _, .compute s k e0 hp hc, by simp [hp]⟩
      | some v => exact ⟨u, _, .writeHit s k e0 v hp hc, by simp [hp]⟩
    | computing k e0 =>
      obtain ⟨v, hv⟩ := hall k
      exact ⟨u, _, .computed s k e0 v hp hv, by simp [hp]⟩
    | computed k v e0 => exact ⟨u, _, .insert s k v e0 hp, by simp [hp]⟩
    | inClear => exact ⟨u, _, .clear s hp, by simp [hp]⟩
    | _ => rw [hp] at hu; cases hu
  · by_cases hrd : ∃ u, (s.pc u).reads = true
    · obtain ⟨u, hu⟩ := hrd
      cases hp : s.pc u with
      | inRead k e0 =>
        cases hc : s.cache k with
        | none => exact ⟨u, _, .readMiss s k e0 hp hc, by simp [hp]⟩
        | some v => exact ⟨u, _, .readHit s k e0 v hp hc, by simp [hp]⟩
      | _ => rw [hp] at hu; cases hu
    · have hw' : ∀ u, (s.pc u).writes = false := by
        intro u
        cases hx : (s.pc u).writes with
        | false => rfl
        | true => exact absurd ⟨u, hx⟩ hw
      have hr' : ∀ u, (s.pc u).reads = false := by
        intro u
        cases hx : (s.pc u).reads with
        | false => rfl
        | true => exact absurd ⟨u, hx⟩ hrd
      cases hp : s.pc t with
      | idle => exact absurd hp ht.1
      | panicked => exact absurd hp ht.2
      | wantRead k e0 =>
        cases hpo : s.poisoned with
        | false => exact ⟨t, _, .acqRead s k e0 hp hpo hw', by simp [hp]⟩
        | true => exact ⟨t, _, .readPoison s k e0 hp hpo, by simp [hp]⟩
      | wantWrite k e0 =>
        cases hpo : s.poisoned with
        | false => exact ⟨t, _, .acqWrite s k e0 hp hpo fun u => ⟨hw' u, hr' u⟩, by simp [hp]⟩
        | true => exact ⟨t, _, .writePoison s k e0 hp hpo, by simp [hp]⟩
      | wantClear =>
        cases hpo : s.poisoned with
        | false => exact ⟨t, _, .acqClear s hp hpo fun u => ⟨hw' u, hr' u⟩, by simp [hp]⟩
        | true => exact ⟨t, _, .clearPoison s hp hpo, by simp [hp]⟩
      | returning k v e0 e => exact ⟨t, _, .ret s k v e0 e hp, by simp [hp]⟩
      | inRead k e0 => have := hr' t; rw [hp] at this; cases this
      | inWrite k e0 => have := hw' t; rw [hp] at this; cases this
      | computing k e0 => have := hw' t; rw [hp] at this; cases this
      | computed k v e0 => have := hw' t; rw [hp] at this; cases this
      | inClear => have := hw' t; rw [hp] at this; cases this

/-- Two threads ask for key 1 with different closures; both miss in the first check; the first computes 10, the
second finds it in the second check. -/
example : ∃ s : MState Nat Nat, MRun (fun _ _ => True) MState.init s ∧
    s.rets.map (fun r => (r.key, r.val)) = [(1, 10), (1, 10)] ∧ s.starts = [(0, 1)] := by
  have hw : ∀ u : Nat, u = 0 ∨ u = 1 ∨ (u ≠ 0 ∧ u ≠ 1) := by intro u; omega
  have r0 : MRun (fun _ _ => True) (MState.init : MState Nat Nat) MState.init := .refl _
  have r1 := r0.step (MStep.call (t := 0) _ 1 rfl)
  have r2 := r1.step (MStep.acqRead (t := 0) _ 1 0 rfl rfl
    (fun u => by rcases hw u with h | h | h <;> simp [MState.goto, h, MPc.writes, MState.init]))
  have r3 := r2.step (MStep.readMiss (t := 0) _ 1 0 rfl rfl)
  have r4 := r3.step (MStep.call (t := 1) _ 1 rfl)
  have r5 := r4.step (MStep.acqRead (t := 1) _ 1 0 rfl rfl
    (fun u => by rcases hw u with h | h | h <;> simp [MState.goto, h, MPc.writes, MState.init]))
  have r6 := r5.step (MStep.readMiss (t := 1) _ 1 0 rfl rfl)
  have r7 := r6.step (MStep.acqWrite (t := 0) _ 1 0 rfl rfl
    (fun u => by rcases hw u with h | h | h <;> simp [MState.goto, h, MPc.writes, MPc.reads, MState.init]))
  have r8 := r7.step (MStep.compute (t := 0) _ 1 0 rfl rfl)
  have r9 := r8.step (MStep.computed (t := 0) _ 1 0 10 rfl trivial)
  have r10 := r9.step (MStep.insert (t := 0) _ 1 10 0 rfl)
  have r11 := r10.step (MStep.ret (t := 0) _ 1 10 0 0 rfl)
  have r12 := r11.step (MStep.acqWrite (t := 1) _ 1 0 rfl rfl
    (fun u => by rcases hw u with h | h | h <;> simp [MState.goto, h, MPc.writes, MPc.reads, MState.init]))
  have r13 := r12.step (MStep.writeHit (t := 1) _ 1 0 10 rfl rfl)
  have r14 := r13.step (MStep.ret (t := 1) _ 1 10 0 0 rfl)
  exact ⟨_, r14, rfl, rfl⟩

/-- A run in which thread 0 asks for key 1, computes 10 and returns it: `c46_produced`, `c46_agree`, `c46_agree_epoch`,
`c46_once` and `c46_pure` apply to it. -/
example : ∃ s : MState Nat Nat, MRun (fun k v => v = k * 10) MState.init s ∧ ∃ r ∈ s.rets, r.key = 1 ∧ r.val = 10 ∧
    (r.at_, 1, 10) ∈ s.results ∧ s.starts.count (0, 1) ≤ 1 := by
  have hw : ∀ u : Nat, u = 0 ∨ u ≠ 0 := by intro u; omega
  have r0 : MRun (fun k v => v = k * 10) (MState.init : MState Nat Nat) MState.init := .refl _
  have r1 := r0.step (MStep.call (t := 0) _ 1 rfl)
  have r2 := r1.step (MStep.acqRead (t := 0) _ 1 0 rfl rfl
    (fun u => by rcases hw u with h | h <;> simp [MState.goto, h, MPc.writes, MState.init]))
  have r3 := r2.step (MStep.readMiss (t := 0) _ 1 0 rfl rfl)
  have r4 := r3.step (MStep.acqWrite (t := 0) _ 1 0 rfl rfl
    (fun u => by rcases hw u with h | h <;> simp [MState.goto, h, MPc.writes, MPc.reads, MState.init]))
  have r5 := r4.step (MStep.compute (t := 0) _ 1 0 rfl rfl)
  have r6 := r5.step (MStep.computed (t := 0) _ 1 0 10 rfl rfl)
  have r7 := r6.step (MStep.insert (t := 0) _ 1 10 0 rfl)
  have r8 := r7.step (MStep.ret (t := 0) _ 1 10 0 0 rfl)
  have hm := List.mem_singleton.2 (rfl : (⟨1, 10, 0, 0, 0⟩ : MRet Nat Nat) = ⟨1, 10, 0, 0, 0⟩)
  exact ⟨_, r8, _, hm, rfl, c46_pure (fun k => k * 10) r8 _ hm, (c46_produced r8 _ hm).1, c46_once r8 0 1⟩

/-- `c46_poisoned`: the closure panics, and every later call panics too. -/
example : ∃ s s' : MState Nat Nat, MRun (fun _ _ => True) MState.init s ∧ s.poisoned = true ∧ MStep (fun _ _ => True) 1 s s' ∧
    s'.pc 1 = .panicked ∧ s'.starts = s.starts := by
  have hw : ∀ u : Nat, u = 0 ∨ u ≠ 0 := by intro u; omega
  have r0 : MRun (fun _ _ => True) (MState.init : MState Nat Nat) MState.init := .refl _
  have r1 := r0.step (MStep.call (t := 0) _ 1 rfl)
  have r2 := r1.step (MStep.acqRead (t := 0) _ 1 0 rfl rfl
    (fun u => by rcases hw u with h | h <;> simp [MState.goto, h, MPc.writes, MState.init]))
  have r3 := r2.step (MStep.readMiss (t := 0) _ 1 0 rfl rfl)
  have r4 := r3.step (MStep.acqWrite (t := 0) _ 1 0 rfl rfl
    (fun u => by rcases hw u with h | h <;> simp [MState.goto, h, MPc.writes, MPc.reads, MState.init]))
  have r5 := r4.step (MStep.compute (t := 0) _ 1 0 rfl rfl)
  have r6 := r5.step (MStep.fnPanic (t := 0) _ 1 0 rfl)
  have r7 := r6.step (MStep.call (t := 1) _ 2 rfl)
  exact ⟨_, _, r7, rfl, MStep.readPoison (t := 1) _ 2 0 rfl rfl, rfl,
    (c46_poisoned r7 rfl (MStep.readPoison (t := 1) _ 2 0 rfl rfl)).2.1⟩

end Rustica
