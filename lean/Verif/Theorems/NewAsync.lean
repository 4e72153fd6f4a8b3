import Verif.Effect.NewAsync

/-!
# C44
-/

namespace Rustica
open NAState

variable {A : Type}

/-- The thread holds the future or its value that is not yet stored. -/
def NAPc.holds : NAPc A → Bool
  | .running => true
  | .computed _ => true
  | _ => false

/-- The invariant of all schedules. -/
structure NAInv (s : NAState A) : Prop where
  starts : s.starts = if s.slot then 0 else 1
  one : ∀ t u, (s.pc t).holds = true → (s.pc u).holds = true → t = u
  holdsSlot : ∀ t, (s.pc t).holds = true → s.slot = false
  holdsCache : ∀ t, (s.pc t).holds = true → s.cache = none
  cacheVal : ∀ v, s.cache = some v → s.produced = some v
  cacheSlot : ∀ v, s.cache = some v → s.slot = false
  runningVal : ∀ t, s.pc t = .running → s.produced = none
  computedVal : ∀ t v, s.pc t = .computed v → s.produced = some v
  doneVal : ∀ t v, s.pc t = .done v → s.cache = some v
  slotVal : s.slot = true → s.produced = none
  gone : s.slot = false → s.cache = none → s.crashed = false → ∃ t, (s.pc t).holds = true
  crashVal : s.crashed = true → s.produced = none ∧ s.cache = none
  crashHold : s.crashed = true → s.slot = false ∧ ∀ t, (s.pc t).holds = false
  late : ∀ t, s.pc t = .late → s.slot = false

theorem NAInv.init : NAInv (NAState.init : NAState A) := by
  constructor <;> simp [NAState.init, NAPc.holds]

@[simp] theorem goto_pc_self (s : NAState A) (t : Nat) (p : NAPc A) : (s.goto t p).pc t = p := by simp [goto]
theorem goto_pc_ne (s : NAState A) (t : Nat) (p : NAPc A) {u : Nat} (h : u ≠ t) : (s.goto t p).pc u = s.pc u := by
  simp [goto, h]
@[simp] theorem goto_cache (s : NAState A) (t : Nat) (p : NAPc A) : (s.goto t p).cache = s.cache := rfl
@[simp] theorem goto_slot (s : NAState A) (t : Nat) (p : NAPc A) : (s.goto t p).slot = s.slot := rfl
@[simp] theorem goto_starts (s : NAState A) (t : Nat) (p : NAPc A) : (s.goto t p).starts = s.starts := rfl
@[simp] theorem goto_produced (s : NAState A) (t : Nat) (p : NAPc A) : (s.goto t p).produced = s.produced := rfl
@[simp] theorem goto_crashed (s : NAState A) (t : Nat) (p : NAPc A) : (s.goto t p).crashed = s.crashed := rfl

/-- A step of `t` between states outside the holding section that changes nothing shared. -/
theorem NAInv.move {s : NAState A} (h : NAInv s) (t : Nat) (p : NAPc A) (h0 : (s.pc t).holds = false)
    (h1 : p.holds = false) (h2 : ∀ v, p = .done v → s.cache = some v) (h3 : p = .late → s.slot = false) :
    NAInv (s.goto t p) := by
  have hpc : ∀ u, ((s.goto t p).pc u).holds = (s.pc u).holds := by
    intro u
    by_cases hu : u = t
    · subst hu; simp [h0, h1]
    · rw [goto_pc_ne _ _ _ hu]
  refine ⟨h.starts, ?_, ?_, ?_, h.cacheVal, h.cacheSlot, ?_, ?_, ?_, h.slotVal, ?_, h.crashVal, ?_, ?_⟩
  · intro a b ha hb; rw [hpc] at ha hb; exact h.one a b ha hb
  · intro a ha; rw [hpc] at ha; exact h.holdsSlot a ha
  · intro a ha; rw [hpc] at ha; exact h.holdsCache a ha
  · intro u hu
    by_cases hut : u = t
    · subst hut; rw [goto_pc_self] at hu; subst hu; cases h1
    · rw [goto_pc_ne _ _ _ hut] at hu; exact h.runningVal u hu
  · intro u v hu
    by_cases hut : u = t
    · subst hut; rw [goto_pc_self] at hu; subst hu; cases h1
    · rw [goto_pc_ne _ _ _ hut] at hu; exact h.computedVal u v hu
  · intro u v hu
    by_cases hut : u = t
    · subst hut; rw [goto_pc_self] at hu; exact h2 v hu
    · rw [goto_pc_ne _ _ _ hut] at hu; exact h.doneVal u v hu
  · intro a b c
    obtain ⟨u, hu⟩ := h.gone a b c
    exact ⟨u, by rw [hpc]; exact hu⟩
  · intro hc
    refine ⟨(h.crashHold hc).1, fun u => ?_⟩
    rw [hpc]; exact (h.crashHold hc).2 u
  · intro u hu
    by_cases hut : u = t
    · subst hut; rw [goto_pc_self] at hu; exact h3 hu
    · rw [goto_pc_ne _ _ _ hut] at hu; exact h.late u hu

theorem inactive_not_holds {p : NAPc A} (h : p.inactive = true) : p.holds = false := by
  cases p <;> simp_all [NAPc.inactive, NAPc.holds]

theorem NAInv.step {s s' : NAState A} {t : Nat} (h : NAInv s) (hs : NAStep t s s') : NAInv s' := by
  cases hs with
  | start hp =>
    exact h.move t .calling (inactive_not_holds hp) rfl (fun v hv => by cases hv) (fun hv => by cases hv)
  | hit v hp hc =>
    exact h.move t (.done v) (by simp [hp, NAPc.holds]) rfl (fun v' hv => by cases hv; exact hc)
      (fun hv => by cases hv)
  | miss hp hc =>
    exact h.move t .missed (by simp [hp, NAPc.holds]) rfl (fun v hv => by cases hv) (fun hv => by cases hv)
  | late hp hc =>
    exact h.move t .late (by simp [hp, NAPc.holds]) rfl (fun v hv => by cases hv) (fun _ => hc)
  | lateHit v hp hc =>
    exact h.move t (.done v) (by simp [hp, NAPc.holds]) rfl (fun v' hv => by cases hv; exact hc)
      (fun hv => by cases hv)
  | latePanic hp hc =>
    exact h.move t .panicked (by simp [hp, NAPc.holds]) rfl (fun v hv => by cases hv) (fun hv => by cases hv)
  | take hp hsl =>
    have hno : ∀ u, (s.pc u).holds = false := by
      intro u
      cases hu : (s.pc u).holds with
      | false => rfl
      | true => have := h.holdsSlot u hu; rw [hsl] at this; cases this
    have hcache : s.cache = none := by
      cases hc : s.cache with
      | none => rfl
      | some v => have := h.cacheSlot v hc; rw [hsl] at this; cases this
    have hcr : s.crashed = false := by
      cases hc : s.crashed with
      | false => rfl
      | true => have := (h.crashHold hc).1; rw [hsl] at this; cases this
    have hpc : ∀ u, ((({ s with slot := false, starts := s.starts + 1 } : NAState A).goto t .running).pc u).holds =
        true → u = t := by
      intro u hu
      apply Classical.byContradiction
      intro hne
      rw [goto_pc_ne _ _ _ hne] at hu
      rw [show (s.pc u).holds = false from hno u] at hu
      cases hu
    refine ⟨?_, ?_, ?_, ?_, ?_, ?_, ?_, ?_, ?_, ?_, ?_, ?_, ?_, ?_⟩
    · have := h.starts; rw [hsl] at this; simp only [if_true] at this; simp [this]
    · intro a b ha hb; rw [hpc a ha, hpc b hb]
    · intro _ _; rfl
    · intro _ _; exact hcache
    · exact h.cacheVal
    · intro _ _; rfl
    · intro _ _; exact h.slotVal hsl
    · intro u v hu
      by_cases hut : u = t
      · subst hut; rw [goto_pc_self] at hu; cases hu
      · rw [goto_pc_ne _ _ _ hut] at hu; exact h.computedVal u v hu
    · intro u v hu
      by_cases hut : u = t
      · subst hut; rw [goto_pc_self] at hu; cases hu
      · rw [goto_pc_ne _ _ _ hut] at hu; exact h.doneVal u v hu
    · intro h; cases h
    · intro _ _ _; exact ⟨t, by simp [NAPc.holds]⟩
    · exact h.crashVal
    · intro hc; exact absurd (show s.crashed = true from hc) (by rw [hcr]; exact Bool.false_ne_true)
    · intro _ _; rfl
  | complete v hp =>
    have hh : (s.pc t).holds = true := by simp [hp, NAPc.holds]
    have hcr : s.crashed = false := by
      cases hc : s.crashed with
      | false => rfl
      | true => have := (h.crashHold hc).2 t; rw [hh] at this; cases this
    have hsl := h.holdsSlot t hh
    have hcn := h.holdsCache t hh
    have hpc : ∀ u, ((({ s with produced := some v } : NAState A).goto t (.computed v)).pc u).holds =
        (s.pc u).holds := by
      intro u
      by_cases hu : u = t
      · subst hu; rw [goto_pc_self, hh]; rfl
      · rw [goto_pc_ne _ _ _ hu]
    refine ⟨h.starts, ?_, ?_, ?_, ?_, h.cacheSlot, ?_, ?_, ?_, ?_, ?_, ?_, ?_, ?_⟩
    · intro a b ha hb; rw [hpc] at ha hb; exact h.one a b ha hb
    · intro _ _; exact hsl
    · intro _ _; exact hcn
    · intro v' hv; rw [show s.cache = some v' from hv] at hcn; cases hcn
    · intro u hu
      by_cases hut : u = t
      · subst hut; rw [goto_pc_self] at hu; cases hu
      · rw [goto_pc_ne _ _ _ hut] at hu
        exact absurd (h.one u t (by rw [show s.pc u = .running from hu]; rfl) hh) hut
    · intro u v' hu
      by_cases hut : u = t
      · subst hut; rw [goto_pc_self] at hu; cases hu; rfl
      · rw [goto_pc_ne _ _ _ hut] at hu
        exact absurd (h.one u t (by rw [show s.pc u = .computed v' from hu]; rfl) hh) hut
    · intro u v' hu
      by_cases hut : u = t
      · subst hut; rw [goto_pc_self] at hu; cases hu
      · rw [goto_pc_ne _ _ _ hut] at hu; exact h.doneVal u v' hu
    · intro hs; exact absurd (show s.slot = true from hs) (by rw [hsl]; exact Bool.false_ne_true)
    · intro _ _ _; exact ⟨t, by simp [NAPc.holds]⟩
    · intro hc; exact absurd (show s.crashed = true from hc) (by rw [hcr]; exact Bool.false_ne_true)
    · intro hc; exact absurd (show s.crashed = true from hc) (by rw [hcr]; exact Bool.false_ne_true)
    · intro _ _; exact hsl
  | crash hp =>
    have hh : (s.pc t).holds = true := by simp [hp, NAPc.holds]
    have hsl := h.holdsSlot t hh
    have hcn := h.holdsCache t hh
    have hpn := h.runningVal t hp
    have hpc : ∀ u, ((({ s with crashed := true } : NAState A).goto t .panicked).pc u).holds = false := by
      intro u
      by_cases hu : u = t
      · subst hu; rw [goto_pc_self]; rfl
      · rw [goto_pc_ne _ _ _ hu]
        cases hx : (s.pc u).holds with
        | false => rfl
        | true => exact absurd (h.one u t hx hh) hu
    refine ⟨h.starts, ?_, ?_, ?_, h.cacheVal, h.cacheSlot, ?_, ?_, ?_, h.slotVal, ?_, ?_, ?_, ?_⟩
    · intro a b ha; rw [hpc] at ha; cases ha
    · intro _ _; exact hsl
    · intro _ _; exact hcn
    · intro _ _; exact hpn
    · intro u v' hu
      have := hpc u; rw [hu] at this; cases this
    · intro u v' hu
      by_cases hut : u = t
      · subst hut; rw [goto_pc_self] at hu; cases hu
      · rw [goto_pc_ne _ _ _ hut] at hu; exact h.doneVal u v' hu
    · intro _ _ hc; cases hc
    · intro _; exact ⟨hpn, hcn⟩
    · intro _; exact ⟨hsl, hpc⟩
    · intro _ _; exact hsl
  | store v hp =>
    have hh : (s.pc t).holds = true := by simp [hp, NAPc.holds]
    have hsl := h.holdsSlot t hh
    have hcn := h.holdsCache t hh
    have hpv := h.computedVal t v hp
    have hcr : s.crashed = false := by
      cases hc : s.crashed with
      | false => rfl
      | true => have := (h.crashHold hc).2 t; rw [hh] at this; cases this
    have hget : s.cache.getD v = v := by rw [hcn]; rfl
    rw [hget]
    have hpc : ∀ u, ((({ s with cache := some v } : NAState A).goto t (.done v)).pc u).holds = false := by
      intro u
      by_cases hu : u = t
      · subst hu; rw [goto_pc_self]; rfl
      · rw [goto_pc_ne _ _ _ hu]
        cases hx : (s.pc u).holds with
        | false => rfl
        | true => exact absurd (h.one u t hx hh) hu
    refine ⟨h.starts, ?_, ?_, ?_, ?_, ?_, ?_, ?_, ?_, h.slotVal, ?_, ?_, ?_, ?_⟩
    · intro a b ha; rw [hpc] at ha; cases ha
    · intro _ _; exact hsl
    · intro u hu; rw [hpc] at hu; cases hu
    · intro v' hv; cases hv; exact hpv
    · intro _ _; exact hsl
    · intro u hu; have := hpc u; rw [hu] at this; cases this
    · intro u v' hu; have := hpc u; rw [hu] at this; cases this
    · intro u v' hu
      by_cases hut : u = t
      · subst hut; rw [goto_pc_self] at hu; cases hu; rfl
      · rw [goto_pc_ne _ _ _ hut] at hu
        have := h.doneVal u v' hu
        rw [hcn] at this; cases this
    · intro _ hc; cases hc
    · intro hc; exact absurd (show s.crashed = true from hc) (by rw [hcr]; exact Bool.false_ne_true)
    · intro hc; exact absurd (show s.crashed = true from hc) (by rw [hcr]; exact Bool.false_ne_true)
    · intro _ _; exact hsl

theorem NAInv.run {s s' : NAState A} (h : NAInv s) (hr : NARun s s') : NAInv s' := by
  induction hr with
  | refl => exact h
  | step _ hs ih => exact ih.step hs

/-- What the future produced stays. -/
theorem produced_stable {s s' : NAState A} (h : NAInv s) (hr : NARun s s') (v : A) (hv : s.produced = some v) :
    s'.produced = some v := by
  induction hr with
  | refl => exact hv
  | step hr hs ih =>
    have hi := h.run hr
    cases hs with
    | complete v' hp => rw [hi.runningVal _ hp] at ih; cases ih
    | _ => exact ih

/-- The cache is set once. -/
theorem cache_stable {s s' : NAState A} (hr : NARun s s') (v : A) (hv : s.cache = some v) :
    s'.cache = some v := by
  induction hr with
  | refl => exact hv
  | step hr hs ih =>
    cases hs with
    | store v' hp =>
      show some (Option.getD _ v') = _
      rw [ih]; rfl
    | _ => exact ih

/-- A crash is never forgotten. -/
theorem crashed_stable {s s' : NAState A} (hr : NARun s s') (hc : s.crashed = true) : s'.crashed = true := by
  induction hr with
  | refl => exact hc
  | step _ hs ih => cases hs <;> first | exact ih | rfl

theorem NASeqRun.toRun {s s' : NAState A} (h : NASeqRun s s') : NARun s s' := by
  induction h with
  | refl => exact .refl _
  | step _ hs _ ih => exact ih.step hs

/-! ## C44 -/

/-- For every number of threads and every schedule the future is started at most once. -/
theorem c44_once {s : NAState A} (hr : NARun NAState.init s) : s.starts ≤ 1 := by
  rw [(NAInv.init.run hr).starts]
  cases s.slot <;> simp

/-- Every runner that returns, at any time, returns the value the future produced; in particular all runners that
return agree. -/
theorem c44_value {s s' : NAState A} (hr : NARun NAState.init s) (hr' : NARun s s') (t u : Nat) (v v' : A)
    (ht : s.pc t = .done v) (hu : s'.pc u = .done v') : s.produced = some v ∧ v = v' := by
  have hi := NAInv.init.run hr
  have h1 := hi.cacheVal v (hi.doneVal t v ht)
  have hi' := hi.run hr'
  have h2 := produced_stable hi hr' v h1
  have h3 := hi'.cacheVal v' (hi'.doneVal u v' hu)
  rw [h2] at h3
  exact ⟨h1, by cases h3; rfl⟩

/-- A runner gets no value exactly in this situation: when the closure panics although the future did not, some
other thread has taken the future and not yet stored its value. -/
theorem c44_panic_exact {s : NAState A} (hr : NARun NAState.init s) (t : Nat) (hl : s.pc t = .late)
    (hc : s.cache = none) (hcr : s.crashed = false) :
    ∃ u, u ≠ t ∧ (s.pc u = .running ∨ ∃ v, s.pc u = .computed v) := by
  have hi := NAInv.init.run hr
  obtain ⟨u, hu⟩ := hi.gone (hi.late t hl) hc hcr
  refine ⟨u, ?_, ?_⟩
  · intro h; subst h; rw [hl] at hu; cases hu
  · cases hx : s.pc u with
    | running => exact .inl rfl
    | computed v => exact .inr ⟨v, rfl⟩
    | _ => rw [hx] at hu; cases hu

/-- The claim is false: two threads, a future that completes with 7; the second thread panics. -/
theorem c44_race_false : ∃ s : NAState Nat, NARun NAState.init s ∧ s.crashed = false ∧
    s.pc 0 = .done 7 ∧ s.pc 1 = .panicked := by
  have r0 : NARun (NAState.init : NAState Nat) NAState.init := .refl _
  have r1 := r0.step (NAStep.start (t := 0) _ rfl)
  have r2 := r1.step (NAStep.start (t := 1) _ rfl)
  have r3 := r2.step (NAStep.miss (t := 0) _ rfl rfl)
  have r4 := r3.step (NAStep.miss (t := 1) _ rfl rfl)
  have r5 := r4.step (NAStep.take (t := 0) _ rfl rfl)
  have r6 := r5.step (NAStep.late (t := 1) _ rfl rfl)
  have r7 := r6.step (NAStep.latePanic (t := 1) _ rfl rfl)
  have r8 := r7.step (NAStep.complete (t := 0) _ 7 rfl)
  have r9 := r8.step (NAStep.store (t := 0) _ 7 rfl)
  exact ⟨_, r9, rfl, rfl, rfl⟩

/-- A future that panics is lost: every later run panics too. -/
theorem c44_crash_permanent {s s' : NAState A} (hr : NARun NAState.init s) (hc : s.crashed = true)
    (hr' : NARun s s') (t : Nat) (v : A) : s'.pc t ≠ .done v := by
  have hi := NAInv.init.run hr
  intro hd
  have hcr := crashed_stable hr' hc
  have hi' := hi.run hr'
  have := hi'.doneVal t v hd
  rw [(hi'.crashVal hcr).2] at this
  cases this

/-- PARTIAL: once some runner has returned (the value is stored), no step of any thread panics any more, whatever
the schedule. -/
theorem c44_after_first_partial {s s1 s2 : NAState A} (hr : NARun NAState.init s) (t : Nat) (v : A)
    (hd : s.pc t = .done v) (hr1 : NARun s s1) (u : Nat) (hs : NAStep u s1 s2) :
    s2.pc u ≠ .panicked := by
  have hi := NAInv.init.run hr
  have hc := cache_stable hr1 v (hi.doneVal t v hd)
  have hi1 := hi.run hr1
  intro hp
  cases hs with
  | crash hrun =>
    have := hi1.holdsCache u (by rw [hrun]; rfl)
    rw [hc] at this; cases this
  | latePanic hl hn => rw [hc] at hn; cases hn
  | start => rw [goto_pc_self] at hp; cases hp
  | hit => rw [goto_pc_self] at hp; cases hp
  | miss => rw [goto_pc_self] at hp; cases hp
  | take => rw [goto_pc_self] at hp; cases hp
  | late => rw [goto_pc_self] at hp; cases hp
  | complete => rw [goto_pc_self] at hp; cases hp
  | store => rw [goto_pc_self] at hp; cases hp
  | lateHit => rw [goto_pc_self] at hp; cases hp

/-- PARTIAL: when runs do not overlap and the future does not panic, no run panics (so each returns the value, by
`c44_value`).  Missing: overlapping runs, where the claim is false. -/
theorem c44_sequential_partial {s : NAState A} (hr : NASeqRun NAState.init s) (hc : s.crashed = false) (t : Nat) :
    s.pc t ≠ .panicked := by
  induction hr generalizing t with
  | refl => intro h; cases h
  | step hr hs hothers ih =>
    rename_i s' s'' u
    have hi := NAInv.init.run hr.toRun
    have hc' : s'.crashed = false := by
      cases hx : s'.crashed with
      | false => rfl
      | true => rw [crashed_stable ((NARun.refl _).step hs) hx] at hc; cases hc
    have ih' := ih hc'
    have key : ∀ (q : NAState A) (p : NAPc A), q.pc = s'.pc → p ≠ .panicked → (q.goto u p).pc t ≠ .panicked := by
      intro q p hq hp
      by_cases htu : t = u
      · subst htu; rw [goto_pc_self]; exact hp
      · rw [goto_pc_ne _ _ _ htu, hq]; exact ih' t
    cases hs with
    | crash => cases hc
    | latePanic hl hn =>
      exfalso
      obtain ⟨v, hv⟩ := hi.gone (hi.late u hl) hn hc'
      by_cases hvu : v = u
      · subst hvu; rw [hl] at hv; cases hv
      · rw [inactive_not_holds (hothers v hvu)] at hv; cases hv
    | start => exact key _ _ rfl (by simp)
    | hit => exact key _ _ rfl (by simp)
    | miss => exact key _ _ rfl (by simp)
    | take => exact key _ _ rfl (by simp)
    | late => exact key _ _ rfl (by simp)
    | complete => exact key _ _ rfl (by simp)
    | store => exact key _ _ rfl (by simp)
    | lateHit => exact key _ _ rfl (by simp)

/-- No thread is ever blocked: inside a run there is always a next step (the future itself completing counts as
one). -/
theorem c44_progress [Inhabited A] (s : NAState A) (t : Nat) (h : (s.pc t).inactive = false) :
    ∃ s', NAStep t s s' := by
  cases hp : s.pc t with
  | calling =>
    cases hc : s.cache with
    | none => exact ⟨_, .miss s hp hc⟩
    | some v => exact ⟨_, .hit s v hp hc⟩
  | missed =>
    cases hc : s.slot with
    | false => exact ⟨_, .late s hp hc⟩
    | true => exact ⟨_, .take s hp hc⟩
  | running => exact ⟨_, .complete s default hp⟩
  | computed v => exact ⟨_, .store s v hp⟩
  | late =>
    cases hc : s.cache with
    | none => exact ⟨_, .latePanic s hp hc⟩
    | some v => exact ⟨_, .lateHit s v hp hc⟩
  | idle => rw [hp] at h; cases h
  | done v => rw [hp] at h; cases h
  | panicked => rw [hp] at h; cases h

/-- Two runs one after the other: both return 7. -/
example : ∃ s : NAState Nat, NASeqRun NAState.init s ∧ s.crashed = false ∧ s.pc 0 = .done 7 ∧ s.pc 1 = .done 7 ∧
    s.pc 2 ≠ .panicked := by
  have r0 : NASeqRun (NAState.init : NAState Nat) NAState.init := .refl _
  have r1 := r0.step (NAStep.start (t := 0) _ rfl) (fun u _ => rfl)
  have r2 := r1.step (NAStep.miss (t := 0) _ rfl rfl) (fun u h => by rw [goto_pc_ne _ _ _ h]; rfl)
  have r3 := r2.step (NAStep.take (t := 0) _ rfl rfl) (fun u h => by simp [goto, h, NAState.init, NAPc.inactive])
  have r4 := r3.step (NAStep.complete (t := 0) _ 7 rfl)
    (fun u h => by simp [goto, h, NAState.init, NAPc.inactive])
  have r5 := r4.step (NAStep.store (t := 0) _ 7 rfl) (fun u h => by simp [goto, h, NAState.init, NAPc.inactive])
  have r6 := r5.step (NAStep.start (t := 1) _ rfl)
    (fun u _ => by by_cases h0 : u = 0 <;> simp [goto, h0, NAState.init, NAPc.inactive])
  have r7 := r6.step (NAStep.hit (t := 1) _ 7 rfl rfl)
    (fun u h => by by_cases h0 : u = 0 <;> simp [goto, h0, h, NAState.init, NAPc.inactive])
  exact ⟨_, r7, rfl, rfl, rfl, c44_sequential_partial r7 rfl 2⟩

/-- One run that completes with 7, and then another: `c44_once`, `c44_value`, `c44_after_first_partial` apply. -/
example : ∃ s : NAState Nat, NARun NAState.init s ∧ s.pc 0 = .done 7 ∧ s.starts ≤ 1 ∧ s.produced = some 7 ∧
    ∀ s', NAStep 1 s s' → s'.pc 1 ≠ .panicked := by
  have r0 : NARun (NAState.init : NAState Nat) NAState.init := .refl _
  have r1 := r0.step (NAStep.start (t := 0) _ rfl)
  have r2 := r1.step (NAStep.miss (t := 0) _ rfl rfl)
  have r3 := r2.step (NAStep.take (t := 0) _ rfl rfl)
  have r4 := r3.step (NAStep.complete (t := 0) _ 7 rfl)
  have r5 := r4.step (NAStep.store (t := 0) _ 7 rfl)
  exact ⟨_, r5, rfl, c44_once r5, (c44_value r5 (.refl _) 0 0 7 7 rfl rfl).1,
    fun s' hs => c44_after_first_partial r5 0 7 rfl (.refl _) 1 hs⟩

/-- `c44_panic_exact`: thread 1 is about to panic while thread 0 runs the future. -/
example : ∃ s : NAState Nat, NARun NAState.init s ∧ s.pc 1 = .late ∧
    ∃ u, u ≠ 1 ∧ (s.pc u = .running ∨ ∃ v, s.pc u = .computed v) := by
  have r0 : NARun (NAState.init : NAState Nat) NAState.init := .refl _
  have r1 := r0.step (NAStep.start (t := 0) _ rfl)
  have r2 := r1.step (NAStep.miss (t := 0) _ rfl rfl)
  have r3 := r2.step (NAStep.take (t := 0) _ rfl rfl)
  have r4 := r3.step (NAStep.start (t := 1) _ rfl)
  have r5 := r4.step (NAStep.miss (t := 1) _ rfl rfl)
  have r6 := r5.step (NAStep.late (t := 1) _ rfl rfl)
  exact ⟨_, r6, rfl, c44_panic_exact r6 1 rfl rfl rfl⟩

/-- `c44_crash_permanent`: after the future has panicked no run returns a value. -/
example : ∃ s : NAState Nat, NARun NAState.init s ∧ s.crashed = true ∧ ∀ s' t v, NARun s s' → s'.pc t ≠ .done v := by
  have r0 : NARun (NAState.init : NAState Nat) NAState.init := .refl _
  have r1 := r0.step (NAStep.start (t := 0) _ rfl)
  have r2 := r1.step (NAStep.miss (t := 0) _ rfl rfl)
  have r3 := r2.step (NAStep.take (t := 0) _ rfl rfl)
  have r4 := r3.step (NAStep.crash (t := 0) _ rfl)
  exact ⟨_, r4, rfl, fun s' t v h => c44_crash_permanent r4 rfl h t v⟩

end Rustica
