import Verif.Spec.IOClones
import Verif.Effect.IOClones
import Verif.Effect.IO
import Verif.Theorems.CloneRest

/-!
# C105: how often the values of an `IO` are cloned
-/

namespace Rustica
open Act (ret mapList)
open Spec

namespace Clones
variable {A B : Type}

/-- A program put together with the methods of `IO`; `values` clones the values.  A `bind` on an effect puts its second part
together when it runs. -/
def ioOf (values : (A : Type) → A → Act Nat A) : {A : Type} → Job A → Act Nat (IOC Nat A)
  | _, .pure a => ret (.pure a)
  | _, .new a => ret (.new (ret a))
  | _, @Job.fmap A _ p f => letI : RClone Nat A := ⟨values A⟩
    (ioOf values p).seq fun io => io.fmap fun a => ret (f a)
  | _, @Job.bind A B p f => letI : RClone Nat A := ⟨values A⟩; letI : RClone Nat B := ⟨values B⟩
    (ioOf values p).seq fun io => io.bind fun a => ioOf values (f a)
  | _, @Job.apply A B p q => letI : RClone Nat A := ⟨values A⟩; letI : RClone Nat (A → B) := ⟨values _⟩
    (ioOf values p).seq fun io => (ioOf values q).seq fun mf => IOC.apply (fun f a => ret (f a)) io mf
  | _, @Job.combine A B p q => letI : RClone Nat A := ⟨values A⟩; letI : RClone Nat B := ⟨values B⟩
    (ioOf values p).seq fun io1 => (ioOf values q).seq fun io2 => io1.combine io2

/-- Runs it `n` times and gives the results. -/
def runTimes (values : (A : Type) → A → Act Nat A) (io : IOC Nat A) (n : Nat) : Act Nat (List A) :=
  letI : RClone Nat A := ⟨values A⟩
  mapList (fun _ => io.run) (List.replicate n ())

/-- `clone` returns an equal value and counts as one. -/
def Counting (values : (A : Type) → A → Act Nat A) : Prop := ∀ (A : Type) (a : A), Spec.Clones (values A a) a 1

/-- Made by `m` clones, it gives `p.value` with `k` clones each time. -/
def Made (values : (A : Type) → A → Act Nat A) (p : Job A) : Prop :=
  ∃ io, Spec.Clones (ioOf values p) io p.clones.2 ∧
    Spec.Clones (@IOC.run Nat A ⟨values A⟩ io) p.value p.clones.1 ∧
    (p.known = true → io = .Pure p.value) ∧ (p.known = false → ∃ f, io = .Effect f)

theorem io_made {values : (A : Type) → A → Act Nat A} (hv : Counting values) (p : Job A) : Made values p := by
  induction p with
  | pure a => exact ⟨.Pure a, Clones.ret' _, hv _ a, fun _ => rfl, (by simp [Job.known])⟩
  | new a => exact ⟨.Effect (ret a), Clones.ret' _, Clones.ret' _, (by simp [Job.known]), fun _ => ⟨_, rfl⟩⟩
  | fmap p f ih =>
    obtain ⟨io, h1, h2, h3, h4⟩ := ih
    cases hk : p.known with
    | true =>
      obtain rfl := h3 hk
      have hr : p.clones.1 = 1 := by
        have := (congrArg Prod.snd (h2 0)).symm.trans (congrArg Prod.snd (hv _ p.value 0))
        simpa using this
      refine ⟨.Pure (f p.value), Clones.seq' h1 (Clones.seq' (hv _ _) (Clones.ret' _) rfl) ?_, ?_, fun _ => rfl,
        (by simp [Job.known, hk])⟩
      · simp [Job.clones, hk]
      · simp only [Job.clones, hr]; exact hv _ _
    | false =>
      obtain ⟨e, rfl⟩ := h4 hk
      refine ⟨_, Clones.seq' h1 (Clones.ret' _) ?_, Clones.seq' h2 (Clones.ret' _) ?_, (by simp [Job.known, hk]),
        fun _ => ⟨_, rfl⟩⟩
      · simp [Job.clones, hk]
      · simp [Job.clones]
  | bind p f ihp ihf =>
    obtain ⟨io, h1, h2, h3, h4⟩ := ihp
    obtain ⟨next, n1, n2, n3, n4⟩ := ihf p.value
    cases hk : p.known with
    | true =>
      obtain rfl := h3 hk
      refine ⟨next, Clones.seq' h1 (Clones.seq' (hv _ _) n1 rfl) ?_, ?_, ?_, ?_⟩
      · simp [Job.clones, hk]; omega
      · simpa [Job.clones, hk, Job.value] using n2
      · simpa [Job.known, hk, Job.value] using n3
      · simpa [Job.known, hk] using n4
    | false =>
      obtain ⟨e, rfl⟩ := h4 hk
      refine ⟨_, Clones.seq' h1 (Clones.ret' _) ?_, Clones.seq' h2 (Clones.seq' n1 n2 rfl) ?_, (by simp [Job.known, hk]),
        fun _ => ⟨_, rfl⟩⟩
      · simp [Job.clones, hk]
      · simp [Job.clones, hk]; omega
  | apply p q ihp ihq =>
    obtain ⟨io, h1, h2, h3, h4⟩ := ihp
    obtain ⟨mf, n1, n2, n3, n4⟩ := ihq
    cases hk : p.known <;> cases hq : q.known
    · obtain ⟨e, rfl⟩ := h4 hk
      obtain ⟨g, rfl⟩ := n4 hq
      refine ⟨_, Clones.seq' h1 (Clones.seq' n1 (Clones.ret' _) rfl) ?_, Clones.seq' n2 (Clones.seq' h2 (Clones.ret' _) rfl) ?_,
        (by simp [Job.known, hk]), fun _ => ⟨_, rfl⟩⟩
      · simp [Job.clones, hk, hq]
      · simp [Job.clones, hk, hq]; omega
    · obtain ⟨e, rfl⟩ := h4 hk
      obtain rfl := n3 hq
      refine ⟨_, Clones.seq' h1 (Clones.seq' n1 (Clones.seq' (hv _ _) (Clones.ret' _) rfl) rfl) ?_,
        Clones.seq' h2 (Clones.ret' _) ?_, (by simp [Job.known, hk]), fun _ => ⟨_, rfl⟩⟩
      · simp [Job.clones, hk, hq]; omega
      · simp [Job.clones, hk, hq]
    · obtain rfl := h3 hk
      obtain ⟨g, rfl⟩ := n4 hq
      refine ⟨_, Clones.seq' h1 (Clones.seq' n1 (Clones.seq' (hv _ _) (Clones.ret' _) rfl) rfl) ?_,
        Clones.seq' n2 (Clones.seq' (hv _ _) (Clones.ret' _) rfl) ?_, (by simp [Job.known, hq]), fun _ => ⟨_, rfl⟩⟩
      · simp [Job.clones, hk, hq]; omega
      · simp [Job.clones, hk, hq]
    · obtain rfl := h3 hk
      obtain rfl := n3 hq
      refine ⟨.Pure (q.value p.value), Clones.seq' h1 (Clones.seq' n1 (Clones.seq' (hv _ _) (Clones.ret' _) rfl) rfl) ?_, ?_,
        fun _ => rfl, (by simp [Job.known, hk, hq])⟩
      · simp [Job.clones, hk, hq]; omega
      · simp only [Job.clones, hk, hq]; exact hv _ _
  | combine p q ihp ihq =>
    obtain ⟨io1, h1, h2, h3, h4⟩ := ihp
    obtain ⟨io2, n1, n2, n3, n4⟩ := ihq
    have hc : ∀ {A : Type} {p : Job A} {io : IOC Nat A}, (p.known = true → io = .Pure p.value) →
        (p.known = false → ∃ f, io = .Effect f) →
        Spec.Clones (@IOC.cloneIO Nat A ⟨values A⟩ io) io (if p.known then 1 else 0) := by
      intro A p io ht hf
      cases hk : p.known with
      | true => obtain rfl := ht hk; exact Clones.seq' (hv _ _) (Clones.ret' _) rfl
      | false => obtain ⟨f, rfl⟩ := hf hk; exact Clones.ret' _
    refine ⟨_, Clones.seq' h1 (Clones.seq' n1 (Clones.seq' (hc h3 h4) (Clones.seq' (hc n3 n4) (Clones.ret' _) rfl) rfl) rfl) ?_,
      Clones.seq' h2 (Clones.seq' n2 (Clones.ret' _) rfl) ?_, (by simp [Job.known]), fun _ => ⟨_, rfl⟩⟩
    · simp only [Job.clones]; omega
    · simp [Job.clones]

theorem runTimes_exact {values : (A : Type) → A → Act Nat A} {io : IOC Nat A} {a : A} {k : Nat}
    (h : Spec.Clones (@IOC.run Nat A ⟨values A⟩ io) a k) (n : Nat) :
    Spec.Clones (runTimes values io n) (List.replicate n a) (n * k) := by
  induction n with
  | zero => rw [Nat.zero_mul]; exact Clones.ret' _
  | succ n ih => exact Clones.seq' h (Clones.seq' ih (Clones.ret' _) rfl) (by rw [Nat.succ_mul]; omega)

/-- C105, exactly: putting a program together and running it `n` times, for every program. -/
theorem c105_exact {values : (A : Type) → A → Act Nat A} (hv : Counting values) (p : Job A) (n : Nat) :
    Spec.Clones ((ioOf values p).seq fun io => runTimes values io n) (List.replicate n p.value)
      (p.clones.2 + n * p.clones.1) := by
  obtain ⟨io, h1, h2, -⟩ := io_made hv p
  exact Clones.seq' h1 (runTimes_exact h2 n) rfl

/-- Meets the hypothesis: `pure`, `fmap`, and `combine` with an effect, run twice: one clone for `fmap`, one for `combine`, one for
each run. -/
example : ((ioOf (fun _ a n => (.ok a, n + 1)) (.combine (.fmap (.pure 1) (· + 1)) (.new "a"))).seq
    fun io => runTimes (fun _ a n => (.ok a, n + 1)) io 2) 0 = (.ok [(2, "a"), (2, "a")], 4) := rfl

/-- C105 is false: a `pure` that is run once clones its value, though the comment in `pure` (`io.rs` 856) says it does not. -/
theorem c105_false :
    ¬ ∀ values : (A : Type) → A → Act Nat A, Counting values → ∀ (A : Type) (p : Job A),
      Spec.Clones ((ioOf values p).seq fun io => runTimes values io 1) [p.value] 0 := by
  intro h
  have hv : Counting (fun _ a n => (.ok a, n + 1)) := fun _ _ _ => rfl
  have h1 := congrArg Prod.snd (h _ hv Nat (.pure 5) 0)
  exact absurd (show (1 : Nat) = 0 from h1) (by decide)

theorem noPure_clones (p : Job A) : p.NoPure → p.known = false ∧ p.clones = (0, 0) := by
  induction p with
  | pure a => exact fun h => h.elim
  | new a => exact fun _ => ⟨rfl, rfl⟩
  | fmap p f ih => intro h; obtain ⟨h1, h2⟩ := ih h; simp [Job.known, Job.clones, h1, h2]
  | bind p f ihp ihf =>
    rintro ⟨h, h'⟩
    obtain ⟨h1, h2⟩ := ihp h
    obtain ⟨h3, h4⟩ := ihf _ h'
    simp [Job.known, Job.clones, h1, h2, h4]
  | apply p q ihp ihq =>
    rintro ⟨h, h'⟩
    obtain ⟨h1, h2⟩ := ihp h
    obtain ⟨h3, h4⟩ := ihq h'
    simp [Job.known, Job.clones, h1, h2, h3, h4]
  | combine p q ihp ihq =>
    rintro ⟨h, h'⟩
    obtain ⟨h1, h2⟩ := ihp h
    obtain ⟨h3, h4⟩ := ihq h'
    simp [Job.known, Job.clones, h1, h2, h3, h4]

theorem clones_noPure (p : Job A) : p.clones.1 + p.clones.2 = 0 → p.NoPure := by
  induction p with
  | pure a => intro h; simp [Job.clones] at h
  | new a => exact fun _ => trivial
  | fmap p f ih => intro h; simp only [Job.clones] at h; exact ih (by omega)
  | bind p f ihp ihf =>
    intro h
    simp only [Job.clones] at h
    cases hk : p.known with
    | true => simp [hk] at h
    | false =>
      simp only [hk, Bool.false_eq_true, if_false] at h
      exact ⟨ihp (by omega), ihf _ (by omega)⟩
  | apply p q ihp ihq =>
    intro h
    simp only [Job.clones] at h
    cases hk : p.known <;> cases hq : q.known <;> simp [hk, hq] at h
    exact ⟨ihp (by omega), ihq (by omega)⟩
  | combine p q ihp ihq =>
    intro h
    simp only [Job.clones] at h
    exact ⟨ihp (by omega), ihq (by omega)⟩

/-- C105, exactly when it holds: putting a program together and running it once clones nothing if and only if no `pure` is among
the parts that run. -/
theorem c105_iff {values : (A : Type) → A → Act Nat A} (hv : Counting values) (p : Job A) :
    Spec.Clones ((ioOf values p).seq fun io => runTimes values io 1) [p.value] 0 ↔ p.NoPure := by
  have hx := c105_exact hv p 1
  constructor
  · intro h
    have := (congrArg Prod.snd (h 0)).symm.trans (congrArg Prod.snd (hx 0))
    exact clones_noPure p (by simp only at this; omega)
  · intro h
    rw [(noPure_clones p h).2] at hx
    exact hx

/-- Meets the hypothesis, with both sides true. -/
example : (Job.bind (.new 1) fun n => .new (n + 1)).NoPure := ⟨trivial, trivial⟩

/-- C105, what holds: a program without `pure` clones nothing, however often it is run. -/
theorem c105_effects_partial {values : (A : Type) → A → Act Nat A} (hv : Counting values) {p : Job A} (h : p.NoPure) (n : Nat) :
    Spec.Clones ((ioOf values p).seq fun io => runTimes values io n) (List.replicate n p.value) 0 := by
  have hx := c105_exact hv p n
  rw [(noPure_clones p h).2] at hx
  simpa using hx

/-- Meets the hypotheses. -/
example : ((ioOf (fun _ a n => (.ok a, n + 1)) (.bind (.new 1) fun n => .new (n + 1))).seq
    fun io => runTimes (fun _ a n => (.ok a, n + 1)) io 3) 0 = (.ok [2, 2, 2], 0) := rfl

/-- C105, the usual program: `fmap`, `n` times, on a `pure` clones `n` values before anything is run, one more for each run. -/
theorem c105_map_exact {values : (A : Type) → A → Act Nat A} (hv : Counting values) (a : A) (f : A → A) (n m : Nat) :
    Spec.Clones ((ioOf values (.mapTimes (.pure a) f n)).seq fun io => runTimes values io m)
      (List.replicate m (Job.mapTimes (.pure a) f n).value) (n + m) := by
  have h : ∀ n, (Job.mapTimes (.pure a) f n).known = true ∧ (Job.mapTimes (.pure a) f n).clones = (1, n) := by
    intro n
    induction n with
    | zero => exact ⟨rfl, rfl⟩
    | succ n ih => simp [Job.mapTimes, Job.known, Job.clones, ih.1, ih.2]
  have hx := c105_exact hv (Job.mapTimes (.pure a) f n) m
  rw [(h n).2] at hx
  simpa using hx

/-- Meets the hypothesis: three clones. -/
example : ((ioOf (fun _ a n => (.ok a, n + 1)) (.mapTimes (.pure 1) (· * 2) 2)).seq
    fun io => runTimes (fun _ a n => (.ok a, n + 1)) io 1) 0 = (.ok [4], 3) := rfl

/-- C105 for `sequence`: nothing is cloned beyond what running each program clones. -/
theorem c105_sequence_exact {values : (A : Type) → A → Act Nat A} (ios : List (IOC Nat A × A × Nat))
    (h : ∀ x ∈ ios, Spec.Clones (@IOC.run Nat A ⟨values A⟩ x.1) x.2.1 x.2.2) :
    letI : RClone Nat A := ⟨values A⟩; letI : RClone Nat (List A) := ⟨values _⟩
    Spec.Clones (IOC.sequence (ios.map (·.1))).run (ios.map (·.2.1)) (ios.map (·.2.2)).sum := by
  show Spec.Clones (mapList (@IOC.run Nat A ⟨values A⟩) (ios.map (·.1))) _ _
  induction ios with
  | nil => exact Clones.ret' _
  | cons x xs ih =>
    exact Clones.seq' (h x (by simp)) (Clones.seq' (ih fun y hy => h y (by simp [hy])) (Clones.ret' _) rfl) (by simp)

/-- Meets the hypothesis: one `pure`, one effect. -/
example : letI : RClone Nat Nat := counting; letI : RClone Nat (List Nat) := counting
    (IOC.sequence [.pure 1, .new (ret 2)]).run 0 = (.ok [1, 2], 1) := rfl

/-- The same value or effect in the model without clones. -/
def toRIO {σ : Type} : IOC σ A → RIO σ A
  | .Pure a => .Pure a
  | .Effect f => .Effect f

/-- With a `clone` without effects the methods are those of `Effect/IO`, for closures with any effects. -/
theorem c105_plain {σ : Type} [RClone σ A] [RClone σ B] [RClone σ (A → Act σ B)] (hA : PlainClone σ A) (hB : PlainClone σ B)
    (hF : PlainClone σ (A → Act σ B)) (io : IOC σ A) :
    io.run = (toRIO io).run ∧ io.isPure = (toRIO io).isPure ∧
    (∀ f : A → Act σ B, ((io.fmap f).seq fun r => ret (toRIO r)) = (toRIO io).fmap f) ∧
    (∀ f : A → Act σ (IOC σ B), ((io.bind f).seq fun r => ret (toRIO r)) =
      (toRIO io).bind fun a => (f a).seq fun r => ret (toRIO r)) ∧
    (∀ mf : IOC σ (A → Act σ B), ((IOC.apply (fun f a => f a) io mf).seq fun r => ret (toRIO r)) = (toRIO io).apply (toRIO mf)) ∧
    (∀ io2 : IOC σ B, ((io.combine io2).seq fun r => ret (toRIO r)) = ret (RIO.combine (toRIO io) (toRIO io2))) ∧
    (∀ ios : List (IOC σ A), toRIO (IOC.sequence ios) = RIO.sequence (ios.map toRIO)) := by
  have hr : ∀ {A : Type} [RClone σ A], PlainClone σ A → ∀ io : IOC σ A, io.run = (toRIO io).run := by
    intro A _ hA io
    cases io with
    | Pure a => exact hA a
    | Effect f => rfl
  have hc : ∀ {A : Type} [RClone σ A], PlainClone σ A → ∀ io : IOC σ A, io.cloneIO = ret io := by
    intro A _ hA io
    cases io with
    | Pure a => simp only [IOC.cloneIO, hA a]; rfl
    | Effect f => rfl
  refine ⟨hr hA io, by cases io <;> rfl, fun f => ?_, fun f => ?_, fun mf => ?_, fun io2 => ?_, fun ios => ?_⟩
  · cases io with
    | Pure a => simp only [IOC.fmap, hA a, Act.ret_seq, Act.seq_assoc]; rfl
    | Effect e => rfl
  · cases io with
    | Pure a => simp only [IOC.bind, hA a, Act.ret_seq]; rfl
    | Effect e =>
      have : (fun next : IOC σ B => next.run) = fun next => (toRIO next).run := funext (hr hB)
      simp only [IOC.bind, this, toRIO, RIO.bind, Act.ret_seq, Act.seq_assoc]
  · cases io with
    | Pure a =>
      cases mf with
      | Pure f => simp only [IOC.apply, hA a, Act.ret_seq, Act.seq_assoc]; rfl
      | Effect g => simp only [IOC.apply, hA a, Act.ret_seq]; rfl
    | Effect e =>
      cases mf with
      | Pure f => simp only [IOC.apply, hF f, Act.ret_seq]; rfl
      | Effect g => rfl
  · simp only [IOC.combine, hc hA, hc hB, hr hA, hr hB, Act.ret_seq]; rfl
  · have : (IOC.run : IOC σ A → Act σ A) = fun io => (toRIO io).run := funext (hr hA)
    have hs : ∀ ios : List (IOC σ A), mapList (fun io => (toRIO io).run) ios = RIO.runAll (ios.map toRIO) := by
      intro ios
      induction ios with
      | nil => rfl
      | cons io ios ih => simp only [mapList, ih, List.map_cons, RIO.runAll]
    show RIO.Effect (mapList IOC.run ios) = RIO.Effect (RIO.runAll (ios.map toRIO))
    rw [this, hs]

/-- Meets the hypotheses. -/
example : letI : RClone Nat Nat := ⟨ret⟩; letI : RClone Nat (Nat → Act Nat Nat) := ⟨ret⟩
    PlainClone Nat Nat ∧ PlainClone Nat (Nat → Act Nat Nat) ∧
    ((IOC.new fun w => (.ok w, w + 1) : IOC Nat Nat).fmap fun a => ret (a + 1)) = ret (.Effect fun w => (.ok (w + 1), w + 1)) :=
  ⟨fun _ => rfl, fun _ => rfl, rfl⟩

end Clones
end Rustica
