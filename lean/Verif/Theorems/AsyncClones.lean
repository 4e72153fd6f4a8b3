import Verif.Spec.AsyncClones
import Verif.Effect.AsyncClones
import Verif.Theorems.CloneRest
import Verif.Theorems.Async

/-!
# C107: how often the values of an `AsyncM` are cloned, with the methods that borrow and with those that take
-/

namespace Rustica
open Act (ret mapList)
open Spec

namespace Clones
variable {A B C : Type}

/-- `fut` gives `a` with `n` clones, whatever runs between its segments. -/
inductive FutClones (a : A) : Fut Nat A → Nat → Prop
  | ret : FutClones a (.ret a) 0
  | step {upd : Nat → Nat} {k : Nat → Fut Nat A} {j n l : Nat} (h : ∀ w, upd w = w + j) (hk : ∀ w, FutClones a (k w) n)
      (hl : l = j + n) : FutClones a (.step upd k) l

namespace FutClones

theorem ofAct {m : Act Nat A} {a : A} {n : Nat} (h : Spec.Clones m a n) : FutClones a (Fut.ofAct m) n :=
  .step (j := n) (n := 0) (fun w => by rw [h w]) (fun w => by simp only [h w]; exact .ret) rfl

theorem bindF {x : Fut Nat A} {f : A → Fut Nat B} {a : A} {b : B} {n m : Nat} (hx : FutClones a x n)
    (hf : FutClones b (f a) m) : FutClones b (x.bind f) (n + m) := by
  induction hx with
  | ret => simpa [Fut.bind] using hf
  | step h hk hl ih => exact .step h ih (by omega)

theorem catchF {x : Fut Nat A} {a : A} {n : Nat} (hx : FutClones a x n) :
    FutClones (.ok a) (x.catchUnwind : Fut Nat (Except Panic A)) n := by
  induction hx with
  | ret => exact .ret
  | step h hk hl ih => exact .step h ih hl

theorem joinStepF {y : Fut Nat B} {b : B} {m : Nat} (hy : FutClones b y m) {a : A} {upd : Nat → Nat} {j n : Nat}
    (h : ∀ w, upd w = w + j) {jk : Nat → Fut Nat B → List Bool → Fut Nat (A × B)}
    (hj : ∀ w y m, FutClones b y m → ∀ s, FutClones (a, b) (jk w y s) (n + m)) :
    ∀ s, FutClones (a, b) (Fut.joinStep upd jk y s) (j + n + m) := by
  induction hy with
  | ret =>
    intro s
    match s with
    | [] => exact .step h (fun w => hj w _ 0 .ret _) (by omega)
    | false :: s => exact .step h (fun w => hj w _ 0 .ret _) (by omega)
    | true :: s => exact .step h (fun w => hj w _ 0 .ret _) (by omega)
  | step h' hk hl ih =>
    intro s
    match s with
    | [] => exact .step h (fun w => hj w _ _ (.step h' hk hl) _) (by omega)
    | false :: s => exact .step h (fun w => hj w _ _ (.step h' hk hl) _) (by omega)
    | true :: s => exact .step h' (fun w => ih w s) (by omega)

theorem joinF {x : Fut Nat A} {a : A} {b : B} {n : Nat} (hx : FutClones a x n) :
    ∀ (y : Fut Nat B) (m : Nat), FutClones b y m → ∀ s, FutClones (a, b) (x.join y s) (n + m) := by
  induction hx with
  | ret => intro y m hy s; have := bindF hy (f := fun b => .ret (a, b)) .ret; simpa [Fut.join] using this
  | step h hk hl ih => intro y m hy s; subst hl; exact joinStepF hy h ih s

theorem runF {x : Fut Nat A} {a : A} {n : Nat} (hx : FutClones a x n) : Spec.Clones x.run a n := by
  induction hx with
  | ret => exact fun _ => rfl
  | step h hk hl ih => intro w; simp only [Fut.run, h w, ih w _, hl, Nat.add_assoc]

end FutClones

/-- A program put together with the methods of `AsyncM`, those that borrow or those that take; `values` clones the values.
Effects and closures pause once before they give their result. -/
def asyncOf (values : (A : Type) → A → Act Nat A) (owned : Bool) : {A : Type} → AJob A → Act Nat (AsyncMC Nat A)
  | _, .pure a => ret (.pure a)
  | _, .new a => ret (.new (.step id fun _ => .ret a))
  | _, @AJob.orDefault A r d => letI : RClone Nat A := ⟨values A⟩
    ret (.fromResultOrDefault (.step id fun _ => .ret (match r with | some a => .ok a | none => .error ())) d)
  | _, @AJob.crash A d => letI : RClone Nat A := ⟨values A⟩
    ret ((AsyncMC.new (.step id fun _ => .panic (.str "crash"))).recoverWith d)
  | _, @AJob.fmap A _ p f => letI : RClone Nat A := ⟨values A⟩
    (asyncOf values owned p).seq fun x => ret (
      if owned then x.fmapOwned fun a => .step id fun _ => .ret (f a) else x.fmap fun a => .step id fun _ => .ret (f a))
  | _, @AJob.bind A B p f => letI : RClone Nat A := ⟨values A⟩; letI : RClone Nat B := ⟨values B⟩
    (asyncOf values owned p).seq fun x => ret (
      if owned then x.bindOwned fun a => Fut.ofAct (asyncOf values owned (f a))
      else x.bind fun a => Fut.ofAct (asyncOf values owned (f a)))
  | _, @AJob.apply A B s p q => letI : RClone Nat A := ⟨values A⟩; letI : RClone Nat (A → B) := ⟨values _⟩
    (asyncOf values owned p).seq fun x => (asyncOf values owned q).seq fun mf =>
      if owned then ret (.applyOwned (fun f a => ret (f a)) s x mf) else AsyncMC.apply (fun f a => ret (f a)) s x mf
  | _, @AJob.zipWith A B _ s p q f => letI : RClone Nat A := ⟨values A⟩; letI : RClone Nat B := ⟨values B⟩
    (asyncOf values owned p).seq fun x => (asyncOf values owned q).seq fun y => x.zipWith s y fun a b => ret (f a b)
  | _, @AJob.recover A p d => letI : RClone Nat A := ⟨values A⟩
    (asyncOf values owned p).seq fun x => ret (x.recoverWith d)

/-- Runs it `n` times, one after the other, and gives the results. -/
def getTimes (values : (A : Type) → A → Act Nat A) (x : AsyncMC Nat A) (n : Nat) : Act Nat (List A) :=
  letI : RClone Nat A := ⟨values A⟩
  mapList (fun _ => x.tryGet.run) (List.replicate n ())

/-- `clone` returns an equal value and counts as one. -/
def AsyncCounting (values : (A : Type) → A → Act Nat A) : Prop := ∀ (A : Type) (a : A), Spec.Clones (values A a) a 1

theorem pause_clones (a : A) : FutClones a (.step id fun _ => .ret a) 0 := .step (j := 0) (fun _ => rfl) (fun _ => .ret) rfl

theorem async_made {values : (A : Type) → A → Act Nat A} (hv : AsyncCounting values) (owned : Bool) (p : AJob A) :
    ∃ x, Spec.Clones (asyncOf values owned p) x (p.clones owned).2 ∧
      FutClones p.value (@AsyncMC.tryGet Nat A ⟨values A⟩ x) (p.clones owned).1 ∧
      (p.known owned = true → x = .Pure p.value ∧ (p.clones owned).1 = 1) ∧
      (p.known owned = false → ∃ f, x = .Effect f) := by
  induction p with
  | pure a => exact ⟨.Pure a, Clones.ret' _, .ofAct (hv _ a), fun _ => ⟨rfl, rfl⟩, (by simp [AJob.known])⟩
  | new a => exact ⟨_, Clones.ret' _, pause_clones a, (by simp [AJob.known]), fun _ => ⟨_, rfl⟩⟩
  | orDefault r d =>
    refine ⟨_, Clones.ret' _, ?_, (by simp [AJob.known]), fun _ => ⟨_, rfl⟩⟩
    cases r with
    | some a => exact pause_clones a
    | none => exact .step (j := 0) (fun _ => rfl) (fun _ => .ofAct (hv _ d)) rfl
  | crash d =>
    refine ⟨_, Clones.ret' _, ?_, (by simp [AJob.known]), fun _ => ⟨_, rfl⟩⟩
    exact FutClones.bindF (f := fun d => (Fut.step id fun _ => .panic (.str "crash") : Fut Nat _).catchUnwind.bind
      fun result => match result with | .ok value => .ret value | .error _ => .ret d) (.ofAct (hv _ d)) (pause_clones d)
  | fmap p f ih =>
    obtain ⟨x, h1, h2, -, -⟩ := ih
    refine ⟨_, Clones.seq' h1 (Clones.ret' _) rfl, ?_, (by simp [AJob.known]), ?_⟩
    · have := FutClones.bindF (f := fun a => .step id fun _ => .ret (f a)) h2 (pause_clones (f p.value))
      cases owned
      · cases x <;> exact this
      · exact this
    · intro _
      cases owned
      · cases x <;> exact ⟨_, rfl⟩
      · exact ⟨_, rfl⟩
  | bind p f ihp ihf =>
    obtain ⟨x, h1, h2, -, -⟩ := ihp
    obtain ⟨y, n1, n2, -, -⟩ := ihf p.value
    refine ⟨_, Clones.seq' h1 (Clones.ret' _) rfl, ?_, (by simp [AJob.known]), ?_⟩
    · have := FutClones.bindF (f := fun a => (Fut.ofAct (asyncOf values owned (f a))).bind (@AsyncMC.tryGet Nat _ ⟨values _⟩))
        h2 (FutClones.bindF (.ofAct n1) n2)
      simp only [AJob.clones, Nat.add_assoc]
      cases owned
      · cases x <;> exact this
      · exact this
    · intro _
      cases owned
      · cases x <;> exact ⟨_, rfl⟩
      · exact ⟨_, rfl⟩
  | @apply A B s p q ihp ihq =>
    obtain ⟨x, h1, h2, h3, h4⟩ := ihp
    obtain ⟨y, n1, n2, n3, n4⟩ := ihq
    have hj := FutClones.bindF (FutClones.joinF h2 _ _ n2 s) (f := fun r => Fut.ofAct (ret (r.2 r.1)))
      (.ofAct (Clones.ret' (q.value p.value)))
    cases hc : (!owned && (p.known owned && q.known owned)) with
    | true =>
      simp only [Bool.and_eq_true, Bool.not_eq_true'] at hc
      obtain ⟨rfl, hk, hq⟩ := hc
      obtain ⟨rfl, -⟩ := h3 hk
      obtain ⟨rfl, -⟩ := n3 hq
      refine ⟨.Pure (q.value p.value), Clones.seq' h1 (Clones.seq' n1 (Clones.seq' (hv _ _) (Clones.seq' (hv _ _)
        (Clones.ret' _) rfl) rfl) rfl) ?_, ?_, fun _ => ⟨rfl, ?_⟩, ?_⟩
      · simp [AJob.clones, hk, hq]; omega
      · simp only [AJob.clones, hk, hq]; exact .ofAct (hv _ _)
      · simp [AJob.clones, hk, hq]
      · simp [AJob.known, hk, hq]
    | false =>
      refine ⟨.Effect (((@AsyncMC.tryGet Nat A ⟨values A⟩ x).join (@AsyncMC.tryGet Nat (A → B) ⟨values _⟩ y) s).bind
        fun r => Fut.ofAct (ret (r.2 r.1))), Clones.seq' h1 (Clones.seq' n1 (k := 0) ?_ rfl) ?_, ?_,
        (by simp [AJob.known, hc]), fun _ => ⟨_, rfl⟩⟩
      · cases owned with
        | true => exact Clones.ret' _
        | false =>
          simp only [Bool.not_false, Bool.true_and] at hc
          cases hk : p.known false with
          | true =>
            rw [hk] at hc
            obtain ⟨g, rfl⟩ := n4 (by simpa using hc)
            cases x <;> exact Clones.ret' _
          | false =>
            obtain ⟨g, rfl⟩ := h4 hk
            exact Clones.ret' _
      · simp [AJob.clones, hc]
      · simp only [AJob.clones, hc, Bool.false_eq_true, if_false]
        exact hj
  | @zipWith A B C s p q f ihp ihq =>
    obtain ⟨x, h1, h2, h3, h4⟩ := ihp
    obtain ⟨y, n1, n2, n3, n4⟩ := ihq
    have hj := FutClones.bindF (FutClones.joinF h2 _ _ n2 s) (f := fun r => Fut.ofAct (ret (f r.1 r.2)))
      (.ofAct (Clones.ret' (f p.value q.value)))
    cases hc : (p.known owned && q.known owned) with
    | true =>
      simp only [Bool.and_eq_true] at hc
      obtain ⟨hk, hq⟩ := hc
      obtain ⟨rfl, -⟩ := h3 hk
      obtain ⟨rfl, -⟩ := n3 hq
      refine ⟨.Pure (f p.value q.value), Clones.seq' h1 (Clones.seq' n1 (Clones.seq' (hv _ _) (Clones.seq' (hv _ _)
        (Clones.ret' _) rfl) rfl) rfl) ?_, ?_, fun _ => ⟨rfl, ?_⟩, ?_⟩
      · simp [AJob.clones, hk, hq]; omega
      · simp only [AJob.clones, hk, hq]; exact .ofAct (hv _ _)
      · simp [AJob.clones, hk, hq]
      · simp [AJob.known, hk, hq]
    | false =>
      refine ⟨.Effect (((@AsyncMC.tryGet Nat A ⟨values A⟩ x).join (@AsyncMC.tryGet Nat B ⟨values _⟩ y) s).bind
        fun r => Fut.ofAct (ret (f r.1 r.2))), Clones.seq' h1 (Clones.seq' n1 (k := 0) ?_ rfl) ?_, ?_,
        (by simp [AJob.known, hc]), fun _ => ⟨_, rfl⟩⟩
      · cases hk : p.known owned with
        | true =>
          rw [hk] at hc
          obtain ⟨g, rfl⟩ := n4 (by simpa using hc)
          cases x <;> exact Clones.ret' _
        | false =>
          obtain ⟨g, rfl⟩ := h4 hk
          exact Clones.ret' _
      · simp [AJob.clones, hc]
      · simp only [AJob.clones, hc, Bool.false_eq_true, if_false]
        exact hj
  | recover p d ih =>
    obtain ⟨x, h1, h2, -, -⟩ := ih
    refine ⟨_, Clones.seq' h1 (Clones.ret' _) rfl, ?_, (by simp [AJob.known]), fun _ => ⟨_, rfl⟩⟩
    have := FutClones.bindF (.ofAct (hv _ d)) (f := fun d' => (@AsyncMC.tryGet Nat _ ⟨values _⟩ x).catchUnwind.bind
      fun result => match result with | .ok value => .ret value | .error _ => .ret d')
      (FutClones.bindF h2.catchF (b := p.value) .ret)
    simp only [AJob.clones, Nat.add_comm _ 1]
    exact this

theorem getTimes_exact {values : (A : Type) → A → Act Nat A} {x : AsyncMC Nat A} {a : A} {k : Nat}
    (h : FutClones a (@AsyncMC.tryGet Nat A ⟨values A⟩ x) k) (n : Nat) :
    Spec.Clones (getTimes values x n) (List.replicate n a) (n * k) := by
  induction n with
  | zero => rw [Nat.zero_mul]; exact Clones.ret' _
  | succ n ih => exact Clones.seq' h.runF (Clones.seq' ih (Clones.ret' _) rfl) (by rw [Nat.succ_mul]; omega)

/-- C107, exactly: putting a program together and running it `n` times, for every program, either kind of methods and every
order in which the parts of the joins move. -/
theorem c107_exact {values : (A : Type) → A → Act Nat A} (hv : AsyncCounting values) (owned : Bool) (p : AJob A) (n : Nat) :
    Spec.Clones ((asyncOf values owned p).seq fun x => getTimes values x n) (List.replicate n p.value)
      ((p.clones owned).2 + n * (p.clones owned).1) := by
  obtain ⟨x, h1, h2, -⟩ := async_made hv owned p
  exact Clones.seq' h1 (getTimes_exact h2 n) rfl

/-- Meets the hypothesis: two values that are not known are joined, the second moves first; three clones in each of two runs. -/
example : ((asyncOf (fun _ a n => (.ok a, n + 1)) false
      (.zipWith [true, false] (.recover (.pure 1) 0) (.fmap (.pure 2) (· + 1)) (· + ·))).seq
    fun x => getTimes (fun _ a n => (.ok a, n + 1)) x 2) 0 = (.ok [4, 4], 6) := rfl

/-- C107 is false: `fmap_owned` on a `pure` clones as often as `fmap`, and `apply_owned`, run three times, clones more often
than `apply`. -/
theorem c107_false {values : (A : Type) → A → Act Nat A} (hv : AsyncCounting values) :
    (∀ n, ∃ k, k = n ∧
      Spec.Clones ((asyncOf values true (.fmap (.pure 1) (· + 1))).seq fun x => getTimes values x n) (List.replicate n 2) k ∧
      Spec.Clones ((asyncOf values false (.fmap (.pure 1) (· + 1))).seq fun x => getTimes values x n) (List.replicate n 2) k) ∧
    Spec.Clones ((asyncOf values true (.apply [] (.pure 1) (.pure (· + 1)))).seq fun x => getTimes values x 3) [2, 2, 2] 6 ∧
    Spec.Clones ((asyncOf values false (.apply [] (.pure 1) (.pure (· + 1)))).seq fun x => getTimes values x 3) [2, 2, 2] 5 := by
  refine ⟨fun n => ⟨n, rfl, ?_, ?_⟩, c107_exact hv true (.apply [] (.pure 1) (.pure (· + 1))) 3,
    c107_exact hv false (.apply [] (.pure 1) (.pure (· + 1))) 3⟩
  · have := c107_exact hv true (.fmap (.pure 1) (· + 1)) n
    simpa [AJob.clones, AJob.value] using this
  · have := c107_exact hv false (.fmap (.pure 1) (· + 1)) n
    simpa [AJob.clones, AJob.value] using this

/-- Meets the hypothesis. -/
example : AsyncCounting fun _ a n => (.ok a, n + 1) := fun _ _ _ => rfl

theorem noApply_clones (p : AJob A) : p.NoApply → p.known true = p.known false ∧ p.clones true = p.clones false := by
  induction p with
  | pure a => exact fun _ => ⟨rfl, rfl⟩
  | new a => exact fun _ => ⟨rfl, rfl⟩
  | orDefault r d => exact fun _ => ⟨rfl, rfl⟩
  | crash d => exact fun _ => ⟨rfl, rfl⟩
  | fmap p f ih => exact fun h => ⟨rfl, (ih h).2⟩
  | bind p f ihp ihf => rintro ⟨h, h'⟩; exact ⟨rfl, by simp only [AJob.clones, (ihp h).2, (ihf _ h').2]⟩
  | apply s p q ihp ihq => exact fun h => h.elim
  | zipWith s p q f ihp ihq =>
    rintro ⟨h, h'⟩
    simp only [AJob.known, AJob.clones, (ihp h).1, (ihp h).2, (ihq h').1, (ihq h').2, and_self]
  | recover p d ih => exact fun h => ⟨rfl, by simp only [AJob.clones, (ih h).2]⟩

/-- C107, where nothing is saved: a program without `apply` clones exactly as often with the methods that take as with those that
borrow, however often it is run. -/
theorem c107_nothing_saved {values : (A : Type) → A → Act Nat A} (hv : AsyncCounting values) {p : AJob A} (h : p.NoApply)
    (n k : Nat) :
    Spec.Clones ((asyncOf values true p).seq fun x => getTimes values x n) (List.replicate n p.value) k ↔
    Spec.Clones ((asyncOf values false p).seq fun x => getTimes values x n) (List.replicate n p.value) k := by
  have ht := c107_exact hv true p n
  have hf := c107_exact hv false p n
  rw [(noApply_clones p h).2] at ht
  constructor <;> intro hk w
  · rw [hf w, ← hk w, ht w]
  · rw [ht w, ← hk w, hf w]

/-- Meets the hypotheses. -/
example : (AJob.bind (.pure 1) fun n => .recover (.fmap (.pure n) (· + 1)) 0).NoApply := ⟨trivial, trivial⟩

theorem known_owned (p : AJob A) : p.known true = true → p.known false = true := by
  induction p with
  | zipWith s p q f ihp ihq =>
    intro h
    simp only [AJob.known, Bool.and_eq_true] at h ⊢
    exact ⟨ihp h.1, ihq h.2⟩
  | apply s p q ihp ihq => simp [AJob.known]
  | _ => simp [AJob.known]

theorem known_clones (owned : Bool) (p : AJob A) : p.known owned = true → (p.clones owned).1 = 1 := by
  cases p with
  | pure a => exact fun _ => rfl
  | apply s p q => intro h; simp only [AJob.known] at h; simp only [AJob.clones, h, if_true]
  | zipWith s p q f => intro h; simp only [AJob.known] at h; simp only [AJob.clones, h, if_true]
  | _ => simp [AJob.known]

theorem owned_once (p : AJob A) :
    (p.clones true).2 + (p.clones true).1 ≤ (p.clones false).2 + (p.clones false).1 := by
  induction p with
  | pure a => exact Nat.le_refl _
  | new a => exact Nat.le_refl _
  | orDefault r d => exact Nat.le_refl _
  | crash d => exact Nat.le_refl _
  | fmap p f ih => exact ih
  | bind p f ihp ihf => have := ihf p.value; simp only [AJob.clones]; omega
  | apply s p q ihp ihq =>
    cases hp : p.known false <;> cases hq : q.known false <;> simp [AJob.clones, hp, hq] <;> try omega
    have := known_clones false p hp
    have := known_clones false q hq
    omega
  | zipWith s p q f ihp ihq =>
    have kp := known_owned p
    have kq := known_owned q
    have cp := known_clones false p
    have cq := known_clones false q
    have cp' := known_clones true p
    have cq' := known_clones true q
    cases hp : p.known false <;> cases hq : q.known false <;> cases hp' : p.known true <;> cases hq' : q.known true <;>
      simp [hp, hq, hp', hq'] at kp kq cp cq cp' cq' <;> simp [AJob.clones, hp, hq, hp', hq'] <;> omega
  | recover p d ih => simp only [AJob.clones]; omega

/-- C107, what holds: a program that is put together and run once clones at most as often with the methods that take. -/
theorem c107_once_partial {values : (A : Type) → A → Act Nat A} (hv : AsyncCounting values) (p : AJob A) :
    ∃ j k, j ≤ k ∧ Spec.Clones ((asyncOf values true p).seq fun x => getTimes values x 1) [p.value] j ∧
      Spec.Clones ((asyncOf values false p).seq fun x => getTimes values x 1) [p.value] k :=
  ⟨_, _, by have := owned_once p; simpa using this, c107_exact hv true p 1, c107_exact hv false p 1⟩

/-- Meets the hypothesis: two clones with `apply_owned`, three with `apply`. -/
example : ((asyncOf (fun _ a n => (.ok a, n + 1)) true (.apply [] (.pure 1) (.pure (· + 1)))).seq
      fun x => getTimes (fun _ a n => (.ok a, n + 1)) x 1) 0 = (.ok [2], 2) ∧
    ((asyncOf (fun _ a n => (.ok a, n + 1)) false (.apply [] (.pure 1) (.pure (· + 1)))).seq
      fun x => getTimes (fun _ a n => (.ok a, n + 1)) x 1) 0 = (.ok [2], 3) := ⟨rfl, rfl⟩

theorem owned_built (p : AJob A) : (p.clones true).2 ≤ (p.clones false).2 := by
  induction p with
  | apply s p q ihp ihq => cases hp : p.known false <;> cases hq : q.known false <;> simp [AJob.clones, hp, hq] <;> omega
  | zipWith s p q f ihp ihq =>
    have kp := known_owned p
    have kq := known_owned q
    cases hp : p.known false <;> cases hq : q.known false <;> cases hp' : p.known true <;> cases hq' : q.known true <;>
      simp [hp, hq, hp', hq'] at kp kq <;> simp [AJob.clones, hp, hq, hp', hq'] <;> omega
  | fmap p f ih => exact ih
  | bind p f ihp ihf => exact ihp
  | recover p d ih => exact ih
  | _ => exact Nat.le_refl _

/-- C107, exactly when it holds in the weak sense: however often a program is run, the methods that take clone at most as often as
those that borrow, if and only if they do so in each single run. -/
theorem c107_always_iff {values : (A : Type) → A → Act Nat A} (hv : AsyncCounting values) (p : AJob A) :
    (∀ n j k, Spec.Clones ((asyncOf values true p).seq fun x => getTimes values x n) (List.replicate n p.value) j →
      Spec.Clones ((asyncOf values false p).seq fun x => getTimes values x n) (List.replicate n p.value) k → j ≤ k) ↔
    (p.clones true).1 ≤ (p.clones false).1 := by
  constructor
  · intro h
    have hn := h ((p.clones false).2 + 1) _ _ (c107_exact hv true p _) (c107_exact hv false p _)
    refine Nat.le_of_not_lt fun hlt => ?_
    have := Nat.mul_le_mul_left ((p.clones false).2 + 1) hlt
    simp only [Nat.succ_eq_add_one, Nat.mul_add, Nat.mul_one] at this
    omega
  · intro h n j k hj hk
    have e1 := (congrArg Prod.snd (hj 0)).symm.trans (congrArg Prod.snd (c107_exact hv true p n 0))
    have e2 := (congrArg Prod.snd (hk 0)).symm.trans (congrArg Prod.snd (c107_exact hv false p n 0))
    have := owned_built p
    have := Nat.mul_le_mul_left n h
    simp only at e1 e2
    omega

/-- Meets the hypothesis: one program on each side. -/
example : ((AJob.apply [] (.pure 1) (.new (· + 1))).clones true).1 ≤ ((AJob.apply [] (.pure 1) (.new (· + 1))).clones false).1 ∧
    ¬ ((AJob.apply [] (.pure 1) (.pure (· + 1))).clones true).1 ≤ ((AJob.apply [] (.pure 1) (.pure (· + 1))).clones false).1 := by
  decide

/-- The same value or effect in the model without clones. -/
def toAsync {σ : Type} : AsyncMC σ A → AsyncM σ A
  | .Pure a => .Pure a
  | .Effect f => .Effect f

/-- With a `clone` without effects every program run alone does what it does in `Effect/Async` (`apply`, `apply_owned` and
`zip_with` are left out: there the clones are segments of their own, so the same schedule interleaves differently). -/
theorem c107_plain {σ E : Type} [RClone σ A] [RClone σ B] (hA : PlainClone σ A) (hB : PlainClone σ B) (x : AsyncMC σ A) :
    x.tryGet.run = (toAsync x).tryGet.run ∧
    (∀ f : A → Fut σ B, (x.fmap f).tryGet.run = ((toAsync x).fmap f).tryGet.run) ∧
    (∀ f : A → Fut σ B, (x.fmapOwned f).tryGet.run = ((toAsync x).fmapOwned f).tryGet.run) ∧
    (∀ f : A → Fut σ (AsyncMC σ B), (x.bind f).tryGet.run =
      ((toAsync x).bind fun a => (f a).bind fun y => .ret (toAsync y)).tryGet.run) ∧
    (∀ f : A → Fut σ (AsyncMC σ B), (x.bindOwned f).tryGet.run =
      ((toAsync x).bindOwned fun a => (f a).bind fun y => .ret (toAsync y)).tryGet.run) ∧
    (∀ d, (x.recoverWith d).tryGet.run = ((toAsync x).recoverWith d).tryGet.run) ∧
    (∀ (f : Fut σ (Except E A)) d, (AsyncMC.fromResultOrDefault f d).tryGet.run = (AsyncM.fromResultOrDefault f d).tryGet.run) := by
  have hr : ∀ {A : Type} [RClone σ A], PlainClone σ A → ∀ x : AsyncMC σ A, x.tryGet.run = (toAsync x).tryGet.run := by
    intro A _ hA x
    cases x with
    | Pure a => exact (Fut.run_ofAct _).trans (hA a)
    | Effect f => rfl
  have hg : ∀ {A : Type} (x : AsyncM σ A), x.side = x.tryGet := fun x => by cases x <;> rfl
  have ho : ∀ f : A → Fut σ B, (x.tryGet.bind f).run = ((toAsync x).tryGet.bind f).run := fun f => by
    rw [Fut.run_bind, Fut.run_bind, hr hA]
  have hb : ∀ f : A → Fut σ (AsyncMC σ B), (x.tryGet.bind fun a => (f a).bind fun y => y.tryGet).run =
      ((toAsync x).tryGet.bind fun a => ((f a).bind fun y => .ret (toAsync y)).bind fun y => y.tryGet).run := fun f => by
    simp only [Fut.run_bind, hr hA, hr hB, Act.seq_assoc]; rfl
  refine ⟨hr hA x, fun f => ?_, fun f => ?_, fun f => ?_, fun f => ?_, fun d => ?_, fun f d => ?_⟩
  · cases x with
    | Pure a => exact ho f
    | Effect e => exact ho f
  · exact (ho f).trans (by rw [← hg]; rfl)
  · cases x with
    | Pure a => exact (hb f).trans (by simp only [AsyncM.bind, toAsync]; rfl)
    | Effect e => exact (hb f).trans (by simp only [AsyncM.bind, toAsync]; rfl)
  · exact (hb f).trans (by simp only [AsyncM.bindOwned, hg]; rfl)
  · show (Fut.bind (Fut.ofAct (clone d)) _).run = (Fut.bind ((toAsync x).side.catchUnwind) _).run
    rw [Fut.run_bind, Fut.run_ofAct, hA d, Act.ret_seq, Fut.run_bind, Fut.run_bind, hg]
    congr 1
    funext w
    rw [Fut.run_catch, Fut.run_catch, hr hA]
  · show (Fut.bind f _).run = (Fut.bind f _).run
    rw [Fut.run_bind, Fut.run_bind]
    congr 1
    funext r
    cases r with
    | ok a => rfl
    | error e => exact (Fut.run_ofAct _).trans (hA d)

/-- Meets the hypotheses. -/
example : letI : RClone Nat Nat := ⟨ret⟩
    PlainClone Nat Nat ∧ ((AsyncMC.pure 1 : AsyncMC Nat Nat).fmap fun a => .ret (a + 1)).tryGet.run 5 = (.ok 2, 5) :=
  ⟨fun _ => rfl, rfl⟩

end Clones
end Rustica
