import Verif.Effect.Async

/-!
# C45 (and the `AsyncM` parts of C23, C25)
-/

namespace Rustica
open AsyncM

variable {σ σ' A B C E : Type}

/-! ## Futures -/

namespace Fut

theorem bind_ret (x : Fut σ A) : x.bind .ret = x := by
  induction x with
  | ret a => rfl
  | panic p => rfl
  | step upd k ih => exact congrArg (Fut.step upd) (funext ih)

theorem bind_assoc (x : Fut σ A) (f : A → Fut σ B) (g : B → Fut σ C) :
    (x.bind f).bind g = x.bind fun a => (f a).bind g := by
  induction x with
  | ret a => rfl
  | panic p => rfl
  | step upd k ih => exact congrArg (Fut.step upd) (funext ih)

/-- Awaiting in sequence is running in sequence. -/
theorem run_bind (x : Fut σ A) (f : A → Fut σ B) : (x.bind f).run = x.run.seq fun a => (f a).run := by
  induction x with
  | ret a => rfl
  | panic p => rfl
  | step upd k ih =>
    funext w
    show ((k w).bind f).run (upd w) = _
    rw [ih]
    rfl

theorem run_ofAct (m : Act σ A) : (ofAct m).run = m := by
  funext w
  show Fut.run (match (m w).1 with | .ok a => .ret a | .error p => .panic p) (m w).2 = m w
  rcases m w with ⟨r, w'⟩
  cases r <;> rfl

theorem run_catch (x : Fut σ A) (w : σ) : x.catchUnwind.run w = (.ok (x.run w).1, (x.run w).2) := by
  induction x generalizing w with
  | ret a => rfl
  | panic p => rfl
  | step upd k ih => exact ih w (upd w)

/-- Specification: in every environment, whatever other code does to the world between the segments, the future
returns `a`. -/
inductive Settles : Fut σ A → A → Prop
  | ret (a : A) : Settles (.ret a) a
  | step {upd : σ → σ} {k : σ → Fut σ A} {a : A} : (∀ w, Settles (k w) a) → Settles (.step upd k) a

theorem Settles.bind {x : Fut σ A} {a : A} {f : A → Fut σ B} {b : B} (hx : Settles x a) (hf : Settles (f a) b) :
    Settles (x.bind f) b := by
  induction hx with
  | ret => exact hf
  | step _ ih => exact .step fun w => ih w hf

theorem Settles.ofAct {m : Act σ A} {a : A} (h : ∀ w, (m w).1 = .ok a) : Settles (Fut.ofAct m) a := by
  refine .step fun w => ?_
  rw [h w]
  exact .ret a

theorem Settles.join {x : Fut σ A} {a : A} {y : Fut σ B} {b : B} (hx : Settles x a) (hy : Settles y b) :
    ∀ s, Settles (x.join y s) (a, b) := by
  induction hx generalizing y with
  | ret a => intro s; exact hy.bind (.ret _)
  | @step upd k a _ ih =>
    intro s
    show Settles (joinStep upd (fun w => Fut.join (k w)) y s) (a, b)
    induction s generalizing y with
    | nil =>
      cases y <;> exact .step fun w => ih w hy []
    | cons c s ihs =>
      cases c with
      | false => cases y <;> exact .step fun w => ih w hy s
      | true =>
        cases hy with
        | ret => exact .step fun w => ih w (.ret _) s
        | step hk => exact .step fun w => ihs (hk w)

theorem Settles.catch {x : Fut σ A} {a : A} (h : Settles x a) : Settles x.catchUnwind (.ok a) := by
  induction h with
  | ret => exact .ret _
  | step _ ih => exact .step ih

theorem Settles.run {x : Fut σ A} {a : A} (h : Settles x a) (w : σ) : (x.run w).1 = .ok a := by
  induction h generalizing w with
  | ret => rfl
  | step _ ih => exact ih w _

/-- A future that works on the first half of the world. -/
def onFst : Fut σ A → Fut (σ × σ') A
  | .ret a => .ret a
  | .panic p => .panic p
  | .step upd k => .step (fun w => (upd w.1, w.2)) fun w => onFst (k w.1)
/-- A future that works on the second half of the world. -/
def onSnd : Fut σ' A → Fut (σ × σ') A
  | .ret a => .ret a
  | .panic p => .panic p
  | .step upd k => .step (fun w => (w.1, upd w.2)) fun w => onSnd (k w.2)

theorem run_onSnd_bind (y : Fut σ' B) (a : A) (w : σ) (w' : σ') (b : B) (u' : σ')
    (hy : y.run w' = (.ok b, u')) :
    ((onSnd y : Fut (σ × σ') B).bind fun b => .ret (a, b)).run (w, w') = (.ok (a, b), (w, u')) := by
  induction y generalizing w' with
  | ret c => cases hy; rfl
  | panic p => cases hy
  | step upd k ih => exact ih w' (upd w') hy

/-- Two parts that do not share data: under every schedule, the joint run gives both values and both worlds of the
separate runs. -/
theorem run_join (x : Fut σ A) (y : Fut σ' B) (w : σ) (w' : σ') (a : A) (u : σ) (b : B) (u' : σ')
    (hx : x.run w = (.ok a, u)) (hy : y.run w' = (.ok b, u')) (s : List Bool) :
    ((onFst x : Fut (σ × σ') A).join (onSnd y) s).run (w, w') = (.ok (a, b), (u, u')) := by
  induction x generalizing w y w' s with
  | ret c => cases hx; exact run_onSnd_bind y _ _ w' b u' hy
  | panic p => cases hx
  | step upd k ih =>
    show (joinStep _ (fun w => Fut.join (onFst (k w.1))) (onSnd y) s).run (w, w') = _
    induction s generalizing y w' with
    | nil => cases y <;> exact ih w _ (upd w) _ hx hy []
    | cons c s ihs =>
      cases c with
      | false => cases y <;> exact ih w _ (upd w) _ hx hy s
      | true =>
        cases y with
        | ret d => exact ih w (.ret d) (upd w) _ hx hy s
        | panic p => cases hy
        | step upd' k' => exact ihs (k' w') (upd' w') hy

/-- Specification: in every environment the future ends with the panic `p`. -/
inductive Crashes : Fut σ A → Panic → Prop
  | panic (p : Panic) : Crashes (.panic p) p
  | step {upd : σ → σ} {k : σ → Fut σ A} {p : Panic} : (∀ w, Crashes (k w) p) → Crashes (.step upd k) p

theorem Crashes.bind {x : Fut σ A} {p : Panic} (hx : Crashes x p) (f : A → Fut σ B) : Crashes (x.bind f) p := by
  induction hx with
  | panic => exact .panic _
  | step _ ih => exact .step ih

theorem Settles.bind_crashes {x : Fut σ A} {a : A} {f : A → Fut σ B} {p : Panic} (hx : Settles x a)
    (hf : Crashes (f a) p) : Crashes (x.bind f) p := by
  induction hx with
  | ret => exact hf
  | step _ ih => exact .step fun w => ih w hf

theorem Crashes.join_left {x : Fut σ A} {p : Panic} {y : Fut σ B} {b : B} (hx : Crashes x p) (hy : Settles y b) :
    ∀ s, Crashes (x.join y s) p := by
  induction hx generalizing y with
  | panic p =>
    intro s
    show Crashes (joinPanic p y s) p
    induction s generalizing y with
    | nil => cases y <;> exact .panic p
    | cons c s ihs =>
      cases c with
      | false => cases y <;> exact .panic p
      | true =>
        cases hy with
        | ret => exact .panic p
        | step hk => exact .step fun w => ihs (hk w)
  | @step upd k p _ ih =>
    intro s
    show Crashes (joinStep upd (fun w => Fut.join (k w)) y s) p
    induction s generalizing y with
    | nil => cases y <;> exact .step fun w => ih w hy []
    | cons c s ihs =>
      cases c with
      | false => cases y <;> exact .step fun w => ih w hy s
      | true =>
        cases hy with
        | ret => exact .step fun w => ih w (.ret _) s
        | step hk => exact .step fun w => ihs (hk w)

theorem Crashes.join_right {x : Fut σ A} {a : A} {y : Fut σ B} {p : Panic} (hx : Settles x a) (hy : Crashes y p) :
    ∀ s, Crashes (x.join y s) p := by
  induction hx generalizing y with
  | ret a => intro s; exact hy.bind _
  | @step upd k a _ ih =>
    intro s
    show Crashes (joinStep upd (fun w => Fut.join (k w)) y s) p
    induction s generalizing y with
    | nil => cases y <;> exact .step fun w => ih w hy []
    | cons c s ihs =>
      cases c with
      | false => cases y <;> exact .step fun w => ih w hy s
      | true =>
        cases hy with
        | panic => exact .panic _
        | step hk => exact .step fun w => ihs (hk w)

theorem Crashes.run {x : Fut σ A} {p : Panic} (h : Crashes x p) (w : σ) : (x.run w).1 = .error p := by
  induction h generalizing w with
  | panic => rfl
  | step _ ih => exact ih w _

/-- Specification: the world after the first `n` segments of a future that runs alone. -/
def segments : Nat → Fut σ A → σ → σ
  | 0, _, w => w
  | _ + 1, .ret _, w => w
  | _ + 1, .panic _, w => w
  | n + 1, .step upd k, w => segments n (k w) (upd w)

/-- A first part that panics at once, next to a second part that does not: under a schedule that lets the second part
move `n` times first, exactly these `n` segments have run when the panic comes. -/
theorem run_joinPanic (p : Panic) (y : Fut σ' B) (w : σ) (w' : σ') (b : B) (u' : σ')
    (hy : y.run w' = (.ok b, u')) (n : Nat) (s : List Bool) (hs : s = [] ∨ ∃ r, s = false :: r) :
    ((onFst (.panic p : Fut σ A) : Fut (σ × σ') A).join (onSnd y) (List.replicate n true ++ s)).run (w, w')
      = (.error p, (w, segments n y w')) := by
  show (joinPanic p (onSnd y) _).run (w, w') = _
  induction n generalizing y w' with
  | zero =>
    rcases hs with rfl | ⟨r, rfl⟩ <;> cases y <;> rfl
  | succ n ih =>
    cases y with
    | ret c => rfl
    | panic q => cases hy
    | step upd k => exact ih (k w') (upd w') hy

/-- One part panics, the other one does not and shares no data with it: under every schedule the join panics with that
panic, the panicking part has had all its effects and the other one those of some of its first segments. -/
theorem run_join_panic_left (x : Fut σ A) (y : Fut σ' B) (w : σ) (w' : σ') (p : Panic) (u : σ) (b : B) (u' : σ')
    (hx : x.run w = (.error p, u)) (hy : y.run w' = (.ok b, u')) (s : List Bool) :
    ∃ n, ((onFst x : Fut (σ × σ') A).join (onSnd y) s).run (w, w') = (.error p, (u, segments n y w')) := by
  induction x generalizing w y w' s with
  | ret c => cases hx
  | panic q =>
    cases hx
    show ∃ n, (joinPanic p (onSnd y) s).run (_, w') = _
    induction s generalizing y w' with
    | nil => exact ⟨0, by cases y <;> rfl⟩
    | cons c s ihs =>
      cases c with
      | false => exact ⟨0, by cases y <;> rfl⟩
      | true =>
        cases y with
        | ret d => exact ⟨0, rfl⟩
        | panic q => cases hy
        | step upd' k' =>
          obtain ⟨n, h⟩ := ihs (k' w') (upd' w') hy
          exact ⟨n + 1, h⟩
  | step upd k ih =>
    show ∃ n, (joinStep _ (fun w => Fut.join (onFst (k w.1))) (onSnd y) s).run (w, w') = _
    induction s generalizing y w' with
    | nil => cases y <;> exact ih w _ (upd w) _ hx hy []
    | cons c s ihs =>
      cases c with
      | false => cases y <;> exact ih w _ (upd w) _ hx hy s
      | true =>
        cases y with
        | ret d => exact ih w (.ret d) (upd w) _ hx hy s
        | panic p => cases hy
        | step upd' k' =>
          obtain ⟨n, h⟩ := ihs (k' w') (upd' w') hy
          exact ⟨n + 1, h⟩

theorem run_onSnd_panic (y : Fut σ' B) (f : B → Fut (σ × σ') C) (w : σ) (w' : σ') (p : Panic) (u' : σ')
    (hy : y.run w' = (.error p, u')) :
    ((onSnd y : Fut (σ × σ') B).bind f).run (w, w') = (.error p, (w, u')) := by
  induction y generalizing w' with
  | ret c => cases hy
  | panic q => cases hy; rfl
  | step upd k ih => exact ih w' (upd w') hy

theorem run_join_panic_right (x : Fut σ A) (y : Fut σ' B) (w : σ) (w' : σ') (p : Panic) (u : σ) (a : A) (u' : σ')
    (hx : x.run w = (.ok a, u)) (hy : y.run w' = (.error p, u')) (s : List Bool) :
    ∃ n, ((onFst x : Fut (σ × σ') A).join (onSnd y) s).run (w, w') = (.error p, (segments n x w, u')) := by
  induction x generalizing w y w' s with
  | ret c => exact ⟨0, run_onSnd_panic y _ w w' p u' hy⟩
  | panic q => cases hx
  | step upd k ih =>
    show ∃ n, (joinStep _ (fun w => Fut.join (onFst (k w.1))) (onSnd y) s).run (w, w') = _
    have go : ∀ s, ∃ n, ((onFst (k w) : Fut (σ × σ') A).join (onSnd y) s).run (upd w, w')
        = (.error p, (segments n (.step upd k) w, u')) := fun s => by
      obtain ⟨n, h⟩ := ih w y (upd w) w' hx hy s
      exact ⟨n + 1, h⟩
    induction s generalizing y w' with
    | nil => cases y <;> exact go []
    | cons c s ihs =>
      cases c with
      | false => cases y <;> exact go s
      | true =>
        cases y with
        | ret d => cases hy
        | panic q => cases hy; exact ⟨0, rfl⟩
        | step upd' k' =>
          refine ihs (k' w') (upd' w') hy fun s => ?_
          obtain ⟨n, h⟩ := ih w (k' w') (upd w) (upd' w') hx hy s
          exact ⟨n + 1, h⟩

/-- Specification: how many segments a future runs when it runs alone. -/
def count : Fut σ A → σ → Nat
  | .ret _, _ => 0
  | .panic _, _ => 0
  | .step upd k, w => count (k w) (upd w) + 1

/-- Specification: of two parts that panic after `m` and `n` segments, does the second one panic first?  Each `true` of
the schedule moves the second part, everything else the first. -/
def secondFirst : (m n : Nat) → List Bool → Bool
  | _, _, [] => false
  | 0, _, false :: _ => false
  | m + 1, n, false :: s => secondFirst m n s
  | _, 0, true :: _ => true
  | m, n + 1, true :: s => secondFirst m n s

/-- Both parts panic and share no data: the schedule decides which panic comes first; that part has had all its effects
and the other one those of some of its first segments. -/
theorem run_join_panic_both (x : Fut σ A) (y : Fut σ' B) (w : σ) (w' : σ') (p q : Panic) (u : σ) (u' : σ')
    (hx : x.run w = (.error p, u)) (hy : y.run w' = (.error q, u')) (s : List Bool) :
    ∃ n, ((onFst x : Fut (σ × σ') A).join (onSnd y) s).run (w, w') =
      if secondFirst (count x w) (count y w') s then (.error q, (segments n x w, u'))
      else (.error p, (u, segments n y w')) := by
  induction x generalizing w y w' s with
  | ret c => cases hx
  | panic r =>
    cases hx
    show ∃ n, (joinPanic p (onSnd y) s).run (_, w') = _
    induction s generalizing y w' with
    | nil => exact ⟨0, by cases y <;> rfl⟩
    | cons c s ihs =>
      cases c with
      | false => exact ⟨0, by cases y <;> rfl⟩
      | true =>
        cases y with
        | ret d => cases hy
        | panic q => cases hy; exact ⟨0, rfl⟩
        | step upd' k' =>
          obtain ⟨n, h⟩ := ihs (k' w') (upd' w') hy
          refine ⟨n + 1, ?_⟩
          have e : segments n (.panic p : Fut σ A) u = u := by cases n <;> rfl
          rw [e] at h
          exact h
  | step upd k ih =>
    have go : ∀ (y : Fut σ' B) (w' : σ'), y.run w' = (.error q, u') → ∀ s,
        ∃ n n', ((onFst (k w) : Fut (σ × σ') A).join (onSnd y) s).run (upd w, w') =
          if secondFirst (count (k w) (upd w)) (count y w') s then
            (.error q, (segments n (.step upd k) w, u'))
          else (.error p, (u, segments n' y w')) := fun y w' hy s => by
      obtain ⟨n, h⟩ := ih w y (upd w) w' hx hy s
      exact ⟨n + 1, n, h⟩
    have key : ∃ n n', ((onFst (.step upd k) : Fut (σ × σ') A).join (onSnd y) s).run (w, w') =
        if secondFirst (count (.step upd k) w) (count y w') s then
          ((.error q, (segments n (.step upd k) w, u')) : Except Panic (A × B) × (σ × σ'))
        else (.error p, (u, segments n' y w')) := by
      induction s generalizing y w' with
      | nil =>
        obtain ⟨n, n', h⟩ := go y w' hy []
        exact ⟨n, n', by cases y <;> exact h⟩
      | cons c s ihs =>
        cases c with
        | false =>
          obtain ⟨n, n', h⟩ := go y w' hy s
          exact ⟨n, n', by cases y <;> exact h⟩
        | true =>
          cases y with
          | ret d => cases hy
          | panic q => cases hy; exact ⟨0, 0, rfl⟩
          | step upd' k' =>
            obtain ⟨n, n', h⟩ := ihs (k' w') (upd' w') hy
            exact ⟨n, n' + 1, h⟩
    obtain ⟨n, n', h⟩ := key
    cases e : secondFirst (count (.step upd k) w) (count y w') s with
    | true => exact ⟨n, by rw [h, e]; rfl⟩
    | false => exact ⟨n', by rw [h, e]; rfl⟩

end Fut

/-! ## C45 -/

/-- Awaiting `fmap`, `bind` and their owned variants is awaiting the parts in sequence; the fast paths for pure
values included. -/
theorem c45_sequential (m : AsyncM σ A) (f : A → Fut σ B) (g : A → Fut σ (AsyncM σ B)) :
    (m.fmap f).tryGet = m.tryGet.bind f ∧ (m.fmapOwned f).tryGet = m.tryGet.bind f ∧
    (m.bind g).tryGet = (m.tryGet.bind fun a => (g a).bind tryGet) ∧
    (m.bindOwned g).tryGet = (m.tryGet.bind fun a => (g a).bind tryGet) := by
  cases m with
  | Pure a =>
    refine ⟨rfl, rfl, ?_, ?_⟩
    · exact congrArg (g a).bind (funext fun n => by cases n <;> rfl)
    · exact congrArg (g a).bind (funext fun n => by cases n <;> rfl)
  | Effect r =>
    refine ⟨rfl, rfl, ?_, ?_⟩
    · exact congrArg r.bind (funext fun a => congrArg (g a).bind (funext fun n => by cases n <;> rfl))
    · exact congrArg r.bind (funext fun a => congrArg (g a).bind (funext fun n => by cases n <;> rfl))

/-- … so that the result and the effects are those of the synchronous composition. -/
theorem c45_synchronous (m : AsyncM σ A) (f : A → Fut σ B) (g : A → Fut σ (AsyncM σ B)) (a : A) (w : σ) :
    (AsyncM.pure a : AsyncM σ A).tryGet.run w = (.ok a, w) ∧
    (m.fmap f).tryGet.run = (m.tryGet.run.seq fun a => (f a).run) ∧
    (m.bind g).tryGet.run = (m.tryGet.run.seq fun a => (g a).run.seq fun n => n.tryGet.run) := by
  refine ⟨rfl, ?_, ?_⟩
  · rw [(c45_sequential m f g).1, Fut.run_bind]
  · rw [(c45_sequential m f g).2.2.1, Fut.run_bind]
    exact congrArg _ (funext fun a => Fut.run_bind _ _)

/-- The monad laws of `AsyncM` on what awaiting does; continuations may themselves be asynchronous. -/
theorem c45_monad_laws (a : A) (m : AsyncM σ A) (f : A → Fut σ (AsyncM σ B)) (g : B → Fut σ (AsyncM σ C)) :
    ((AsyncM.pure a).bind f).tryGet = (f a).bind tryGet ∧
    (m.bind fun x => .ret (AsyncM.pure x)).tryGet = m.tryGet ∧
    ((m.bind f).bind g).tryGet = (m.bind fun x => (f x).bind fun n => .ret (n.bind g)).tryGet := by
  refine ⟨(c45_sequential _ (fun _ => (f a).bind tryGet) f).2.2.1, ?_, ?_⟩
  · rw [(c45_sequential m (fun x => .ret x) _).2.2.1]
    exact Fut.bind_ret _
  · rw [(c45_sequential (m.bind f) (fun _ => .panic .other) g).2.2.1,
      (c45_sequential m (fun _ => .panic .other) f).2.2.1, (c45_sequential m (fun _ => .panic .other) _).2.2.1,
      Fut.bind_assoc]
    refine congrArg _ (funext fun x => ?_)
    rw [Fut.bind_assoc, Fut.bind_assoc]
    refine congrArg _ (funext fun n => ?_)
    exact (c45_sequential n (fun _ => .panic .other) g).2.2.1.symm

/-- C25 for `AsyncM`. -/
theorem c25_async (a : A) (m : AsyncM σ A) (f : A → Fut σ (AsyncM σ B)) (g : B → Fut σ (AsyncM σ C)) :
    ((AsyncM.pure a).bind f).tryGet = (f a).bind tryGet ∧
    (m.bind fun x => .ret (AsyncM.pure x)).tryGet = m.tryGet ∧
    ((m.bind f).bind g).tryGet = (m.bind fun x => (f x).bind fun n => .ret (n.bind g)).tryGet :=
  c45_monad_laws a m f g

/-- C23 for `AsyncM`. -/
theorem c23_async (m : AsyncM σ A) (f : A → Fut σ B) (g : B → Fut σ C) :
    (m.fmap .ret).tryGet = m.tryGet ∧
    ((m.fmap f).fmap g).tryGet = (m.fmap fun a => (f a).bind g).tryGet ∧
    (m.fmap f).tryGet = (m.fmapOwned f).tryGet := by
  refine ⟨?_, ?_, ?_⟩
  · rw [(c45_sequential m .ret (fun _ => .panic .other : A → Fut σ (AsyncM σ A))).1, Fut.bind_ret]
  · rw [(c45_sequential (m.fmap f) g (fun _ => .panic .other : B → Fut σ (AsyncM σ C))).1,
      (c45_sequential m f (fun _ => .panic .other : A → Fut σ (AsyncM σ B))).1, Fut.bind_assoc,
      (c45_sequential m _ (fun _ => .panic .other : A → Fut σ (AsyncM σ C))).1]
  · exact ((c45_sequential m f (fun _ => .panic .other : A → Fut σ (AsyncM σ B))).1).trans
      ((c45_sequential m f (fun _ => .panic .other : A → Fut σ (AsyncM σ B))).2.1).symm

/-- The fast paths of `apply` and `zip_with` agree with the general path: building and then awaiting has the result
and effects of joining both parts and calling the function (with a function that has effects the fast path has
them while building). -/
theorem c45_fast_paths (s : List Bool) (m : AsyncM σ A) (mf : AsyncM σ (A → Act σ B)) (n : AsyncM σ B)
    (f : A → B → Act σ C) :
    ((m.apply s mf).seq fun r => r.tryGet.run) =
      ((m.tryGet.join mf.tryGet s).run.seq fun p => p.2 p.1) ∧
    ((m.zipWith s n f).seq fun r => r.tryGet.run) =
      ((m.tryGet.join n.tryGet s).run.seq fun p => f p.1 p.2) ∧
    (m.applyOwned s mf).tryGet.run = ((m.tryGet.join mf.tryGet s).run.seq fun p => p.2 p.1) := by
  have hrun : ∀ {X Y : Type} (x : Fut σ X) (k : X → Act σ Y),
      (x.bind fun p => Fut.ofAct (k p)).run = x.run.seq k := by
    intro X Y x k
    rw [Fut.run_bind]
    exact congrArg _ (funext fun a => Fut.run_ofAct _)
  refine ⟨?_, ?_, ?_⟩
  · cases m <;> cases mf
    · rename_i a f
      show ((f a).seq fun r => Act.ret (AsyncM.pure r)).seq (fun r => r.tryGet.run) = f a
      rw [Act.seq_assoc]
      exact Act.seq_ret (f a)
    · exact hrun _ _
    · exact hrun _ _
    · exact hrun _ _
  · cases m <;> cases n
    · rename_i a b
      show ((f a b).seq fun r => Act.ret (AsyncM.pure r)).seq (fun r => r.tryGet.run) = f a b
      rw [Act.seq_assoc]
      exact Act.seq_ret (f a b)
    · exact hrun _ _
    · exact hrun _ _
    · exact hrun _ _
  · cases m <;> cases mf <;> exact hrun _ _

/-- Values do not depend on the schedule, nor on what other tasks do in between: if the two parts always return
`a` and `f` (resp. `b`), the combination always returns the combined value, for every schedule. -/
theorem c45_schedules (s : List Bool) (m : AsyncM σ A) (mf : AsyncM σ (A → Act σ B)) (n : AsyncM σ B)
    (g : A → B → Act σ C) (a : A) (f : A → Act σ B) (b b' : B) (c : C) (hm : Fut.Settles m.tryGet a)
    (hf : Fut.Settles mf.tryGet f) (hn : Fut.Settles n.tryGet b) (hb : ∀ w, (f a w).1 = .ok b')
    (hc : ∀ w, (g a b w).1 = .ok c) :
    (∀ w, ∃ r, (m.apply s mf w).1 = .ok r ∧ Fut.Settles r.tryGet b') ∧
    Fut.Settles (m.applyOwned s mf).tryGet b' ∧
    (∀ w, ∃ r, (m.zipWith s n g w).1 = .ok r ∧ Fut.Settles r.tryGet c) ∧
    (∀ w, ∃ r, (m.zip s n w).1 = .ok r ∧ Fut.Settles r.tryGet (a, b)) := by
  have hj : ∀ (x : Fut σ A) (y : Fut σ (A → Act σ B)), Fut.Settles x a → Fut.Settles y f →
      Fut.Settles ((x.join y s).bind fun p => Fut.ofAct (p.2 p.1)) b' :=
    fun x y hx hy => (hx.join hy s).bind (Fut.Settles.ofAct hb)
  have hz : ∀ {D : Type} (k : A → B → Act σ D) (d : D) (_ : ∀ w, (k a b w).1 = .ok d) (x : Fut σ A) (y : Fut σ B),
      Fut.Settles x a → Fut.Settles y b → Fut.Settles ((x.join y s).bind fun p => Fut.ofAct (k p.1 p.2)) d :=
    fun k d hk x y hx hy => (hx.join hy s).bind (Fut.Settles.ofAct hk)
  have hzip : ∀ {D : Type} (k : A → B → Act σ D) (d : D), (∀ w, (k a b w).1 = .ok d) →
      ∀ w, ∃ r, (m.zipWith s n k w).1 = .ok r ∧ Fut.Settles r.tryGet d := by
    intro D k d hk w
    cases m with
    | Pure x =>
      cases n with
      | Pure y =>
        cases hm; cases hn
        refine ⟨.Pure d, ?_, .ret _⟩
        show (((k a b).seq fun r => Act.ret (AsyncM.pure r)) w).1 = _
        have := hk w
        simp only [Act.seq]
        rcases hkw : k a b w with ⟨r, w'⟩
        rw [hkw] at this
        cases this
        rfl
      | Effect y => exact ⟨_, rfl, hz k d hk (.ret x) y hm hn⟩
    | Effect x =>
      cases n with
      | Pure y => exact ⟨_, rfl, hz k d hk x (.ret y) hm hn⟩
      | Effect y => exact ⟨_, rfl, hz k d hk x y hm hn⟩
  refine ⟨?_, ?_, hzip g c hc, hzip _ (a, b) fun w => rfl⟩
  · intro w
    cases m with
    | Pure x =>
      cases mf with
      | Pure y =>
        cases hm; cases hf
        refine ⟨.Pure b', ?_, .ret _⟩
        show (((f a).seq fun r => Act.ret (AsyncM.pure r)) w).1 = _
        have := hb w
        simp only [Act.seq]
        rcases hkw : f a w with ⟨r, w'⟩
        rw [hkw] at this
        cases this
        rfl
      | Effect y => exact ⟨_, rfl, hj (.ret x) y hm hf⟩
    | Effect x =>
      cases mf with
      | Pure y => exact ⟨_, rfl, hj x (.ret y) hm hf⟩
      | Effect y => exact ⟨_, rfl, hj x y hm hf⟩
  · cases m <;> cases mf <;> exact hj _ _ hm hf

/-- Parts that depend on the world but do not share data: for every schedule the values and effects are those of
the two separate runs. -/
theorem c45_disjoint (s : List Bool) (x : Fut σ A) (y : Fut σ' B) (g : A → B → C) (w u : σ) (w' u' : σ') (a : A)
    (b : B) (hx : x.run w = (.ok a, u)) (hy : y.run w' = (.ok b, u')) :
    (((AsyncM.Effect x.onFst).zipWith s (.Effect y.onSnd) fun a b => Act.ret (g a b)).seq fun r => r.tryGet.run)
      (w, w') = (.ok (g a b), (u, u')) := by
  rw [(c45_fast_paths s (.Effect x.onFst) (.Pure fun _ => Act.ret b) (.Effect y.onSnd) _).2.1]
  show (((x.onFst).join (y.onSnd) s).run.seq _) (w, w') = _
  simp only [Act.seq, Fut.run_join x y w w' a u b u' hx hy s]
  rfl

/-- Panics: when one part of `apply_owned`, `zip_with` or `zip` always panics and the other one always settles, the
combination panics with that panic under every schedule, and `recover_with` turns it into the default. -/
theorem c45_panics (s : List Bool) (m : AsyncM σ A) (n : AsyncM σ B) (mf : AsyncM σ (A → Act σ B)) (a : A) (b : B)
    (f : A → Act σ B) (p : Panic) :
    ((Fut.Crashes m.tryGet p ∧ Fut.Settles mf.tryGet f) ∨ (Fut.Settles m.tryGet a ∧ Fut.Crashes mf.tryGet p) →
      Fut.Crashes (m.applyOwned s mf).tryGet p) ∧
    ((Fut.Crashes m.tryGet p ∧ Fut.Settles n.tryGet b) ∨ (Fut.Settles m.tryGet a ∧ Fut.Crashes n.tryGet p) →
      ∀ w, ∃ r, m.zip s n w = (.ok r, w) ∧ Fut.Crashes r.tryGet p) ∧
    (Fut.Crashes m.tryGet p → ∀ d, Fut.Settles (m.recoverWith d).tryGet d) := by
  have hm : side m = m.tryGet := by cases m <;> rfl
  have hmf : side mf = mf.tryGet := by cases mf <;> rfl
  have hn : side n = n.tryGet := by cases n <;> rfl
  refine ⟨fun h => ?_, fun h w => ?_, fun h d => ?_⟩
  · show Fut.Crashes (((side m).join (side mf) s).bind _) p
    rw [hm, hmf]
    rcases h with ⟨h1, h2⟩ | ⟨h1, h2⟩
    · exact (h1.join_left h2 s).bind _
    · exact (Fut.Crashes.join_right h1 h2 s).bind _
  · have hc : Fut.Crashes (m.tryGet.join n.tryGet s) p := by
      rcases h with ⟨h1, h2⟩ | ⟨h1, h2⟩
      · exact h1.join_left h2 s
      · exact Fut.Crashes.join_right h1 h2 s
    cases m with
    | Pure x =>
      cases n with
      | Pure y =>
        rcases h with ⟨h1, _⟩ | ⟨_, h2⟩
        · cases h1
        · cases h2
      | Effect y => exact ⟨_, rfl, hc.bind _⟩
    | Effect x => cases n <;> exact ⟨_, rfl, hc.bind _⟩
  · show Fut.Settles ((side m).catchUnwind.bind _) d
    rw [hm]
    have : ∀ x : Fut σ A, Fut.Crashes x p → Fut.Settles x.catchUnwind (.error p) := by
      clear h
      intro x hx
      induction hx with
      | panic p => exact .ret _
      | step _ ih => exact .step ih
    exact (this _ h).bind (.ret d)

/-- Panics and effects: when one part panics and the other one does not (no shared data), the panicking part has had all
its effects and the other one those of some of its first segments; which ones is up to the schedule: `n` moves of the
second part before a panic of the first are exactly `n` segments. -/
theorem c45_panic_effects (s : List Bool) (x : Fut σ A) (y : Fut σ' B) (w u : σ) (w' u' : σ') (a : A) (b : B)
    (p : Panic) :
    (x.run w = (.error p, u) → y.run w' = (.ok b, u') →
      ∃ n, ((x.onFst).join (y.onSnd) s).run (w, w') = (.error p, (u, Fut.segments n y w'))) ∧
    (x.run w = (.ok a, u) → y.run w' = (.error p, u') →
      ∃ n, ((x.onFst).join (y.onSnd) s).run (w, w') = (.error p, (Fut.segments n x w, u'))) ∧
    (y.run w' = (.ok b, u') → ∀ n,
      (((.panic p : Fut σ A).onFst).join (y.onSnd) (List.replicate n true ++ false :: s)).run (w, w')
        = (.error p, (w, Fut.segments n y w'))) :=
  ⟨fun hx hy => Fut.run_join_panic_left x y w w' p u b u' hx hy s,
    fun hx hy => Fut.run_join_panic_right x y w w' p u a u' hx hy s,
    fun hy n => Fut.run_joinPanic p y w w' b u' hy n _ (.inr ⟨s, rfl⟩)⟩

/-- Not vacuous: the second part writes twice, the first one panics; after one move only the first write has happened. -/
example :
    let y : Fut (List Nat) Nat := .step (fun w => w ++ [1]) fun _ => .step (fun w => w ++ [2]) fun _ => .ret 5
    (((.panic .other : Fut Unit Nat).onFst).join (y.onSnd) [true, false]).run ((), [])
      = (.error .other, ((), [1])) := rfl

/-- Both parts panic (no shared data): the panic reported is that of the part the schedule brings to its panic first;
with an empty schedule that is the first part, as `join!` polls it first. -/
theorem c45_both_panic (s : List Bool) (x : Fut σ A) (y : Fut σ' B) (w u : σ) (w' u' : σ') (p q : Panic)
    (hx : x.run w = (.error p, u)) (hy : y.run w' = (.error q, u')) :
    ∃ n, ((x.onFst).join (y.onSnd) s).run (w, w') =
      if Fut.secondFirst (x.count w) (y.count w') s then (.error q, (Fut.segments n x w, u'))
      else (.error p, (u, Fut.segments n y w')) :=
  Fut.run_join_panic_both x y w w' p q u u' hx hy s

/-- Not vacuous: the first part writes and panics, the second one panics at once; either panic can win. -/
example :
    let x : Fut (List Nat) Nat := .step (fun w => w ++ [1]) fun _ => .panic .other
    let y : Fut Unit Nat := .panic (.str "second")
    ((x.onFst).join (y.onSnd) [false, true]).run ([], ()) = (.error (.str "second"), ([1], ())) ∧
    ((x.onFst).join (y.onSnd) [false, false]).run ([], ()) = (.error .other, ([1], ())) ∧
    Fut.secondFirst (x.count []) (y.count ()) [false, true] = true := ⟨rfl, rfl, rfl⟩

/-- `recover_with`: a successful computation is unchanged (result and effects), a panic becomes the default; it
never panics. -/
theorem c45_recover_with (m : AsyncM σ A) (d : A) (w : σ) :
    (∀ a w', m.tryGet.run w = (.ok a, w') → (m.recoverWith d).tryGet.run w = (.ok a, w')) ∧
    (∀ p w', m.tryGet.run w = (.error p, w') → (m.recoverWith d).tryGet.run w = (.ok d, w')) := by
  have hside : side m = m.tryGet := by cases m <;> rfl
  have h : (m.recoverWith d).tryGet.run w = (m.tryGet.catchUnwind.run.seq fun r => Fut.run (match r with
      | .ok value => Fut.ret value
      | .error _ => Fut.ret d)) w := by
    show ((side m).catchUnwind.bind _).run w = _
    rw [hside, Fut.run_bind]
    exact congrFun (congrArg _ (funext fun r => by cases r <;> rfl)) w
  constructor
  · intro a w' hr
    rw [h]
    simp only [Act.seq, Fut.run_catch, hr]
    rfl
  · intro p w' hr
    rw [h]
    simp only [Act.seq, Fut.run_catch, hr]
    rfl

/-- `from_result_or_default`: the value of `Ok`, the default for `Err`. -/
theorem c45_from_result (x : Fut σ (Except E A)) (d : A) (w w' : σ) :
    (∀ a, x.run w = (.ok (.ok a), w') → (fromResultOrDefault x d).tryGet.run w = (.ok a, w')) ∧
    (∀ e, x.run w = (.ok (.error e), w') → (fromResultOrDefault x d).tryGet.run w = (.ok d, w')) ∧
    (∀ p, x.run w = (.error p, w') → (fromResultOrDefault x d).tryGet.run w = (.error p, w')) := by
  have h : (fromResultOrDefault x d).tryGet.run w = (x.run.seq fun r => Fut.run (match r with
      | .ok value => Fut.ret value
      | .error _ => Fut.ret d)) w := by
    show (x.bind _).run w = _
    rw [Fut.run_bind]
    exact congrFun (congrArg _ (funext fun r => by cases r <;> rfl)) w
  refine ⟨?_, ?_, ?_⟩ <;> intro _ hr <;> rw [h] <;> simp only [Act.seq, hr] <;> rfl

/-- Two counters bumped under the schedule "right, left, right": the values are independent of it. -/
example : (((AsyncM.Effect (Fut.onFst (.step (· + 1) fun w => .ret (w + 1)))).zipWith [true, false, true]
    (.Effect (Fut.onSnd (.step (· * 2) fun _ => .step (· + 1) fun w => .ret w))) fun a b => Act.ret (a, b)).seq
    fun r => r.tryGet.run) (10, 20) = (.ok (11, 40), (11, 41)) := rfl
example : Fut.Settles (.step (· + 1) fun _ => .ret 5 : Fut Nat Nat) 5 := .step fun _ => .ret 5

/-- `c45_schedules` and `c45_disjoint`: the hypotheses hold of a computation that writes. -/
example (s : List Bool) : ∀ w, ∃ r, ((AsyncM.Effect (.step (· + 1) fun _ => .ret 5) : AsyncM Nat Nat).zip s
      (.Effect (.step (· * 2) fun _ => .ret 6)) w).1 = .ok r ∧ Fut.Settles r.tryGet (5, 6) :=
  (c45_schedules s (.Effect (.step (· + 1) fun _ => .ret 5)) (AsyncM.Effect (.ret fun a : Nat => Act.ret a))
    (.Effect (.step (· * 2) fun _ => .ret 6)) (fun a b => Act.ret (a + b)) 5 Act.ret 6 5 11 (.step fun _ => .ret 5)
    (.ret _) (.step fun _ => .ret 6) (fun _ => rfl) (fun _ => rfl)).2.2.2

example (s : List Bool) : (((AsyncM.Effect (Fut.onFst (.step (· + 1) fun w => .ret (w + 1)))).zipWith s
    (.Effect (Fut.onSnd (.step (· * 2) fun _ => .step (· + 1) fun w => .ret w))) fun a b => Act.ret (a + b)).seq
    fun r => r.tryGet.run) (10, 20) = (.ok 51, (11, 41)) :=
  c45_disjoint s _ _ (· + ·) 10 11 20 41 11 40 rfl rfl

end Rustica
