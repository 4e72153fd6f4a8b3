import Verif.Spec.ContClones
import Verif.Trans.ContClones
import Verif.Theorems.CloneRest

/-!
# C108: how often the values of a continuation program are cloned
-/

namespace Rustica
open Act (ret)
open Spec

namespace Clones
variable {A B M R : Type}

/-- A program put together with the methods of `ContT`; `values` clones the values.  Inside `call_cc` the parts come one after the
other: the escape is called in a closure of `bind`, and what would come after it in another. -/
def contTOf (values : (A : Type) → A → Act Nat A) : {A : Type} → KJob A → ContTC Nat M A
  | _, @KJob.pure A a => letI : RClone Nat A := ⟨values A⟩; .pure a
  | _, .fmap p f => (contTOf values p).fmap fun a => ret (f a)
  | _, .bind p f => (contTOf values p).bind fun a => ret (contTOf values (f a))
  | _, .apply p q => (contTOf values p).apply ((contTOf values q).fmap fun f => ret fun a => ret (f a))
  | _, @KJob.callCC A _ p g after => letI : RClone Nat A := ⟨values A⟩
    .callCC fun escape => ret (((contTOf values p).bind fun c => ret (match g c with
      | .ok a => .new fun k => k a
      | .error a => escape a)).bind fun a => ret (contTOf values (after a)))

/-- The same with the methods of `Cont`. -/
def contOf (values : (A : Type) → A → Act Nat A) : {A : Type} → KJob A → ContC Nat R A
  | _, @KJob.pure A a => letI : RClone Nat A := ⟨values A⟩; .pure a
  | _, .fmap p f => (contOf values p).fmap fun a => ret (f a)
  | _, .bind p f => (contOf values p).bind fun a => ret (contOf values (f a))
  | _, .apply p q => (contOf values p).apply ((contOf values q).fmap fun f => ret fun a => ret (f a))
  | _, @KJob.callCC A _ p g after => letI : RClone Nat A := ⟨values A⟩
    .callCC (A := A) ⟨.new fun _ w => (.error (.str "not run"), w)⟩ fun escape => ret (((contOf values p).bind fun c => ret (match g c with
      | .ok a => ⟨.new fun k => k a⟩
      | .error a => escape a)).bind fun a => ret (contOf values (after a)))

/-- `clone` returns an equal value and counts as one. -/
def ContCounting (values : (A : Type) → A → Act Nat A) : Prop := ∀ (A : Type) (a : A), Spec.Clones (values A a) a 1

/-- C108 for `ContT`: whatever the continuation does, a run is the clones of the values that are given to `pure` or escaped with,
and then one call of the continuation. -/
theorem c108_exact {values : (A : Type) → A → Act Nat A} (hv : ContCounting values) (p : KJob A) (k : A → Act Nat M) (n : Nat) :
    (contTOf values p).run k n = k p.value (n + p.clones) := by
  induction p generalizing n with
  | pure a =>
    show (values _ a).seq k n = _
    simp only [Act.seq, hv _ a n]; rfl
  | fmap p f ih => exact ih (fun a => (ret (f a)).seq k) n
  | bind p f ihp ihf =>
    refine (ihp (fun a => (contTOf values (f a)).run k) n).trans ((ihf _ k _).trans ?_)
    simp only [KJob.value, KJob.clones, Nat.add_assoc]
  | apply p q ihp ihq =>
    refine (ihq (fun f => (contTOf values p).runCont fun a => k (f a)) n).trans ((ihp (fun a => k (q.value a)) _).trans ?_)
    simp only [KJob.value, KJob.clones, Nat.add_assoc, Nat.add_comm q.clones]
  | callCC p g after ihp iha =>
    refine (ihp (fun c => (match g c with
      | .ok a => ContTC.new fun k => k a
      | .error a => ContTC.new fun _ => (values _ a).seq k).runCont fun a => (contTOf values (after a)).runCont k) n).trans ?_
    cases hg : g p.value with
    | ok a =>
      simp only [KJob.value, KJob.clones, hg]
      exact (iha a k _).trans (by rw [Nat.add_assoc])
    | error a =>
      simp only [KJob.value, KJob.clones, hg, ContTC.new, Act.seq, hv _ a _, Nat.add_assoc]

/-- Meets the hypothesis: an escape; the `pure` after it is not reached. -/
example : (contTOf (M := Nat) (fun _ a n => (.ok a, n + 1))
    (.fmap (.callCC (.pure 1) (fun n => if n = 1 then .error 7 else .ok n) fun n => .pure (n + 1)) (· * 2))).run
      (fun a => ret a) 0 = (.ok 14, 2) := rfl

theorem cont_inner {values : (A : Type) → A → Act Nat A} (hv : ContCounting values) (p : KJob A) (k : A → Act Nat (RId R))
    (n : Nat) : (contOf values p).inner.runCont k n = k p.value (n + p.clones) := by
  induction p generalizing n with
  | pure a =>
    show (values _ a).seq k n = _
    simp only [Act.seq, hv _ a n]; rfl
  | fmap p f ih => exact ih (fun a => (ret (f a)).seq k) n
  | bind p f ihp ihf =>
    refine (ihp (fun a => (contOf values (f a)).inner.runCont k) n).trans ((ihf _ k _).trans ?_)
    simp only [KJob.value, KJob.clones, Nat.add_assoc]
  | apply p q ihp ihq =>
    refine (ihq (fun f => (contOf values p).inner.runCont fun a => k (f a)) n).trans ((ihp (fun a => k (q.value a)) _).trans ?_)
    simp only [KJob.value, KJob.clones, Nat.add_assoc, Nat.add_comm q.clones]
  | callCC p g after ihp iha =>
    refine (ihp (fun c => (match g c with
      | .ok a => (⟨ContTC.new fun k => k a⟩ : ContC Nat R _)
      | .error a => ⟨ContTC.new fun _ => (values _ a).seq k⟩).inner.runCont
        fun a => (contOf values (after a)).inner.runCont k) n).trans ?_
    cases hg : g p.value with
    | ok a =>
      simp only [KJob.value, KJob.clones, hg]
      exact (iha a k _).trans (by rw [Nat.add_assoc])
    | error a =>
      simp only [KJob.value, KJob.clones, hg, ContTC.new, Act.seq, hv _ a _, Nat.add_assoc]

/-- C108 for `Cont`, which adds nothing. -/
theorem c108_cont {values : (A : Type) → A → Act Nat A} (hv : ContCounting values) (p : KJob A) (k : A → Act Nat R) (n : Nat) :
    (contOf values p).run k n = k p.value (n + p.clones) := by
  have h := cont_inner hv p (fun a => (k a).seq fun r => ret (⟨r⟩ : RId R)) n
  show ((contOf values p).inner.runCont _).seq _ n = _
  rw [Act.seq, h]
  simp only [Act.seq]
  rcases hk : k p.value (n + p.clones) with ⟨r, w⟩
  cases r <;> rfl

/-- Meets the hypothesis: `bind` and `apply`, three clones. -/
example : (contOf (R := Nat) (fun _ a n => (.ok a, n + 1))
    (.apply (.bind (.pure 1) fun n => .pure (n + 1)) (.pure (· * 5)))).run (fun a => ret a) 0 = (.ok 10, 3) := rfl

/-- C108 for `lift`: the continuation is not called, and the lifted value is cloned in every run. -/
theorem c108_lift [RClone Nat M] (hM : CountsClones M) (base : M) (k : A → Act Nat M) (n : Nat) :
    (ContTC.lift base : ContTC Nat M A).run k n = (.ok base, n + 1) := hM base n

/-- Meets the hypothesis, with a continuation that would panic. -/
example : letI : RClone Nat Nat := counting
    (ContTC.lift 3 : ContTC Nat Nat Nat).run (fun _ w => (.error (.str "called"), w)) 0 = (.ok 3, 1) := rfl

/-- A run with a continuation that gives its argument without a clone: the value, and one clone for each `pure` and each escape
that is reached. -/
theorem c108_clones {values : (A : Type) → A → Act Nat A} (hv : ContCounting values) (p : KJob A) :
    Spec.Clones ((contTOf values p).run ret) p.value p.clones ∧ Spec.Clones ((contOf values p).run ret) p.value p.clones :=
  ⟨fun n => c108_exact hv p ret n, fun n => c108_cont hv p ret n⟩

/-- Meets the hypothesis. -/
example : ContCounting fun _ a n => (.ok a, n + 1) := fun _ _ _ => rfl

/-- With a `clone` without effects the methods are those of `Trans/ContT` with `M` an action, for closures with any effects. -/
theorem c108_plain {σ : Type} [RClone σ A] (hA : PlainClone σ A) :
    (∀ (a : A) (k : A → Act σ M), (ContTC.pure a).run k = (RContT.pure a).run k) ∧
    (∀ (c : ContTC σ M A) (f : A → ContTC σ M B) (k : B → Act σ M),
      (c.bind fun a => ret (f a)).run k = ((⟨c.runCont⟩ : RContT (Act σ M) A).bind fun a => ⟨(f a).runCont⟩).run k) ∧
    (∀ (c : ContTC σ M A) (f : A → B) (k : B → Act σ M),
      (c.fmap fun a => ret (f a)).run k = ((⟨c.runCont⟩ : RContT (Act σ M) A).fmap f).run k) ∧
    (∀ (c : ContTC σ M A) (cf : ContTC σ M (A → Act σ B)) (k : B → Act σ M), (c.apply cf).run k =
      ((⟨c.runCont⟩ : RContT (Act σ M) A).apply (B := Act σ B) ⟨fun k => cf.runCont k⟩).run fun b => b.seq k) ∧
    (∀ (f : (A → ContTC σ M B) → ContTC σ M A) (k : A → Act σ M), (ContTC.callCC fun e => ret (f e)).run k =
      (RContT.callCC fun (e : A → RContT (Act σ M) B) => ⟨(f fun a => ⟨(e a).runCont⟩).runCont⟩).run k) := by
  refine ⟨fun a k => ?_, fun c f k => rfl, fun c f k => rfl, fun c cf k => rfl, fun f k => ?_⟩
  · show (clone a).seq k = k a
    rw [hA a, Act.ret_seq]
  · show (f fun a => ContTC.new fun _ => (clone a).seq k).runCont k = (f fun a => ⟨fun _ => k a⟩).runCont k
    have : (fun a => (ContTC.new fun _ => (clone a).seq k : ContTC σ M B)) = fun a => ⟨fun _ => k a⟩ := by
      funext a
      rw [hA a, Act.ret_seq]; rfl
    rw [this]

/-- Meets the hypothesis. -/
example : letI : RClone Nat Nat := ⟨ret⟩
    PlainClone Nat Nat ∧ (ContTC.pure 1 : ContTC Nat Nat Nat).run (fun a => ret (a + 1)) 5 = (.ok 2, 5) := ⟨fun _ => rfl, rfl⟩

end Clones
end Rustica
