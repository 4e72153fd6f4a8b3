import Verif.Spec.StateTClones
import Verif.Trans.StateTClones
import Verif.Trans.StateT
import Verif.Theorems.CloneRest

/-!
# C109: how often the states and values of a `StateT` are cloned
-/

namespace Rustica
open Act (ret)
open Spec

namespace Clones
variable {S A : Type}

/-- `Option::map` with an effectful function. -/
def optMap {B C : Type} (m : Option B) (f : B → Act Nat C) : Act Nat (Option C) :=
  match m with
  | some b => (f b).seq fun c => ret (some c)
  | none => ret none
/-- `Option::and_then`. -/
def optThen {B C : Type} (m : Option B) (f : B → Act Nat (Option C)) : Act Nat (Option C) :=
  match m with
  | some b => f b
  | none => ret none
/-- `Option::zip`, and then a function. -/
def optZip {B C D : Type} (m : Option B) (n : Option C) (f : B → C → Act Nat D) : Act Nat (Option D) :=
  match m, n with
  | some b, some c => (f b c).seq fun d => ret (some d)
  | _, _ => ret none

/-- A program put together with the methods of `StateT` over `Option<(S, A)>`.  `get`, `put` and `modify` have their own types of
values; `new` with `run_state` gives them the type `A`. -/
def stateTOf [RClone Nat S] [RClone Nat A] : TJob S A → Act Nat (StateTC Nat S (Option (S × A)) A)
  | .pure a => ret (.pure a fun r => ret (some r))
  | .get g => ret (.new fun s => (StateTC.get fun r => ret (some (r.1, g r.2))).runState s)
  | .put s' g => ret (.new fun s => (StateTC.put s' fun r => ret (some (r.1, g r.2))).runState s)
  | .modify f a => ret (.new fun s => (StateTC.modify (fun s => ret (f s)) fun r => ret (some (r.1, a))).runState s)
  | .fail => ret (.new fun _ => ret none)
  | .lift m => ret (.lift m)
  | .fmap p f => (stateTOf p).seq fun x => x.fmapWith (fun a => ret (f a)) optMap
  | .bind p f => (stateTOf p).seq fun x => x.bindWith (fun a => stateTOf (f a)) optThen
  | .combine p q f => (stateTOf p).seq fun x => (stateTOf q).seq fun y => x.combineWith y (fun a b => ret (f a b)) optZip
  | .apply p q f => (stateTOf p).seq fun x => (stateTOf q).seq fun y =>
      ret (.applyEffects x.runState y.runState fun m n => optZip m n fun r t => ret (t.1, f r.2 t.2))

theorem stateT_made [RClone Nat S] [RClone Nat A] (hS : CountsClones S) (hA : CountsClones A) (p : TJob S A) :
    ∃ run, Spec.Clones (stateTOf p) (.Effect run) 0 ∧ ∀ s, Spec.Clones (run s) (p.value s) (p.clones s) := by
  induction p with
  | pure a => exact ⟨_, Clones.ret' _, fun s => Clones.seq' (hA a) (Clones.ret' _) rfl⟩
  | get g => exact ⟨_, Clones.ret' _, fun s => Clones.seq' (hS s) (Clones.ret' _) rfl⟩
  | put s' g => exact ⟨_, Clones.ret' _, fun s => Clones.seq' (hS s') (Clones.ret' _) rfl⟩
  | modify f a => exact ⟨_, Clones.ret' _, fun s => Clones.ret' _⟩
  | fail => exact ⟨_, Clones.ret' _, fun s => Clones.ret' _⟩
  | lift m =>
    refine ⟨_, Clones.ret' _, fun s => ?_⟩
    cases m with
    | none => exact Clones.ret' _
    | some r => exact Clones.seq' (Clones.seq' (hS r.1) (Clones.seq' (hA r.2) (Clones.ret' _) rfl) rfl) (Clones.ret' _) rfl
  | fmap p f ih =>
    obtain ⟨run, h1, h2⟩ := ih
    refine ⟨_, Clones.seq' h1 (Clones.ret' _) rfl, fun s => Clones.seq' (h2 s) (k := 0) ?_ rfl⟩
    simp only [TJob.value]
    cases p.value s <;> exact Clones.ret' _
  | bind p f ihp ihf =>
    obtain ⟨run, h1, h2⟩ := ihp
    refine ⟨_, Clones.seq' h1 (Clones.ret' _) rfl, fun s => Clones.seq' (h2 s)
      (k := match p.value s with | some r => (f r.2).clones r.1 | none => 0) ?_ (by rw [TJob.clones]; cases p.value s <;> rfl)⟩
    simp only [TJob.value]
    cases p.value s with
    | none => exact Clones.ret' _
    | some r =>
      obtain ⟨next, n1, n2⟩ := ihf r.2
      exact Clones.seq' n1 (n2 r.1) (by simp)
  | combine p q f ihp ihq =>
    obtain ⟨run, h1, h2⟩ := ihp
    obtain ⟨run', n1, n2⟩ := ihq
    refine ⟨_, Clones.seq' h1 (Clones.seq' n1 (Clones.ret' _) rfl) rfl, fun s => Clones.seq' (hS s) (Clones.seq' (h2 s)
      (Clones.seq' (n2 s) (k := 0) ?_ rfl) rfl) (by simp only [TJob.clones]; omega)⟩
    simp only [TJob.value]
    cases p.value s <;> cases q.value s <;> exact Clones.ret' _
  | apply p q f ihp ihq =>
    obtain ⟨run, h1, h2⟩ := ihp
    obtain ⟨run', n1, n2⟩ := ihq
    refine ⟨_, Clones.seq' h1 (Clones.seq' n1 (Clones.ret' _) rfl) rfl, fun s => Clones.seq' (hS s) (Clones.seq' (h2 s)
      (Clones.seq' (n2 s) (k := 0) ?_ rfl) rfl) (by simp only [TJob.clones]; omega)⟩
    simp only [TJob.value]
    cases p.value s <;> cases q.value s <;> exact Clones.ret' _

/-- C109, exactly: putting a program together clones nothing, and each run from any state clones what `TJob.clones` counts. -/
theorem c109_exact [RClone Nat S] [RClone Nat A] (hS : CountsClones S) (hA : CountsClones A) (p : TJob S A) :
    ∃ x, Spec.Clones (stateTOf p) x 0 ∧ ∀ s, Spec.Clones (x.runState s) (p.value s) (p.clones s) := by
  obtain ⟨run, h1, h2⟩ := stateT_made hS hA p
  exact ⟨_, h1, h2⟩

/-- Meets the hypotheses: the second `get` starts from the state that `put` left; `combine` clones the state once more. -/
example : letI : RClone Nat Nat := counting
    ((stateTOf (.combine (.bind (.put 7 id) fun a => .get (a + ·)) (.fmap (.pure 1) (· + 1)) (· * ·)) :
      Act Nat (StateTC Nat Nat (Option (Nat × Nat)) Nat)).seq fun x => x.runState 3) 0 = (.ok (some (3, 20)), 4) := rfl

/-- C109, the usual program: `bind_with` itself clones nothing, so a chain clones what its parts clone. -/
theorem c109_chain [RClone Nat S] [RClone Nat A] (hS : CountsClones S) (hA : CountsClones A) (f : S → S) (a : A) (n : Nat)
    (s : S) :
    Spec.Clones ((stateTOf (.times (.modify f a) (fun _ => .modify f a) n)).seq fun x => x.runState s)
      ((TJob.times (.modify f a) (fun _ => .modify f a) n).value s) 0 := by
  obtain ⟨x, h1, h2⟩ := c109_exact hS hA (.times (.modify f a) (fun _ => .modify f a) n)
  have h := Clones.seq' h1 (f := fun x => x.runState s) (h2 s) rfl
  have hc : ∀ n, (TJob.times (.modify f a) (fun _ => .modify f a) n).clones s = 0 := by
    intro n
    induction n with
    | zero => rfl
    | succ n ih =>
      simp only [TJob.times, TJob.clones, ih, Nat.zero_add]
      cases (TJob.times (.modify f a) (fun _ => .modify f a) n).value s <;> rfl
  rwa [hc n] at h

/-- Meets the hypotheses. -/
example : letI : RClone Nat Nat := counting
    ((stateTOf (.times (.modify (· * 2) 9) (fun _ => .modify (· * 2) 9) 3) :
      Act Nat (StateTC Nat Nat (Option (Nat × Nat)) Nat)).seq fun x => x.runState 1) 0 = (.ok (some (16, 9)), 0) := rfl

/-- C109 for what is lifted with the variant `LiftM`: `run_state` clones it; `bind_with` clones it once when it is called, and
again in every run. -/
theorem c109_lifted [RClone Nat S] [RClone Nat A] (hS : CountsClones S) (hA : CountsClones A) (s' : S) (a : A) (f : A → TJob S A)
    (s : S) :
    Spec.Clones ((StateTC.LiftM (some (s', a)) : StateTC Nat S (Option (S × A)) A).runState s) (some (s', a)) 2 ∧
    ∃ run, Spec.Clones ((StateTC.LiftM (some (s', a)) : StateTC Nat S (Option (S × A)) A).bindWith
        (fun a => stateTOf (f a)) optThen) (.Effect run) 2 ∧
      Spec.Clones (run s) ((f a).value s') ((f a).clones s' + 2) := by
  have hc : Spec.Clones (clone (some (s', a)) : Act Nat (Option (S × A))) (some (s', a)) 2 :=
    Clones.seq' (Clones.seq' (hS s') (Clones.seq' (hA a) (Clones.ret' _) rfl) rfl) (Clones.ret' _) rfl
  obtain ⟨next, n1, n2⟩ := stateT_made hS hA (f a)
  exact ⟨hc, _, Clones.seq' hc (Clones.ret' _) rfl, Clones.seq' hc (Clones.seq' n1 (n2 s') rfl) (by omega)⟩

/-- Meets the hypotheses. -/
example : letI : RClone Nat Nat := counting
    (((StateTC.LiftM (some (1, 2)) : StateTC Nat Nat (Option (Nat × Nat)) Nat).bindWith
      (fun a => stateTOf (.get (a + ·))) optThen).seq fun x => x.runState 50) 0 = (.ok (some (1, 3)), 5) := rfl

/-- C109 for the variants `Pure` and `LiftM`: `fmap_with`, `combine_with` and `join` clone what they are called on, at once, and
two different variants cannot be combined; `join` on an effect clones nothing. -/
theorem c109_variants [RClone Nat S] [RClone Nat A] (hS : CountsClones S) (hA : CountsClones A) (r t : S × A) (a b : A)
    (f : A → A) (g : A → A → A) (h : Option (S × A) → Option (S × A)) (run : S → Act Nat (Option (S × A))) :
    let lifted : S × A → StateTC Nat S (Option (S × A)) A := fun r => .LiftM (some r)
    let pure : A → StateTC Nat S (Option (S × A)) A := .Pure
    Spec.Clones ((pure a).fmapWith (fun a => ret (f a)) optMap) (.Pure (f a)) 1 ∧
    Spec.Clones ((lifted r).fmapWith (fun a => ret (f a)) optMap) (lifted (r.1, f r.2)) 2 ∧
    Spec.Clones ((pure a).bindWith (fun a => ret (pure (f a))) optThen) (.Pure (f a)) 1 ∧
    Spec.Clones ((pure a).combineWith (pure b) (fun a b => ret (g a b)) optZip) (.Pure (g a b)) 2 ∧
    Spec.Clones ((lifted r).combineWith (lifted t) (fun a b => ret (g a b)) optZip) (lifted (r.1, g r.2 t.2)) 4 ∧
    (∀ w, ((lifted r).combineWith (pure a) (fun a b => ret (g a b)) optZip) w =
      (.error (.str "Cannot combine StateT variants of different types"), w)) ∧
    Spec.Clones ((pure a).join fun m => ret (h m)) (.Pure a : StateTC Nat S (Option (S × A)) A) 1 ∧
    Spec.Clones ((lifted r).join fun m => ret (h m)) (.LiftM (h (some r))) 2 ∧
    Spec.Clones ((.Effect run : StateTC Nat S (Option (S × A)) A).join fun m => ret (h m))
      (.Effect fun s => (run s).seq fun m => ret (h m)) 0 := by
  have hc : ∀ r : S × A, Spec.Clones (clone (some r) : Act Nat (Option (S × A))) (some r) 2 := fun r =>
    Clones.seq' (Clones.seq' (hS r.1) (Clones.seq' (hA r.2) (Clones.ret' _) rfl) rfl) (Clones.ret' _) rfl
  exact ⟨Clones.seq' (hA a) (Clones.ret' _) rfl, Clones.seq' (hc r) (Clones.ret' _) rfl, Clones.seq' (hA a) (Clones.ret' _) rfl,
    Clones.seq' (hA a) (Clones.seq' (hA b) (Clones.ret' _) rfl) rfl,
    Clones.seq' (hc r) (Clones.seq' (hc t) (Clones.ret' _) rfl) rfl, fun _ => rfl, Clones.seq' (hA a) (Clones.ret' _) rfl,
    Clones.seq' (hc r) (Clones.ret' _) rfl, Clones.ret' _⟩

/-- Meets the hypotheses: the state of the first is kept, four clones. -/
example : letI : RClone Nat Nat := counting
    (StateTC.LiftM (some (1, 2)) : StateTC Nat Nat (Option (Nat × Nat)) Nat).combineWith
      (.LiftM (some (3, 4)) : StateTC Nat Nat (Option (Nat × Nat)) Nat) (fun a b => ret (a + b)) optZip 0 =
      (.ok (.LiftM (some (1, 6))), 4) := rfl

/-- The same program with the methods of `Trans/StateT`. -/
def rStateTOf : TJob S A → Option (RStateT S (Option (S × A)) A)
  | .pure a => some (.pure a some)
  | .get g => some (.new fun s => (RStateT.get fun r => some (r.1, g r.2)).runState s)
  | .put s' g => some (.new fun s => (RStateT.put s' fun r => some (r.1, g r.2)).runState s)
  | .modify f a => some (.new fun s => (RStateT.modify f fun r => some (r.1, a)).runState s)
  | .fail => some (.new fun _ => some none)
  | .lift m => some (.lift m)
  | .fmap p f => (rStateTOf p).map fun x => x.fmapWith f fun m g => m.map g
  | .bind p f => (rStateTOf p).map fun x => x.bindWith (fun a => (rStateTOf (f a)).getD (.Pure a)) fun m g => match m with
    | some r => g r
    | none => some none
  | .combine p q f => (rStateTOf p).bind fun x => (rStateTOf q).bind fun y => x.combineWith y f fun m n g => match m, n with
    | some r, some t => some (g r t)
    | _, _ => none
  | .apply p q f => (rStateTOf p).bind fun x => (rStateTOf q).map fun y => x.apply y fun m n => match m, n with
    | some r, some t => some (t.1, f r.2 t.2)
    | _, _ => none

/-- The methods of `Trans/StateT`, put together in the same way, give the same. -/
theorem c109_plain (p : TJob S A) : ∃ run, rStateTOf p = some (.Effect run) ∧ ∀ s, run s = some (p.value s) := by
  induction p with
  | pure a => exact ⟨_, rfl, fun s => rfl⟩
  | get g => exact ⟨_, rfl, fun s => rfl⟩
  | put s' g => exact ⟨_, rfl, fun s => rfl⟩
  | modify f a => exact ⟨_, rfl, fun s => rfl⟩
  | fail => exact ⟨_, rfl, fun s => rfl⟩
  | lift m => exact ⟨_, rfl, fun s => rfl⟩
  | fmap p f ih =>
    obtain ⟨run, h1, h2⟩ := ih
    refine ⟨_, by simp only [rStateTOf, h1, Option.map_some, RStateT.fmapWith]; rfl, fun s => ?_⟩
    simp only [h2 s, Option.map_some, TJob.value]
  | bind p f ihp ihf =>
    obtain ⟨run, h1, h2⟩ := ihp
    refine ⟨_, by simp only [rStateTOf, h1, Option.map_some, RStateT.bindWith]; rfl, fun s => ?_⟩
    simp only [h2 s, Option.bind_some, TJob.value]
    cases p.value s with
    | none => rfl
    | some r =>
      obtain ⟨next, n1, n2⟩ := ihf r.2
      simp only [n1, Option.getD_some, RStateT.runState, n2]
  | combine p q f ihp ihq =>
    obtain ⟨run, h1, h2⟩ := ihp
    obtain ⟨run', n1, n2⟩ := ihq
    refine ⟨_, by simp only [rStateTOf, h1, n1, Option.bind_some, RStateT.combineWith]; rfl, fun s => ?_⟩
    simp only [h2 s, n2 s, TJob.value]
    cases p.value s <;> cases q.value s <;> rfl
  | apply p q f ihp ihq =>
    obtain ⟨run, h1, h2⟩ := ihp
    obtain ⟨run', n1, n2⟩ := ihq
    refine ⟨_, by simp only [rStateTOf, h1, n1, Option.bind_some, Option.map_some, RStateT.apply]; rfl, fun s => ?_⟩
    simp only [RStateT.runState, h2 s, n2 s, TJob.value]
    cases p.value s <;> cases q.value s <;> rfl

end Clones
end Rustica
