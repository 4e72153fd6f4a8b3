import Verif.Effect.IO

/-!
# C42, C43 (and the `IO` parts of C23, C25, C24)
-/

namespace Rustica
open RIO

/-! ## IO expressions and their meaning -/

/-- An expression that builds an `IO` out of the combinators. -/
inductive IOExp (σ : Type) : Type → Type 1
  | pure {A : Type} (a : A) : IOExp σ A
  | new {A : Type} (f : Act σ A) : IOExp σ A
  | fmap {A B : Type} (e : IOExp σ A) (f : A → Act σ B) : IOExp σ B
  | bind {A B : Type} (e : IOExp σ A) (f : A → IOExp σ B) : IOExp σ B
  | apply {A B : Type} (e : IOExp σ A) (mf : IOExp σ (A → Act σ B)) : IOExp σ B
  | combine {A B : Type} (e1 : IOExp σ A) (e2 : IOExp σ B) : IOExp σ (A × B)
  | sequence {A : Type} (n : Nat) (es : Fin n → IOExp σ A) : IOExp σ (List A)
  | recover {A : Type} (e : IOExp σ A) (h : ComposableError IOError → IOExp σ A) : IOExp σ A
  | recoverWith {A : Type} (e : IOExp σ A) (d : A) : IOExp σ A
  | when {A : Type} (p : Act σ Bool) (c d : Act σ A) : IOExp σ A

variable {σ : Type}

/-- Evaluate the parts of a list of expressions in order. -/
def inOrder {A : Type} : (n : Nat) → (Fin n → Act σ A) → Act σ (List A)
  | 0, _ => Act.ret []
  | n + 1, ms => (ms 0).seq fun a => (inOrder n fun i => ms i.succ).seq fun as => Act.ret (a :: as)

/-- Specification of error capture: the error that a panic with payload `p` becomes. -/
def ioError (p : Panic) : ComposableError IOError :=
  ⟨.Other (match p with
    | .str s => s
    | .string s => s
    | .other => "IO operation panicked with unknown error"), [], none⟩

/-- What the code that builds the expression does, and the `IO` it builds (arguments before the call, as in
Rust). -/
def IOExp.build : {A : Type} → IOExp σ A → Act σ (RIO σ A)
  | _, .pure a => Act.ret (RIO.pure a)
  | _, .new f => Act.ret (RIO.new f)
  | _, .fmap e f => e.build.seq fun io => io.fmap f
  | _, .bind e f => e.build.seq fun io => io.bind fun a => (f a).build
  | _, .apply e mf => e.build.seq fun io => mf.build.seq fun mio => io.apply mio
  | _, .combine e1 e2 => e1.build.seq fun a => e2.build.seq fun b => Act.ret (RIO.combine a b)
  | _, .sequence n es => (inOrder n fun i => (es i).build).seq fun l => Act.ret (RIO.sequence l)
  | _, .recover e h => e.build.seq fun io => Act.ret (io.recover fun err => (h err).build)
  | _, .recoverWith e d => e.build.seq fun io => Act.ret (io.recoverWith d)
  | _, .when p c d => Act.ret (RIO.when p c d)

/-- Specification: the program the expression describes, every effect once, in program order (the function
computation of `apply` before the argument). -/
def IOExp.spec : {A : Type} → IOExp σ A → Act σ A
  | _, .pure a => Act.ret a
  | _, .new f => f
  | _, .fmap e f => e.spec.seq f
  | _, .bind e f => e.spec.seq fun a => (f a).spec
  | _, .apply e mf => mf.spec.seq fun f => e.spec.seq f
  | _, .combine e1 e2 => e1.spec.seq fun a => e2.spec.seq fun b => Act.ret (a, b)
  | _, .sequence n es => inOrder n fun i => (es i).spec
  | _, .recover e h => fun w =>
      match e.spec w with
      | (.ok a, w') => (.ok a, w')
      | (.error p, w') => (h (ioError p)).spec w'
  | _, .recoverWith e d => fun w =>
      match e.spec w with
      | (.ok a, w') => (.ok a, w')
      | (.error _, w') => (.ok d, w')
  | _, .when p c d => p.seq fun b => if b then c else d

/-- The expression is syntactically an effect: it does not end in `pure` through `fmap`, `bind` or `apply`. -/
def IOExp.effectful : {A : Type} → IOExp σ A → Bool
  | _, .pure _ => false
  | _, .new _ => true
  | _, .fmap e _ => e.effectful
  | _, .bind e _ => e.effectful
  | _, .apply e mf => e.effectful || mf.effectful
  | _, .combine _ _ => true
  | _, .sequence _ _ => true
  | _, .recover _ _ => true
  | _, .recoverWith _ _ => true
  | _, .when _ _ _ => true

mutual
/-- The parts that `fmap`, `bind` and `apply` act on are effects (continuations must run in order only). -/
inductive IOLazy : {A : Type} → IOExp σ A → Prop
  | pure {A : Type} (a : A) : IOLazy (.pure a)
  | new {A : Type} (f : Act σ A) : IOLazy (.new f)
  | fmap {A B : Type} {e : IOExp σ A} (f : A → Act σ B) : IOLazy e → e.effectful = true → IOLazy (.fmap e f)
  | bind {A B : Type} {e : IOExp σ A} {f : A → IOExp σ B} : IOLazy e → e.effectful = true →
      (∀ a, IOOrd (f a)) → IOLazy (.bind e f)
  | apply {A B : Type} {e : IOExp σ A} {mf : IOExp σ (A → Act σ B)} : IOLazy e → IOLazy mf →
      (e.effectful || mf.effectful) = true → IOLazy (.apply e mf)
  | combine {A B : Type} {e1 : IOExp σ A} {e2 : IOExp σ B} : IOLazy e1 → IOLazy e2 → IOLazy (.combine e1 e2)
  | sequence {A : Type} {n : Nat} {es : Fin n → IOExp σ A} : (∀ i, IOLazy (es i)) → IOLazy (.sequence n es)
  | recover {A : Type} {e : IOExp σ A} {h : ComposableError IOError → IOExp σ A} : IOLazy e →
      (∀ x, IOOrd (h x)) → IOLazy (.recover e h)
  | recoverWith {A : Type} {e : IOExp σ A} (d : A) : IOLazy e → IOLazy (.recoverWith e d)
  | when {A : Type} (p : Act σ Bool) (c d : Act σ A) : IOLazy (.when p c d)
/-- Expressions that build and run in program order: lazy ones, and `fmap`/`bind` on anything of this class (also
on `pure`, where the closure runs while building). -/
inductive IOOrd : {A : Type} → IOExp σ A → Prop
  | lazy {A : Type} {e : IOExp σ A} : IOLazy e → IOOrd e
  | fmap {A B : Type} {e : IOExp σ A} (f : A → Act σ B) : IOOrd e → IOOrd (.fmap e f)
  | bind {A B : Type} {e : IOExp σ A} {f : A → IOExp σ B} : IOOrd e → (∀ a, IOOrd (f a)) → IOOrd (.bind e f)
end

/-! ## Lemmas -/

section
variable {A B C : Type}

theorem RIO.fmap_run (io : RIO σ A) (f : A → Act σ B) : (io.fmap f).seq run = io.run.seq f := by
  cases io with
  | Pure a =>
    show ((f a).seq fun b => Act.ret (.Pure b)).seq run = f a
    rw [Act.seq_assoc]
    exact Act.seq_ret _
  | Effect e => rfl

theorem RIO.bind_run (io : RIO σ A) (f : A → Act σ (RIO σ B)) :
    (io.bind f).seq run = io.run.seq fun a => (f a).seq run := by
  cases io <;> rfl

theorem RIO.recover_run (io : RIO σ A) (h : ComposableError IOError → Act σ (RIO σ A)) (w : σ) :
    (io.recover h).run w = match io.run w with
      | (.ok a, w') => (.ok a, w')
      | (.error p, w') => (h (ioError p)).seq run w' := by
  show (io.tryGetComposable.seq _) w = _
  simp only [tryGetComposable, Act.seq, Act.catchUnwind]
  rcases io.run w with ⟨r, w'⟩
  cases r with
  | ok a => rfl
  | error p => cases p <;> rfl

theorem RIO.recoverWith_run (io : RIO σ A) (d : A) (w : σ) :
    (io.recoverWith d).run w = match io.run w with
      | (.ok a, w') => (.ok a, w')
      | (.error _, w') => (.ok d, w') := by
  show (io.tryGetComposable.seq _) w = _
  simp only [tryGetComposable, Act.seq, Act.catchUnwind]
  rcases io.run w with ⟨r, w'⟩
  cases r with
  | ok a => rfl
  | error p => cases p <;> rfl

/-- Building is quiet and the value built runs as specified. -/
def Quiet (e : IOExp σ A) : Prop :=
  ∃ io : RIO σ A, e.build = Act.ret io ∧ io.run = e.spec ∧ (e.effectful = true → io.isEffect = true)

theorem inOrder_congr : ∀ (n : Nat) (f g : Fin n → Act σ A), (∀ i, f i = g i) → inOrder n f = inOrder n g := by
  intro n f g h
  have : f = g := funext h
  rw [this]

theorem inOrder_ret : ∀ (n : Nat) (x : Fin n → A),
    inOrder n (fun i => (Act.ret (x i) : Act σ A)) = Act.ret (List.ofFn x) := by
  intro n
  induction n with
  | zero => intro x; simp [inOrder]
  | succ n ih =>
    intro x
    rw [inOrder, Act.ret_seq, ih fun i => x i.succ, Act.ret_seq, List.ofFn_succ]

theorem runAll_ofFn : ∀ (n : Nat) (x : Fin n → RIO σ A), runAll (List.ofFn x) = inOrder n fun i => (x i).run := by
  intro n
  induction n with
  | zero => intro x; simp [inOrder, runAll]
  | succ n ih =>
    intro x
    rw [List.ofFn_succ, runAll, ih]
    rfl

theorem quiet_sequence (n : Nat) (es : Fin n → IOExp σ A) (h : ∀ i, Quiet (es i)) : Quiet (.sequence n es) := by
  have h' : ∃ io : Fin n → RIO σ A, ∀ i, (es i).build = Act.ret (io i) ∧ (io i).run = (es i).spec :=
    ⟨fun i => (h i).choose, fun i => ⟨(h i).choose_spec.1, (h i).choose_spec.2.1⟩⟩
  obtain ⟨io, hio⟩ := h'
  refine ⟨RIO.sequence (List.ofFn io), ?_, ?_, fun _ => rfl⟩
  · rw [IOExp.build, inOrder_congr n _ _ fun i => (hio i).1, inOrder_ret]
    rfl
  · show runAll (List.ofFn io) = _
    rw [runAll_ofFn, inOrder_congr n _ _ fun i => (hio i).2]
    rfl

theorem quiet_apply {e : IOExp σ A} {mf : IOExp σ (A → Act σ B)} (he : Quiet e) (hm : Quiet mf)
    (h : (e.effectful || mf.effectful) = true) : Quiet (.apply e mf) := by
  obtain ⟨io, hb, hr, hf⟩ := he
  obtain ⟨mio, hb', hr', hf'⟩ := hm
  have hbuild : (IOExp.apply e mf).build = io.apply mio := by
    rw [IOExp.build, hb, Act.ret_seq, hb', Act.ret_seq]
  cases io with
  | Pure v =>
    cases mio with
    | Pure f =>
      rw [Bool.or_eq_true] at h
      rcases h with h | h
      · exact absurd (hf h) (by simp [isEffect])
      · exact absurd (hf' h) (by simp [isEffect])
    | Effect m =>
      refine ⟨.Effect (m.seq fun f => f v), hbuild, ?_, fun _ => rfl⟩
      rw [IOExp.spec, ← hr, ← hr']
      rfl
  | Effect m =>
    cases mio with
    | Pure f =>
      refine ⟨.Effect (m.seq f), hbuild, ?_, fun _ => rfl⟩
      rw [IOExp.spec, ← hr, ← hr']
      rfl
    | Effect m' =>
      refine ⟨.Effect (m'.seq fun f => m.seq f), hbuild, ?_, fun _ => rfl⟩
      rw [IOExp.spec, ← hr, ← hr']
      rfl

end

/-- Building and running once is the specified program. -/
def Ordered {A : Type} (e : IOExp σ A) : Prop := e.build.seq run = e.spec

theorem Quiet.ordered {A : Type} {e : IOExp σ A} (h : Quiet e) : Ordered e := by
  obtain ⟨io, hb, hr, _⟩ := h
  rw [Ordered, hb, Act.ret_seq, hr]

mutual
theorem quiet_of_lazy : {A : Type} → {e : IOExp σ A} → IOLazy e → Quiet e
  | _, _, .pure a => ⟨RIO.pure a, rfl, rfl, fun h => by cases h⟩
  | _, _, .new f => ⟨RIO.new f, rfl, rfl, fun _ => rfl⟩
  | _, _, .fmap f he heff => by
    obtain ⟨io, hb, hr, hf⟩ := quiet_of_lazy he
    cases io with
    | Pure a => exact absurd (hf heff) (by simp [isEffect])
    | Effect m =>
      refine ⟨.Effect (m.seq f), ?_, ?_, fun _ => rfl⟩
      · rw [IOExp.build, hb]; rfl
      · rw [IOExp.spec, ← hr]; rfl
  | _, _, .bind (f := f) he heff hk => by
    obtain ⟨io, hb, hr, hf⟩ := quiet_of_lazy he
    have hk' := fun a => ordered_of_ord (hk a)
    cases io with
    | Pure a => exact absurd (hf heff) (by simp [isEffect])
    | Effect m =>
      refine ⟨.Effect (m.seq fun a => ((f a).build).seq run), ?_, ?_, fun _ => rfl⟩
      · rw [IOExp.build, hb]; rfl
      · rw [IOExp.spec, ← hr]
        show m.seq _ = m.seq _
        exact congrArg _ (funext hk')
  | _, _, .apply he hm h => quiet_apply (quiet_of_lazy he) (quiet_of_lazy hm) h
  | _, _, .combine h1 h2 => by
    obtain ⟨io, hb, hr, _⟩ := quiet_of_lazy h1
    obtain ⟨io2, hb2, hr2, _⟩ := quiet_of_lazy h2
    refine ⟨RIO.combine io io2, ?_, ?_, fun _ => rfl⟩
    · rw [IOExp.build, hb, Act.ret_seq, hb2, Act.ret_seq]
    · rw [IOExp.spec, ← hr, ← hr2]; rfl
  | _, _, .sequence h => quiet_sequence _ _ fun i => quiet_of_lazy (h i)
  | _, _, .recover (h := h) he hh => by
    obtain ⟨io, hb, hr, _⟩ := quiet_of_lazy he
    have hh' := fun x => ordered_of_ord (hh x)
    refine ⟨io.recover fun err => (h err).build, ?_, ?_, fun _ => rfl⟩
    · rw [IOExp.build, hb, Act.ret_seq]
    · funext w
      rw [RIO.recover_run, hr, IOExp.spec]
      split
      · rename_i h1; simp only [h1]
      · rename_i p w' h1
        simp only [h1]
        exact congrFun (hh' (ioError p)) w'
  | _, _, .recoverWith d he => by
    obtain ⟨io, hb, hr, _⟩ := quiet_of_lazy he
    refine ⟨io.recoverWith d, ?_, ?_, fun _ => rfl⟩
    · rw [IOExp.build, hb, Act.ret_seq]
    · funext w
      rw [RIO.recoverWith_run, hr, IOExp.spec]
  | _, _, .when p c d => ⟨RIO.when p c d, rfl, rfl, fun _ => rfl⟩
theorem ordered_of_ord : {A : Type} → {e : IOExp σ A} → IOOrd e → Ordered e
  | _, _, .lazy h => (quiet_of_lazy h).ordered
  | _, _, .fmap (e := e) f he => by
    have h := ordered_of_ord he
    show (e.build.seq fun io => io.fmap f).seq run = e.spec.seq f
    rw [Act.seq_assoc, ← h, Act.seq_assoc]
    exact congrArg _ (funext fun io => RIO.fmap_run io f)
  | _, _, .bind (e := e) (f := f) he hk => by
    have h := ordered_of_ord he
    have hk' := fun a => ordered_of_ord (hk a)
    show (e.build.seq fun io => io.bind fun a => (f a).build).seq run = e.spec.seq fun a => (f a).spec
    rw [Act.seq_assoc, ← h, Act.seq_assoc]
    refine congrArg _ (funext fun io => ?_)
    rw [RIO.bind_run]
    exact congrArg _ (funext hk')
end

/-! ## C42 -/

section
variable {A B C : Type}

/-- Running `n` times in a row. -/
def runTimes (m : Act σ A) : Nat → Act σ (List A)
  | 0 => Act.ret []
  | n + 1 => m.seq fun a => (runTimes m n).seq fun as => Act.ret (a :: as)

/-- PARTIAL (expressions in which `fmap`, `bind`, `apply` act on effects; see `c42_eager_false`): building performs
no effect, and running the built value `n` times performs the described program `n` times: every effect once per
run, in program order. -/
theorem c42_lazy_partial (e : IOExp σ A) (h : IOLazy e) :
    ∃ io : RIO σ A, (∀ w, e.build w = (.ok io, w)) ∧ (∀ w, io.run w = e.spec w) ∧
      ∀ n w, runTimes io.run n w = runTimes e.spec n w := by
  obtain ⟨io, hb, hr, _⟩ := quiet_of_lazy h
  refine ⟨io, fun w => by rw [hb]; rfl, fun w => by rw [hr], fun n w => by rw [hr]⟩

/-- PARTIAL: building and running once performs the described program in order also when `fmap` and `bind` act on
`pure` values. -/
theorem c42_order_partial (e : IOExp σ A) (h : IOOrd e) (w : σ) : (e.build.seq run) w = e.spec w := by
  rw [ordered_of_ord h]

/-- An expression with two effects: built without running them, and run in order. -/
example : ∃ io : RIO (List Nat) Nat, (∀ w, (IOExp.bind (.new fun w : List Nat => (.ok 1, w ++ [1])) fun n =>
      .fmap (.pure n) fun m w => (.ok m, w ++ [2])).build w = (.ok io, w)) ∧ (io.run []) = (.ok 1, [1, 2]) := by
  obtain ⟨io, h1, h2, _⟩ := c42_lazy_partial (IOExp.bind (.new fun w : List Nat => (.ok 1, w ++ [1])) fun n =>
      .fmap (.pure n) fun m w => (.ok m, w ++ [2])) (.bind (.new _) rfl fun _ => .fmap _ (.lazy (.pure _)))
  exact ⟨io, h1, (h2 []).trans rfl⟩

/-- The claim is false for closures mapped over `IO::pure`: building `pure(1).fmap(f)` performs the effect of `f`
and running performs none. -/
theorem c42_eager_false :
    let tick : Nat → Act (List String) Nat := fun n w => (.ok (n + 1), w ++ ["effect"])
    ∃ io, (IOExp.fmap (.pure 1) tick).build [] = (.ok io, ["effect"]) ∧
      ∀ w, io.run w = (.ok 2, w) := ⟨.Pure 2, rfl, fun _ => rfl⟩

/-- … so that effects can be out of program order: in `combine(new a, pure(1).fmap(b))` effect `b` comes first. -/
theorem c42_order_false :
    let e : IOExp (List String) (Nat × Nat) := .combine (.new fun w => (.ok 0, w ++ ["a"]))
      (.fmap (.pure 1) fun n w => (.ok n, w ++ ["b"]))
    (e.build.seq run) [] = (.ok (0, 1), ["b", "a"]) ∧ e.spec [] = (.ok (0, 1), ["a", "b"]) := ⟨rfl, rfl⟩

/-- A lazy expression with two effects, and its trace for two runs. -/
example : IOLazy (.bind (.new fun w : List Nat => (.ok 1, w ++ [1])) fun n => .fmap (.pure n) fun m w => (.ok m, w ++ [2])) :=
  .bind (.new _) rfl fun _ => .fmap _ (.lazy (.pure _))
example : runTimes (IOExp.bind (.new fun w : List Nat => (.ok 1, w ++ [1]))
    fun n => .fmap (.pure n) fun m w => (.ok m, w ++ [2])).spec 2 [] = (.ok [1, 1], [1, 2, 1, 2]) := rfl

/-- The `IO` combinators on built values: laziness and order of each, for every `IO` value. -/
theorem c42_combinators (io : RIO σ A) (io' : RIO σ B) (ios : List (RIO σ A)) (p : Act σ Bool) (c d : Act σ A)
    (a : A) (sl : Nat → Act σ Unit) (n : Nat) :
    (RIO.combine io io').run = (io.run.seq fun a => io'.run.seq fun b => Act.ret (a, b)) ∧
    (RIO.sequence ios).run = inOrder ios.length (fun i => (ios.get i).run) ∧
    (RIO.when p c d).run = (p.seq fun b => if b then c else d) ∧
    (RIO.pure a : RIO σ A).run = Act.ret a ∧ (RIO.new c).run = c ∧
    (RIO.delaySync sl n a).run = ((sl n).seq fun _ => Act.ret a) := by
  refine ⟨rfl, ?_, rfl, rfl, rfl, rfl⟩
  have := runAll_ofFn ios.length (fun i => ios.get i)
  rw [show List.ofFn (fun i => ios.get i) = ios from by simp] at this
  exact this

/-- The monad laws of `IO`, as the code that builds the value (hence on outcome and effects of building and of
every run). -/
theorem c42_monad_laws (a : A) (m : RIO σ A) (f : A → Act σ (RIO σ B)) (g : B → Act σ (RIO σ C)) :
    (RIO.pure a).bind f = f a ∧
    m.bind (fun x => Act.ret (RIO.pure x)) = Act.ret m ∧
    (m.bind f).seq (fun n => n.bind g) = m.bind (fun x => (f x).seq fun n => n.bind g) := by
  refine ⟨rfl, ?_, ?_⟩
  · cases m with
    | Pure a => rfl
    | Effect e =>
      show Act.ret (RIO.Effect (e.seq fun x => Act.ret x)) = _
      rw [show (e.seq fun x => Act.ret x) = e from Act.seq_ret e]
  · cases m with
    | Pure a => rfl
    | Effect e =>
      show Act.ret (RIO.Effect ((e.seq fun a => (f a).seq run).seq fun b => (g b).seq run)) =
        Act.ret (RIO.Effect (e.seq fun a => ((f a).seq fun n => n.bind g).seq run))
      congr 2
      rw [Act.seq_assoc]
      refine congrArg _ (funext fun x => ?_)
      rw [Act.seq_assoc, Act.seq_assoc]
      exact congrArg _ (funext fun n => (RIO.bind_run n g).symm)

/-- C25 for `IO`. -/
theorem c25_io (a : A) (m : RIO σ A) (f : A → Act σ (RIO σ B)) (g : B → Act σ (RIO σ C)) :
    (RIO.pure a).bind f = f a ∧
    m.bind (fun x => Act.ret (RIO.pure x)) = Act.ret m ∧
    (m.bind f).seq (fun n => n.bind g) = m.bind (fun x => (f x).seq fun n => n.bind g) :=
  c42_monad_laws a m f g

/-- C23 for `IO`. -/
theorem c23_io (m : RIO σ A) (f : A → Act σ B) (g : B → Act σ C) :
    m.fmap Act.ret = Act.ret m ∧
    (m.fmap f).seq (fun n => n.fmap g) = m.fmap (fun x => (f x).seq g) ∧
    m.fmap f = m.bind (fun x => (f x).seq fun b => Act.ret (RIO.pure b)) := by
  refine ⟨?_, ?_, ?_⟩
  · cases m with
    | Pure a => rfl
    | Effect e =>
      show Act.ret (RIO.Effect (e.seq Act.ret)) = _
      rw [Act.seq_ret]
  · cases m with
    | Pure a =>
      show ((f a).seq fun b => Act.ret (RIO.Pure b)).seq (fun n => n.fmap g) =
        ((f a).seq g).seq fun b => Act.ret (RIO.Pure b)
      rw [Act.seq_assoc, Act.seq_assoc]
      rfl
    | Effect e =>
      show Act.ret (RIO.Effect ((e.seq f).seq g)) = Act.ret (RIO.Effect (e.seq fun x => (f x).seq g))
      rw [Act.seq_assoc]
  · cases m with
    | Pure a => rfl
    | Effect e =>
      show Act.ret (RIO.Effect (e.seq f)) =
        Act.ret (RIO.Effect (e.seq fun x => ((f x).seq fun b => Act.ret (RIO.pure b)).seq run))
      congr 3
      funext x
      rw [Act.seq_assoc]
      exact (Act.seq_ret (f x)).symm

/-- `apply` is the bind-based definition, function computation first, in all four cases (the `unreachable!` arm is
not reached). -/
theorem c42_apply (m : RIO σ A) (mf : RIO σ (A → Act σ B)) :
    m.apply mf = mf.bind fun f => m.fmap f := by
  cases m <;> cases mf
  · rfl
  · rename_i a mf
    show Act.ret (RIO.Effect _) = Act.ret (RIO.Effect _)
    congr 3
    funext f
    show f a = ((f a).seq fun b => Act.ret (.Pure b)).seq run
    rw [Act.seq_assoc]
    exact (Act.seq_ret (f a)).symm
  · rfl
  · rfl

/-! ## C43 -/

/-- `try_get` and its variants: `Ok(v)` iff the run returns `v`, `Err` with the panic message iff it panics, with the
same effects; they do not panic themselves. -/
theorem c43_try_get (io : RIO σ A) (ctx : String) (w : σ) :
    (∀ a w', io.run w = (.ok a, w') →
      io.tryGet w = (.ok (.ok a), w') ∧ io.tryGetComposable w = (.ok (.ok a), w') ∧
      io.tryGetWithContext ctx w = (.ok (.ok a), w') ∧
      io.tryGetComposableWithContext ctx w = (.ok (.ok a), w') ∧
      io.intoErrorPipeline w = (.ok ⟨.ok a, []⟩, w')) ∧
    (∀ p w', io.run w = (.error p, w') →
      io.tryGet w = (.ok (.error (ioError p)), w') ∧ io.tryGetComposable w = (.ok (.error (ioError p)), w') ∧
      io.tryGetWithContext ctx w = (.ok (.error ⟨(ioError p).coreError, [ctx], none⟩), w') ∧
      io.tryGetComposableWithContext ctx w = (.ok (.error ⟨(ioError p).coreError, [ctx], none⟩), w') ∧
      io.intoErrorPipeline w = (.ok ⟨.error (ioError p), []⟩, w')) := by
  constructor
  · intro a w' h
    refine ⟨?_, ?_, ?_, ?_, ?_⟩ <;>
      simp [tryGet, tryGetComposable, tryGetWithContext, tryGetComposableWithContext, intoErrorPipeline,
        Act.seq, Act.catchUnwind, Act.ret, h, ErrorPipeline.new]
  · intro p w' h
    refine ⟨?_, ?_, ?_, ?_, ?_⟩ <;> cases p <;>
      simp [tryGet, tryGetComposable, tryGetWithContext, tryGetComposableWithContext, intoErrorPipeline,
        Act.seq, Act.catchUnwind, Act.ret, h, ErrorPipeline.new, ComposableError.new, ioError, panicMessage,
        ComposableError.withContext, ofString, ErrorContext.new]

/-- Conversely, the kind of result of `try_get` tells what the run did. -/
theorem c43_try_get_iff (io : RIO σ A) (w : σ) :
    (∀ a, (io.tryGet w).1 = .ok (.ok a) ↔ (io.run w).1 = .ok a) ∧
    ((∃ e, (io.tryGet w).1 = .ok (.error e)) ↔ ∃ p, (io.run w).1 = .error p) ∧
    (io.tryGet w).2 = (io.run w).2 := by
  simp only [tryGet, Act.seq, Act.catchUnwind]
  rcases io.run w with ⟨r, w'⟩
  cases r with
  | ok a => simp [Act.ret]
  | error p => simp [Act.ret]

/-- `recover` and `recover_with` never change a successful run, and on a panic run the handler (with exactly the
captured error) or give the default, after the effects performed so far. -/
theorem c43_recover (io : RIO σ A) (h : ComposableError IOError → Act σ (RIO σ A)) (d : A) (w : σ) :
    (∀ a w', io.run w = (.ok a, w') →
      (io.recover h).run w = (.ok a, w') ∧ (io.recoverWith d).run w = (.ok a, w')) ∧
    (∀ p w', io.run w = (.error p, w') →
      (io.recover h).run w = ((h (ioError p)).seq run) w' ∧ (io.recoverWith d).run w = (.ok d, w')) := by
  constructor
  · intro a w' hr
    rw [RIO.recover_run, RIO.recoverWith_run, hr]
    exact ⟨rfl, rfl⟩
  · intro p w' hr
    rw [RIO.recover_run, RIO.recoverWith_run, hr]
    exact ⟨rfl, rfl⟩

/-- `recover_with` never panics. -/
theorem c43_recover_with_total (io : RIO σ A) (d : A) (w : σ) :
    ∃ a w', (io.recoverWith d).run w = (.ok a, w') := by
  rw [RIO.recoverWith_run]
  rcases io.run w with ⟨r, w'⟩
  cases r
  · exact ⟨_, _, rfl⟩
  · exact ⟨_, _, rfl⟩

/-- Specification: the outcomes of running the computations one after the other whatever happens, and the final
world. -/
def outcomes : List (RIO σ A) → σ → List (Except Panic A) × σ
  | [], w => ([], w)
  | io :: rest, w => ((io.run w).1 :: (outcomes rest (io.run w).2).1, (outcomes rest (io.run w).2).2)

/-- Specification: the values among the outcomes, in order. -/
def values : List (Except Panic A) → List A
  | [] => []
  | .ok a :: rest => a :: values rest
  | .error _ :: rest => values rest
/-- Specification: the panics among the outcomes, in order. -/
def panics : List (Except Panic A) → List Panic
  | [] => []
  | .ok _ :: rest => panics rest
  | .error p :: rest => p :: panics rest

theorem tryAll_eq (ios : List (RIO σ A)) : ∀ w, tryAll ios w =
    (.ok ((outcomes ios w).1.map fun r => match r with
      | .ok a => .ok a
      | .error p => .error (ioError p)), (outcomes ios w).2) := by
  induction ios with
  | nil => intro w; rfl
  | cons io rest ih =>
    intro w
    rw [show tryAll (io :: rest) = io.tryGetComposable.seq fun r => (tryAll rest).seq fun rs =>
      Act.ret (r :: rs) from rfl]
    have h := c43_try_get io "" w
    rcases hr : io.run w with ⟨r, w'⟩
    cases r with
    | ok a =>
      have hc := (h.1 a w' hr).2.1
      simp only [Act.seq, hc, ih, Act.ret, outcomes, hr, List.map_cons]
    | error p =>
      have hc := (h.2 p w' hr).2.1
      simp only [Act.seq, hc, ih, Act.ret, outcomes, hr, List.map_cons]

theorem errs_partition (l : List (Except Panic A)) :
    errs ((l.map fun r => match r with
      | .ok a => (.ok a : Except (ComposableError IOError) A)
      | .error p => .error (ioError p)).partition isOk).2 = (panics l).map ioError := by
  induction l with
  | nil => rfl
  | cons r l ih =>
    rw [List.partition_eq_filter_filter] at *
    cases r with
    | ok a => simpa [panics, isOk, List.filter_cons] using ih
    | error p => simpa [panics, isOk, errs, List.filter_cons] using ih

theorem oks_partition (l : List (Except Panic A)) :
    oks ((l.map fun r => match r with
      | .ok a => (.ok a : Except (ComposableError IOError) A)
      | .error p => .error (ioError p)).partition isOk).1 = values l := by
  induction l with
  | nil => rfl
  | cons r l ih =>
    rw [List.partition_eq_filter_filter] at *
    cases r with
    | ok a => simpa [values, isOk, oks, List.filter_cons] using ih
    | error p => simpa [values, isOk, List.filter_cons] using ih

theorem fails_partition (l : List (Except Panic A)) :
    ((l.map fun r => match r with
      | .ok a => (.ok a : Except (ComposableError IOError) A)
      | .error p => .error (ioError p)).partition isOk).2.isEmpty = (panics l).isEmpty := by
  induction l with
  | nil => rfl
  | cons r l ih =>
    rw [List.partition_eq_filter_filter] at *
    cases r with
    | ok a => simpa [panics, isOk, List.filter_cons] using ih
    | error p => simp [panics, isOk]

/-- `sequence_composable` runs every computation, in order, whatever fails; it returns all values in order when
nothing panicked and otherwise all the errors in order. -/
theorem c43_sequence_composable (ios : List (RIO σ A)) (w : σ) :
    sequenceComposable ios w =
      (.ok (if panics (outcomes ios w).1 = [] then .ok (values (outcomes ios w).1)
            else .error ((panics (outcomes ios w).1).map ioError)), (outcomes ios w).2) := by
  unfold sequenceComposable
  simp only [Act.seq, tryAll_eq, fails_partition, oks_partition, errs_partition]
  cases h : panics (outcomes ios w).1 with
  | nil => simp [Act.ret]
  | cons p ps => simp [Act.ret]

example : sequenceComposable [RIO.new fun w : Nat => (.ok 1, w + 1), RIO.new fun w => (.error (.str "x"), w + 10),
    RIO.new fun w => (.error .other, w + 100)] 0 =
    (.ok (.error [⟨.Other "x", [], none⟩, ⟨.Other "IO operation panicked with unknown error", [], none⟩]), 111) :=
  rfl

/-- `run_async` gives the value of `run` with the same effects, and panics iff `run` panics, with the rendered
panic of the task in its message. -/
theorem c43_run_async (dbg : Panic → String) (io : RIO σ A) (w : σ) :
    (∀ a, (io.runAsync dbg w).1 = .ok a ↔ (io.run w).1 = .ok a) ∧ (io.runAsync dbg w).2 = (io.run w).2 ∧
    (∀ p, (io.run w).1 = .error p →
      (io.runAsync dbg w).1 = .error (.string ("Failed to run blocking task: " ++ dbg p))) := by
  simp only [runAsync, Act.catchUnwind]
  rcases io.run w with ⟨r, w'⟩
  cases r <;> simp

/-- `is_pure`/`is_effect` tell the two forms apart; a pure one runs without effect. -/
theorem c43_is_pure (io : RIO σ A) :
    (io.isPure = true ↔ ∃ a, io = .Pure a) ∧ io.isEffect = !io.isPure ∧
    (io.isPure = true → ∃ a, ∀ w, io.run w = (.ok a, w)) := by
  cases io with
  | Pure a => exact ⟨by simp [isPure], rfl, fun _ => ⟨a, fun _ => rfl⟩⟩
  | Effect f => exact ⟨by simp [isPure], rfl, by simp [isPure]⟩

end

end Rustica
