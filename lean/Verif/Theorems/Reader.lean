import Verif.Trans.ReaderT
import Verif.Trans.ContT
import Verif.Trans.Ownership
import Verif.Theorems.State

/-!
# C38, C39, C40, C57 (and the `Reader`, `Cont` parts of C23, C25)
-/

namespace Rustica

section
variable {E E1 E2 A B C D M R S σ : Type} {F : Type → Type}

/-! ## C38 -/

/-- `run_reader(new(f))` is `f`. -/
theorem c38_run_new (f : E → A) (g : E → M) (e : E) :
    (Reader.new f).runReader e = f e ∧ (RReaderT.new g : RReaderT E M A).runReader e = g e := ⟨rfl, rfl⟩

/-- The monad laws of `Reader`, observed through `run_reader` (there is no inherent `pure`; the constant reader
takes its place). -/
theorem c38_reader_monad (a : A) (m : Reader E A) (f : A → Reader E B) (g : B → Reader E C) (e : E) :
    ((Reader.new fun _ => a).bind f).runReader e = (f a).runReader e ∧
    (m.bind fun x => Reader.new fun _ => x).runReader e = m.runReader e ∧
    ((m.bind f).bind g).runReader e = (m.bind fun x => (f x).bind g).runReader e := ⟨rfl, rfl, rfl⟩

/-- C25 for `Reader`. -/
theorem c25_reader (a : A) (m : Reader E A) (f : A → Reader E B) (g : B → Reader E C) (e : E) :
    ((Reader.new fun _ => a).bind f).runReader e = (f a).runReader e ∧
    (m.bind fun x => Reader.new fun _ => x).runReader e = m.runReader e ∧
    ((m.bind f).bind g).runReader e = (m.bind fun x => (f x).bind g).runReader e := ⟨rfl, rfl, rfl⟩

/-- C23 for `Reader`. -/
theorem c23_reader (m : Reader E A) (f : A → B) (g : B → C) (e : E) :
    (m.fmap fun a => a).runReader e = m.runReader e ∧
    ((m.fmap f).fmap g).runReader e = (m.fmap fun a => g (f a)).runReader e ∧
    (m.fmap f).runReader e = f (m.runReader e) := ⟨rfl, rfl, rfl⟩

/-- The environment operations of `Reader`: `ask` gives the environment, `asks` a part of it, `local` changes it
for the inner computation only, `combine` gives both sides the same environment. -/
theorem c38_reader_env (m : Reader E A) (n : Reader E B) (f g : E → E) (sel : E → A) (k : A → B → C)
    (t : A → RId A) (e : E) :
    (Reader.ask (fun e : E => e)).runReader e = e ∧ (Reader.asks sel).runReader e = sel e ∧
    (Reader.askWith sel t).runReader e = (t (sel e)).value ∧
    (m.localE f).runReader e = m.runReader (f e) ∧
    ((m.localE f).localE g).runReader e = m.runReader (f (g e)) ∧
    (m.combine n k).runReader e = k (m.runReader e) (n.runReader e) ∧
    ((m.localE f).bind fun a => n.fmap fun b => k a b).runReader e =
      k (m.runReader (f e)) (n.runReader e) := ⟨rfl, rfl, rfl, rfl, rfl, rfl, rfl⟩

/-- The monad laws of `ReaderT` over every lawful base monad. -/
theorem c38_readerT_monad [RMonad F] (hl : MonadLaws F) (a : A) (m : RReaderT E (F A) A)
    (f : A → RReaderT E (F B) B) (g : B → RReaderT E (F C) C) (e : E) :
    ((RReaderT.pure a RPure.pure : RReaderT E (F A) A).bind f).runReader e = (f a).runReader e ∧
    (m.bind fun x => RReaderT.pure x RPure.pure).runReader e = m.runReader e ∧
    ((m.bind f).bind g).runReader e = (m.bind fun x => (f x).bind g).runReader e :=
  ⟨hl.left_id _ _, hl.right_id _, hl.assoc _ _ _⟩

example : ((RReaderT.pure 3 RPure.pure : RReaderT Nat (Option Nat) Nat).bind fun a => ⟨fun e => some (a + e)⟩).runReader 4 = some 7 :=
  (c38_readerT_monad c25_option 3 ⟨fun e => some e⟩ (fun a => ⟨fun e => some (a + e)⟩) (fun a => ⟨fun e => some (a + e)⟩) 4).1

/-- The same for `bind_with` given the base monad's bind; and `bind_with`, `fmap_with`, `combine_with`,
`apply_with` given the base operations agree with `bind`, `fmap`, `combine`; `lift2` ignores the reader it is called on. -/
theorem c38_readerT_with [RMonad F] (o m n : RReaderT E (F A) A)
    (f : A → RReaderT E (F B) B) (h : A → A) (k : A → A → A) (e : E) :
    (m.bindWith f RMonad.bind).runReader e = (m.bind f).runReader e ∧
    (m.fmapWith h fun x f => RFunctor.fmap f x).runReader e = (m.fmap h).runReader e ∧
    (m.combineWith n k fun x y f => RApplicative.lift2 f x y).runReader e = (m.combine n k).runReader e ∧
    (o.lift2 k (fun x y f => RApplicative.lift2 f x y) m n).runReader e = (m.combine n k).runReader e :=
  ⟨rfl, rfl, rfl, rfl⟩

/-- The environment operations of `ReaderT`. -/
theorem c38_readerT_env (m : RReaderT E M A) (f g : E → E) (p : E → M) (sel : E → B) (tr : B → C) (q : B → M)
    (q2 : C → M) (mf : RReaderT E M (A → B)) (ap : M → M → M) (e : E) :
    (m.applyWith mf ap).runReader e = ap (m.runReader e) (mf.runReader e) ∧
    (RReaderT.ask p).runReader e = p e ∧ (RReaderT.asks sel q).runReader e = q (sel e) ∧
    (RReaderT.asksWith sel tr q2).runReader e = q2 (tr (sel e)) ∧
    (m.localE f).runReader e = m.runReader (f e) ∧
    ((m.localE f).localE g).runReader e = m.runReader (f (g e)) := ⟨rfl, rfl, rfl, rfl, rfl, rfl⟩

/-- `combine` and `apply` give both computations the same environment, and are the base monad's combination of
the two runs. -/
theorem c38_readerT_combine [RMonad F] (m : RReaderT E (F A) A) (n : RReaderT E (F B) B) (k : A → B → C)
    (mf : RReaderT E (F (A → B)) (A → B)) (e : E) :
    (m.combine n k).runReader e = RApplicative.lift2 k (m.runReader e) (n.runReader e) ∧
    (m.apply mf).runReader e = RApplicative.lift2 (fun a f => f a) (m.runReader e) (mf.runReader e) := ⟨rfl, rfl⟩

/-- `lift` ignores the environment and satisfies the transformer laws. -/
theorem c38_lift [RMonad F] (a : A) (m : F A) (f : A → F B) (e : E) :
    (RReaderT.lift m : RReaderT E (F A) A).runReader e = m ∧
    (RReaderT.lift (RPure.pure a : F A) : RReaderT E (F A) A).runReader e =
      (RReaderT.pure a RPure.pure : RReaderT E (F A) A).runReader e ∧
    (RReaderT.lift (RMonad.bind m f) : RReaderT E (F B) B).runReader e =
      ((RReaderT.lift m : RReaderT E (F A) A).bind fun x => RReaderT.lift (f x)).runReader e := ⟨rfl, rfl, rfl⟩

/-- `ReaderT` over `Result`: `try_run_reader` wraps the error without context, the context variant with exactly
the given one (converted once), `map_error` maps only the error. -/
theorem c38_try (m : RReaderT E (Except E1 A) A) (c : IntoErrorContext σ) (f : E1 → E2) (e : E) (w : σ) :
    m.tryRunReader e = mapErr (m.runReader e) (fun x => ⟨x, [], none⟩) ∧
    m.tryRunReaderWithContext e c w =
      (mapErr (m.runReader e) (fun x => ⟨x, [(c w).1.message], none⟩), (c w).2) ∧
    (m.mapError f).runReader e = mapErr (m.runReader e) f := ⟨rfl, rfl, rfl⟩

example : (((Reader.ask fun n : Nat => n).localE (· * 2)).combine (Reader.ask fun n : Nat => n)
    fun a b => (a, b)).runReader 5 = (10, 5) := rfl

/-! ## C39 -/

/-- The monad laws of `ContT`, for every final continuation. -/
theorem c39_contT_monad (a : A) (m : RContT M A) (f : A → RContT M B) (g : B → RContT M C) (k : B → M)
    (k' : A → M) (k'' : C → M) :
    ((RContT.pure a).bind f).run k = (f a).run k ∧ (m.bind RContT.pure).run k' = m.run k' ∧
    ((m.bind f).bind g).run k'' = (m.bind fun x => (f x).bind g).run k'' := ⟨rfl, rfl, rfl⟩

/-- The monad laws of `Cont`. -/
theorem c39_cont_monad (a : A) (m : Cont R A) (f : A → Cont R B) (g : B → Cont R C) (k : B → R) (k' : A → R)
    (k'' : C → R) :
    ((Cont.pure a).bind f).run k = (f a).run k ∧ (m.bind Cont.pure).run k' = m.run k' ∧
    ((m.bind f).bind g).run k'' = (m.bind fun x => (f x).bind g).run k'' := ⟨rfl, rfl, rfl⟩

/-- C25 for `Cont`. -/
theorem c25_cont (a : A) (m : Cont R A) (f : A → Cont R B) (g : B → Cont R C) (k : B → R) (k' : A → R)
    (k'' : C → R) :
    ((Cont.pure a).bind f).run k = (f a).run k ∧ (m.bind Cont.pure).run k' = m.run k' ∧
    ((m.bind f).bind g).run k'' = (m.bind fun x => (f x).bind g).run k'' := ⟨rfl, rfl, rfl⟩

/-- C23 for `Cont`. -/
theorem c23_cont (m : Cont R A) (f : A → B) (g : B → C) (k : A → R) (k' : C → R) (l : B → R) :
    (m.fmap fun a => a).run k = m.run k ∧
    ((m.fmap f).fmap g).run k' = (m.fmap fun a => g (f a)).run k' ∧
    (m.fmap f).run l = (m.bind fun a => Cont.pure (f a)).run l := ⟨rfl, rfl, rfl⟩

/-- `new` and `run` are inverse: a continuation computation is its run function. -/
theorem c39_run_new (f : (A → R) → R) (g : (A → M) → M) (k : A → R) (k' : A → M) (a : A) :
    (Cont.new f).run k = f k ∧ (RContT.new g).run k' = g k' ∧ (Cont.pure a).run k = k a := ⟨rfl, rfl, rfl⟩

/-- `apply` runs the function computation first, then the argument. -/
theorem c39_apply (v : RContT M A) (cf : RContT M (A → B)) (w : Cont R A) (cg : Cont R (A → B)) (k : B → M)
    (k' : B → R) :
    (v.apply cf).run k = (cf.bind fun f => v.fmap f).run k ∧
    (v.apply cf).run k = cf.run (fun f => v.run fun a => k (f a)) ∧
    (w.apply cg).run k' = (cg.bind fun f => w.fmap f).run k' ∧
    (w.apply cg).run k' = cg.run (fun f => w.run fun a => k' (f a)) := ⟨rfl, rfl, rfl, rfl⟩

/-- `call_cc`, escaping: calling the escape continuation with `a`, at any point of the body (after any computation
`pre` that reaches it), discards the rest of the body and resumes with `a`. -/
theorem c39_call_cc_escape (a : A) (pre : RContT M D) (rest : B → RContT M A) (k : A → M) :
    (RContT.callCC (B := B) fun esc => (esc a).bind rest).run k = k a ∧
    (RContT.callCC (B := B) fun esc => pre.bind fun _ => (esc a).bind rest).run k = pre.run (fun _ => k a) :=
  ⟨rfl, rfl⟩

/-- `call_cc` is transparent when the escape is not used, and when the body ends with it. -/
theorem c39_call_cc_transparent (m : RContT M A) (k : A → M) :
    (RContT.callCC (B := B) fun _ => m).run k = m.run k ∧
    (RContT.callCC (B := A) fun esc => m.bind esc).run k = m.run k := ⟨rfl, rfl⟩

/-- A conditional escape: the rest runs only on the other branch. -/
theorem c39_call_cc_branch (c : Bool) (a : A) (b : B) (rest : B → RContT M A) (k : A → M) :
    (RContT.callCC (B := B) fun esc => (if c then esc a else RContT.pure b).bind rest).run k =
      if c then k a else (rest b).run k := by
  cases c <;> rfl

/-- The same for `Cont::call_cc`, which does not run its receiver. -/
theorem c39_cont_call_cc (self : Cont R A) (b : B) (m : Cont R B) (rest : A → Cont R B) (k : B → R) :
    (self.callCC fun esc => (esc b).bind rest).run k = k b ∧
    (self.callCC fun _ => m).run k = m.run k := ⟨rfl, rfl⟩

/-- `to_cont` and `from_cont` are inverse. -/
theorem c39_to_from (c : Cont R A) (t : RContT (RId R) A) :
    Cont.ofContT c.toContT = c ∧ (Cont.ofContT t).toContT = t := ⟨rfl, rfl⟩

example : (RContT.callCC (B := Nat) fun esc => (esc 1).bind fun _ => RContT.pure 99).run
    (fun n : Nat => n + 10) = 11 := rfl

/-! ## C40 -/

/-- `ReaderT`: `lift` is a monad morphism. -/
theorem c40_readerT [RMonad F] (a : A) (m : F A) (f : A → F B) (e : E) :
    (RReaderT.lift (RPure.pure a : F A) : RReaderT E (F A) A).runReader e =
      (RReaderT.pure a RPure.pure : RReaderT E (F A) A).runReader e ∧
    (RReaderT.lift (RMonad.bind m f) : RReaderT E (F B) B).runReader e =
      ((RReaderT.lift m : RReaderT E (F A) A).bind fun x => RReaderT.lift (f x)).runReader e := ⟨rfl, rfl⟩

/-- `StateT`: the bind half holds (over every lawful base monad; `f` cannot see the state because the lifted
continuation gets only the value). -/
theorem c40_stateT_partial [RMonad F] (m : F (S × A)) (f : A → F (S × B))
    {bf : F (S × A) → (S × A → Option (F (S × B))) → Option (F (S × B))} (hb : BindFn F bf) (s : S) :
    (RStateT.lift (RMonad.bind m fun p => f p.2) : RStateT S (F (S × B)) B).runState s =
      ((RStateT.lift m : RStateT S (F (S × A)) A).bindWith
        (fun x => (RStateT.lift (f x) : RStateT S (F (S × B)) B)) bf).runState s := by
  have h1 : RunsAs (RStateT.lift m : RStateT S (F (S × A)) A) fun _ => m := fun _ => rfl
  have h2 : ∀ x, RunsAs (RStateT.lift (f x) : RStateT S (F (S × B)) B) fun _ => f x := fun _ _ => rfl
  rw [c37_bind_runs hb _ _ h1 _ _ h2 s]
  rfl

example : ((RStateT.lift (some (5, 1)) : RStateT Nat (Option (Nat × Nat)) Nat).bindWith
      (fun x => (RStateT.lift (some (x, x)) : RStateT Nat (Option (Nat × Nat)) Nat))
      (fun m k => match m with | some x => k x | none => some none)).runState 9 = some (some (1, 1)) :=
  (c40_stateT_partial (some (5, 1)) (fun x => some (x, x)) (by
    intro m k k' h
    cases m with
    | none => rfl
    | some x => exact h x) 9).symm

/-- `StateT`: the pure half is false.  `lift` ignores the incoming state and continues in the state stored in the
lifted value: `lift(pure((0, a)))` run from 5 ends in state 0, `pure(a)` in state 5. -/
theorem c40_stateT_pure_false (a : Nat) :
    (RStateT.lift (RPure.pure (0, a) : RId (Nat × Nat)) : RStateT Nat (RId (Nat × Nat)) Nat).runState 5 =
      some ⟨(0, a)⟩ ∧
    (RStateT.pure a (RPure.pure : Nat × Nat → RId (Nat × Nat))).runState 5 = some ⟨(5, a)⟩ := ⟨rfl, rfl⟩

/-- … exactly: the lifted `pure((s0, a))` behaves as `pure(a)` from state `s0`. -/
theorem c40_stateT_pure_partial [RMonad F] (s0 s : S) (a : A) :
    (RStateT.lift (RPure.pure (s0, a) : F (S × A)) : RStateT S (F (S × A)) A).runState s =
      (RStateT.pure a (RPure.pure : S × A → F (S × A))).runState s0 := rfl

/-- `ContT`: the pure half is false.  `lift` drops the continuation: `lift(Id(1)).run(k)` is `Id(1)` for every
`k`, while `pure(1).run(k)` is `k(1)`. -/
theorem c40_contT_pure_false :
    (RContT.lift (RPure.pure 1 : RId Nat) : RContT (RId Nat) Nat).run (fun n => ⟨n + 10⟩) = ⟨1⟩ ∧
    (RContT.pure 1 : RContT (RId Nat) Nat).run (fun n => ⟨n + 10⟩) = ⟨11⟩ := ⟨rfl, rfl⟩

/-- `ContT`: the bind half is false as well: the continuation of the lifted computation never runs, so
`lift(m).bind(lift ∘ f)` is `m`. -/
theorem c40_contT_bind_false :
    (RContT.lift (RMonad.bind (⟨1⟩ : RId Nat) fun n => ⟨n + 1⟩) : RContT (RId Nat) Nat).run (fun n => ⟨n⟩) = ⟨2⟩ ∧
    ((RContT.lift (⟨1⟩ : RId Nat) : RContT (RId Nat) Nat).bind fun n => RContT.lift ⟨n + 1⟩).run (fun n => ⟨n⟩) =
      ⟨1⟩ := ⟨rfl, rfl⟩

/-- What `ContT::lift` does: it aborts with the base value; every later `bind` and `fmap` is skipped. -/
theorem c40_contT_exact (m : M) (f : A → RContT M B) (g : A → B) (k : B → M) (l : A → M) :
    (RContT.lift m : RContT M A).run l = m ∧ ((RContT.lift m : RContT M A).bind f).run k = m ∧
    ((RContT.lift m : RContT M A).fmap g).run k = m := ⟨rfl, rfl, rfl⟩

/-! ## C57 -/

/-- How often a resource is released or still owned (and so released later). -/
def ownedTotal (r : Nat) (out : List Nat × OMem) : Nat := out.2.drops.count r + out.1.count r

/-- A well-behaved continuation: it takes over its argument, so the argument's resource is released once, either
inside the continuation or by its result; a resource older than the argument is not touched. -/
def OConsumes (f : OCont A) : Prop :=
  ∀ (v : OVal A) (m : OMem) (r : Nat), r < m.next →
    ownedTotal r (f v m) = m.drops.count r + (if v.res = some r then 1 else 0)

/-- The claim is false for every owning value and every well-behaved continuation: the resource of the clone is
released twice. -/
theorem c57_double_drop_false (f : OCont A) (hf : OConsumes f) (v : OVal A) (m : OMem) (r : Nat)
    (hv : v.res = some r) (hfresh : ∀ x ∈ m.drops, x < m.next) :
    ownedTotal m.next (bindClosure f v m) = 2 := by
  have hc : m.clone v = (⟨v.data, some m.next⟩, ⟨m.next + 1, m.drops⟩) := by
    unfold OMem.clone; rw [hv]
  have h0 : m.drops.count m.next = 0 := by
    rw [List.count_eq_zero]
    intro hmem
    exact Nat.lt_irrefl _ (hfresh _ hmem)
  have h1 := hf ⟨v.data, some m.next⟩ ⟨m.next + 1, m.drops⟩ m.next (Nat.lt_succ_self _)
  have hb : bindClosure f v m = ((f ⟨v.data, some m.next⟩ ⟨m.next + 1, m.drops⟩).1,
      (f ⟨v.data, some m.next⟩ ⟨m.next + 1, m.drops⟩).2.drop ⟨v.data, some m.next⟩) := by
    unfold bindClosure
    rw [hc]
    rfl
  rw [hb]
  simp only [ownedTotal, h0, if_true] at h1
  simp only [ownedTotal, OMem.drop, List.count_append, List.count_singleton_self]
  omega

/-- A concrete run: a continuation that drops its argument; resource 1 (the clone) is released twice. -/
theorem c57_double_drop_witness_false :
    bindClosure (fun v m => ([], m.drop v)) (⟨"abc", some 0⟩ : OVal String) ⟨1, []⟩ = ([], ⟨2, [1, 1]⟩) := rfl

/-- PARTIAL: for plain data (no drop glue) nothing is released by the closure beyond what the continuation itself
releases, so each value is handed over exactly once.  Missing: owning types, where the claim is false. -/
theorem c57_plain_partial (f : OCont A) (v : OVal A) (m : OMem) (hv : v.res = none) :
    bindClosure f v m = f v m := by
  have hc : m.clone v = (v, m) := by unfold OMem.clone; rw [hv]
  unfold bindClosure
  rw [hc]
  simp only [OMem.transmuteCopy, OMem.drop, hv]

/-- The continuation that drops its argument is well-behaved. -/
theorem dropping_consumes : OConsumes (fun (v : OVal A) m => ([], m.drop v)) := by
  intro v m r _
  rcases v with ⟨d, res⟩
  cases res with
  | none => simp [OMem.drop, ownedTotal]
  | some q =>
    by_cases h : q = r
    · subst h; simp [OMem.drop, ownedTotal, List.count_append]
    · simp [OMem.drop, ownedTotal, List.count_append, h]

/-- `c57_double_drop_false` for a continuation that drops its argument. -/
example : ownedTotal 4 (bindClosure (fun v m => ([], m.drop v)) (⟨7, some 2⟩ : OVal Nat) ⟨4, [3]⟩) = 2 :=
  c57_double_drop_false _ dropping_consumes _ ⟨4, [3]⟩ 2 rfl (by decide)

end

end Rustica
