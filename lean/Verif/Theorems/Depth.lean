import Verif.Effect.Depth
import Verif.Utils.Utils

/-!
# C94: how deep the calls of a chain nest
-/

namespace Rustica.Depth
open Run

variable {S E M A B C W : Type}

/-! ## Specification -/

/-- A step repeated `n` times: `x.step().step()…`. -/
def chain {X : Type} (step : X → X) : Nat → X → X
  | 0, x => x
  | n + 1, x => step (chain step n x)

/-- The same for steps that run code while the chain is built: the value of each is the start of the next, the frames
of one are gone before the next. -/
def chainRun {X : Type} (step : X → Run X) : Nat → X → Run X
  | 0, x => ret x
  | n + 1, x => (chainRun step n x).seq step

/-- The depth does not depend on the length of the chain. -/
def Flat (d : Nat → Nat) : Prop := ∃ K, ∀ n, d n ≤ K

/-- Every stack is too small for some chain. -/
def Grows (d : Nat → Nat) : Prop := ∀ K, ∃ n, K < d n

/-- The two exclude each other. -/
theorem Grows.not_flat {d : Nat → Nat} (h : Grows d) : ¬ Flat d := by
  rintro ⟨K, hK⟩
  obtain ⟨n, hn⟩ := h K
  exact absurd (hK n) (by omega)

example : Grows (fun n => n + 1) ∧ Flat (fun _ => 3) := ⟨fun K => ⟨K, Nat.lt_succ_self K⟩, 3, fun _ => Nat.le_refl 3⟩

private theorem grows_of {d : Nat → Nat} (h : ∀ n, n ≤ d n) : Grows d := fun K => ⟨K + 1, h (K + 1)⟩

@[simp] private theorem depth_call (m : Run A) : m.call.depth = m.depth + 1 := rfl
@[simp] private theorem value_call (m : Run A) : m.call.value = m.value := rfl
@[simp] private theorem depth_ret (a : A) : (ret a).depth = 0 := rfl
@[simp] private theorem value_ret (a : A) : (ret a).value = a := rfl
@[simp] private theorem depth_seq (m : Run A) (k : A → Run B) :
    (m.seq k).depth = max m.depth (k m.value).depth := rfl
@[simp] private theorem value_seq (m : Run A) (k : A → Run B) : (m.seq k).value = (k m.value).value := rfl

private theorem chain_lower {X : Type} (step : X → X) (d : X → Nat) (h : ∀ x, d x + 1 ≤ d (step x)) (x : X) (n : Nat) :
    n + d x ≤ d (chain step n x) := by
  induction n with
  | zero => simp [chain]
  | succ n ih => have := h (chain step n x); simp only [chain]; omega

private theorem chain_exact {X : Type} (step : X → X) (d : X → Nat) (x : X)
    (h : ∀ y, d x ≤ d y → d (step y) = d y + 1) (n : Nat) : d (chain step n x) = n + d x := by
  induction n with
  | zero => simp [chain]
  | succ n ih => simp only [chain]; rw [h _ (by omega)]; omega

/-! ## `State` -/

/-- One `State::fmap` and one `State::bind` add a frame on top of what they run. -/
theorem c94_state_step (m : DState S A) (f : A → Run B) (g : A → Run (DState S B)) (s : S) :
    ((m.fmap f).runState s).depth = max (m.runState s).depth (f (m.runState s).value.1).depth + 1 ∧
    ((m.bind g).runState s).depth = max (m.runState s).depth (max (g (m.runState s).value.1).depth
      ((g (m.runState s).value.1).value.runState (m.runState s).value.2).depth) + 1 := by
  constructor
  · simp [DState.runState, DState.fmap]
  · simp [DState.runState, DState.bind]

/-- `n` times `State::fmap` nests `n` calls more, exactly when the function itself needs no more stack than the start. -/
theorem c94_state_exact (m : DState S A) (f : A → Run A) (s : S)
    (hf : ∀ a, (f a).depth ≤ (m.runState s).depth) (n : Nat) :
    ((chain (·.fmap f) n m).runState s).depth = n + (m.runState s).depth := by
  refine chain_exact (fun m : DState S A => m.fmap f) (fun m => (m.runState s).depth) m ?_ n
  intro y hy
  simp only [(c94_state_step y f (fun _ => ret y) s).1]
  have := hf (y.runState s).value.1
  omega

example : ((chain (·.fmap fun a => ret (a + 1)) 1000 (DState.pure 0 : DState Nat Nat)).runState 5).depth = 1001 := by
  rw [c94_state_exact _ _ _ (fun _ => Nat.zero_le _)]; rfl

/-- Chains of `fmap`, of `bind` to the left and of `bind` to the right: every stack is too small for some of them,
whatever the functions. -/
theorem c94_state_false (m : DState S A) (f : A → Run A) (g : A → Run (DState S A)) (s : S) :
    Grows (fun n => ((chain (·.fmap f) n m).runState s).depth) ∧
    Grows (fun n => ((chain (·.bind g) n m).runState s).depth) ∧
    Grows (fun n => ((chain (fun rest => m.bind fun _ => ret rest) n m).runState s).depth) := by
  refine ⟨grows_of fun n => ?_, grows_of fun n => ?_, grows_of fun n => ?_⟩
  · refine Nat.le_trans (Nat.le_add_right _ _)
      (chain_lower (fun m : DState S A => m.fmap f) (fun m => (m.runState s).depth) (fun x => ?_) m n)
    simp only [(c94_state_step x f g s).1]; omega
  · refine Nat.le_trans (Nat.le_add_right _ _)
      (chain_lower (fun m : DState S A => m.bind g) (fun m => (m.runState s).depth) (fun x => ?_) m n)
    simp only [(c94_state_step x f g s).2]; omega
  · have : ∀ n s, n ≤ ((chain (fun rest => m.bind fun _ => ret rest) n m).runState s).depth := by
      intro n
      induction n with
      | zero => intro s; omega
      | succ n ih =>
        intro s
        have h := (c94_state_step m f (fun _ => ret (chain (fun rest => m.bind fun _ => ret rest) n m)) s).2
        have h2 := ih (m.runState s).value.2
        simp only [chain, h, value_ret]
        omega
    exact this n s

/-! ## `StateT`, `ReaderT`, `Reader` -/

/-- `StateT`: chains of `fmap_with` and `bind_with`, for every base and every function given. -/
theorem c94_stateT_false (m : DStateT S M A) (f : A → Run A) (g : A → Run (DStateT S M A))
    (mapFn : M → (S × A → Run (S × A)) → Run M) (bindFn : M → (S × A → Run M) → Run M) (s : S) :
    Grows (fun n => ((chain (·.fmapWith f mapFn) n m).runState s).depth) ∧
    Grows (fun n => ((chain (·.bindWith g bindFn) n m).runState s).depth) := by
  refine ⟨grows_of fun n => ?_, grows_of fun n => ?_⟩
  · refine Nat.le_trans (Nat.le_add_right _ _)
      (chain_lower (fun m : DStateT S M A => m.fmapWith f mapFn) (fun m => (m.runState s).depth) (fun x => ?_) m n)
    simp only [DStateT.runState, DStateT.fmapWith, depth_call, depth_seq]; omega
  · refine Nat.le_trans (Nat.le_add_right _ _)
      (chain_lower (fun m : DStateT S M A => m.bindWith g bindFn) (fun m => (m.runState s).depth) (fun x => ?_) m n)
    simp only [DStateT.runState, DStateT.bindWith, depth_call, depth_seq]; omega

/-- `ReaderT`: chains of `fmap_with`, `bind_with` and `local`. -/
theorem c94_readerT_false (m : DReaderT E M A) (f : A → Run A) (g : A → Run (DReaderT E M A)) (l : E → Run E)
    (mapFn : M → (A → Run A) → Run M) (bindFn : M → (A → Run M) → Run M) (e : E) :
    Grows (fun n => ((chain (·.fmapWith f mapFn) n m).runReader e).depth) ∧
    Grows (fun n => ((chain (·.bindWith g bindFn) n m).runReader e).depth) ∧
    Grows (fun n => ((chain (·.localE l) n m).runReader e).depth) := by
  refine ⟨grows_of fun n => ?_, grows_of fun n => ?_, grows_of fun n => ?_⟩
  · refine Nat.le_trans (Nat.le_add_right _ _)
      (chain_lower (fun m : DReaderT E M A => m.fmapWith f mapFn) (fun m => (m.runReader e).depth) (fun x => ?_) m n)
    simp only [DReaderT.runReader, DReaderT.fmapWith, depth_call, depth_seq]; omega
  · refine Nat.le_trans (Nat.le_add_right _ _)
      (chain_lower (fun m : DReaderT E M A => m.bindWith g bindFn) (fun m => (m.runReader e).depth) (fun x => ?_) m n)
    simp only [DReaderT.runReader, DReaderT.bindWith, depth_call, depth_seq]; omega
  · have : ∀ n e, n ≤ ((chain (·.localE l) n m).runReader e).depth := by
      intro n
      induction n with
      | zero => intro e; omega
      | succ n ih =>
        intro e
        have := ih (l e).value
        simp only [chain, DReaderT.runReader, DReaderT.localE, depth_call, depth_seq] at this ⊢
        omega
    exact this n e

/-- One `Reader::fmap`, `bind` or `combine` adds a frame on top of what it runs. -/
theorem c94_reader_step (m : DReader E A) (o : DReader E C) (f : A → Run B) (g : A → Run (DReader E B))
    (h : A → C → Run B) (e : E) :
    ((m.fmap f).runReader e).depth = max (m.runReader e).depth (f (m.runReader e).value).depth + 1 ∧
    ((m.bind g).runReader e).depth = max (m.runReader e).depth (max (g (m.runReader e).value).depth
      ((g (m.runReader e).value).value.runReader e).depth) + 1 ∧
    ((m.combine o h).runReader e).depth = max (m.runReader e).depth (max (o.runReader e).depth
      (h (m.runReader e).value (o.runReader e).value).depth) + 1 := by
  refine ⟨?_, ?_, ?_⟩ <;> simp [DReader.runReader, DReader.fmap, DReader.bind, DReader.combine]

/-- `Reader`: chains of `fmap`, `bind` and `local`. -/
theorem c94_reader_false (m : DReader E A) (f : A → Run A) (g : A → Run (DReader E A)) (l : E → Run E) (e : E) :
    Grows (fun n => ((chain (·.fmap f) n m).runReader e).depth) ∧
    Grows (fun n => ((chain (·.bind g) n m).runReader e).depth) ∧
    Grows (fun n => ((chain (·.localE l) n m).runReader e).depth) := by
  refine ⟨grows_of fun n => ?_, grows_of fun n => ?_, grows_of fun n => ?_⟩
  · refine Nat.le_trans (Nat.le_add_right _ _)
      (chain_lower (fun m : DReader E A => m.fmap f) (fun m => (m.runReader e).depth) (fun x => ?_) m n)
    simp only [DReader.runReader, DReader.fmap, depth_call, depth_seq]; omega
  · refine Nat.le_trans (Nat.le_add_right _ _)
      (chain_lower (fun m : DReader E A => m.bind g) (fun m => (m.runReader e).depth) (fun x => ?_) m n)
    simp only [DReader.runReader, DReader.bind, depth_call, depth_seq]; omega
  · have : ∀ n e, n ≤ ((chain (·.localE l) n m).runReader e).depth := by
      intro n
      induction n with
      | zero => intro e; omega
      | succ n ih =>
        intro e
        have := ih (l e).value
        simp only [chain, DReader.runReader, DReader.localE, depth_call, depth_seq] at this ⊢
        omega
    exact this n e

/-! ## `Cont` -/

/-- `ContT` (and `Cont`, which is `ContT` over `Id`): chains of `fmap` and `bind` nest, whatever they start from. -/
theorem c94_cont_false (m : DContT M A) (f : A → Run A) (g : A → Run (DContT M A)) (k : A → Run M) :
    Grows (fun n => ((chain (·.fmap f) n m).run k).depth) ∧ Grows (fun n => ((chain (·.bind g) n m).run k).depth) := by
  have h1 : ∀ n k, n ≤ ((chain (·.fmap f) n m).fn k).depth := by
    intro n
    induction n with
    | zero => intro k; omega
    | succ n ih =>
      intro k
      simp only [chain, DContT.fmap, depth_call]
      exact Nat.succ_le_succ (ih _)
  have h2 : ∀ n k, n ≤ ((chain (·.bind g) n m).fn k).depth := by
    intro n
    induction n with
    | zero => intro k; omega
    | succ n ih =>
      intro k
      simp only [chain, DContT.bind, depth_call]
      exact Nat.succ_le_succ (ih _)
  exact ⟨grows_of fun n => Nat.le_trans (h1 n k) (Nat.le_succ _), grows_of fun n => Nat.le_trans (h2 n k) (Nat.le_succ _)⟩

/-- From a pure value two frames per `fmap`, one for the computation and one for the continuation. -/
theorem c94_cont_exact (a : A) (f : A → Run A) (k : A → Run M) (hf : ∀ a, (f a).depth = 0) (n : Nat) :
    ((chain (·.fmap f) n (DContT.pure a)).run k).depth =
      2 * n + 2 + (k (chain (fun a => (f a).value) n a)).depth := by
  have : ∀ n k, ((chain (·.fmap f) n (DContT.pure a : DContT M A)).fn k).depth =
      2 * n + 1 + (k (chain (fun a => (f a).value) n a)).depth := by
    intro n
    induction n with
    | zero => intro k; simp only [chain, DContT.pure, depth_call]; omega
    | succ n ih =>
      intro k
      show ((chain (·.fmap f) n (DContT.pure a : DContT M A)).fn _).depth + 1 = _
      rw [ih]
      simp only [chain, depth_seq, depth_call, hf]
      omega
  simp only [DContT.run, depth_call]
  rw [this n k]
  omega

example : ((chain (·.fmap fun a => ret (a + 1)) 1000 (DContT.pure 0 : DContT Nat Nat)).run ret).depth = 2002 := by
  rw [c94_cont_exact _ _ _ (fun _ => rfl)]; rfl

/-- Three frames per `bind`: the computation before, the computation returned and its continuation. -/
theorem c94_cont_bind_exact (a : A) (f : A → A) (k : A → Run M) (n : Nat) :
    ((chain (·.bind fun a => ret (DContT.pure (f a))) n (DContT.pure a)).run k).depth =
      3 * n + 2 + (k (chain f n a)).depth := by
  have : ∀ n k, ((chain (·.bind fun a => ret (DContT.pure (f a))) n (DContT.pure a : DContT M A)).fn k).depth =
      3 * n + 1 + (k (chain f n a)).depth := by
    intro n
    induction n with
    | zero => intro k; simp only [chain, DContT.pure, depth_call]; omega
    | succ n ih =>
      intro k
      show ((chain (·.bind fun a => ret (DContT.pure (f a))) n (DContT.pure a : DContT M A)).fn _).depth + 1 = _
      rw [ih]
      simp only [chain, DContT.pure, depth_seq, depth_call, depth_ret, value_ret]
      omega
  simp only [DContT.run, depth_call]
  rw [this n k]
  omega

/-! ## `IO` and `AsyncM` -/

/-- `IO` with effects: chains of `fmap` and `bind` are built without running anything, and nest when run. -/
theorem c94_io_false (e : Run A) (f : A → Run A) (g : A → Run (DIO A)) :
    (∀ n, (chainRun (·.fmap f) n (DIO.Effect e)).depth = 0 ∧ (chainRun (·.bind g) n (DIO.Effect e)).depth = 0) ∧
    Grows (fun n => (chainRun (·.fmap f) n (DIO.Effect e)).value.run.depth) ∧
    Grows (fun n => (chainRun (·.bind g) n (DIO.Effect e)).value.run.depth) := by
  have h1 : ∀ n, (chainRun (·.fmap f) n (DIO.Effect e)).depth = 0 ∧
      ∃ r, (chainRun (·.fmap f) n (DIO.Effect e)).value = .Effect r ∧ n ≤ r.depth := by
    intro n
    induction n with
    | zero => exact ⟨rfl, e, rfl, Nat.zero_le _⟩
    | succ n ih =>
      obtain ⟨h0, r, hr, hn⟩ := ih
      refine ⟨?_, r.call.seq f, ?_, ?_⟩
      · simp only [chainRun, depth_seq, h0, hr]; rfl
      · simp only [chainRun, value_seq, hr]; rfl
      · simp only [depth_seq, depth_call]; omega
  have h2 : ∀ n, (chainRun (·.bind g) n (DIO.Effect e)).depth = 0 ∧
      ∃ r, (chainRun (·.bind g) n (DIO.Effect e)).value = .Effect r ∧ n ≤ r.depth := by
    intro n
    induction n with
    | zero => exact ⟨rfl, e, rfl, Nat.zero_le _⟩
    | succ n ih =>
      obtain ⟨h0, r, hr, hn⟩ := ih
      refine ⟨?_, r.call.seq fun a => (g a).seq DIO.run, ?_, ?_⟩
      · simp only [chainRun, depth_seq, h0, hr]; rfl
      · simp only [chainRun, value_seq, hr]; rfl
      · simp only [depth_seq, depth_call]; omega
  refine ⟨fun n => ⟨(h1 n).1, (h2 n).1⟩, grows_of fun n => ?_, grows_of fun n => ?_⟩
  · obtain ⟨r, hr, hn⟩ := (h1 n).2
    simp only [hr, DIO.run, depth_call]; omega
  · obtain ⟨r, hr, hn⟩ := (h2 n).2
    simp only [hr, DIO.run, depth_call]; omega

/-- PARTIAL (the part of C94 that holds for `IO`): chains that start from a pure value stay pure and need no more
stack than one of their functions; `sequence` needs one frame more than the deepest of its parts.  Missing: chains of
effects, where it is false (`c94_io_false`). -/
theorem c94_io_partial (a : A) (f : A → Run A) (ios : List (DIO A)) (K : Nat) (hf : ∀ a, (f a).depth ≤ K)
    (hios : ∀ io ∈ ios, io.run.depth ≤ K) :
    (∀ n, (chainRun (·.fmap f) n (DIO.Pure a)).depth ≤ K ∧ (chainRun (·.fmap f) n (DIO.Pure a)).value.run.depth = 0) ∧
    (DIO.sequence ios).run.depth ≤ K + 1 := by
  constructor
  · intro n
    have : (chainRun (·.fmap f) n (DIO.Pure a)).depth ≤ K ∧
        ∃ b, (chainRun (·.fmap f) n (DIO.Pure a)).value = .Pure b := by
      induction n with
      | zero => exact ⟨Nat.zero_le _, a, rfl⟩
      | succ n ih =>
        obtain ⟨h0, b, hb⟩ := ih
        refine ⟨?_, (f b).value, ?_⟩
        · have := hf b
          simp only [chainRun, depth_seq, hb]
          have e : ((DIO.Pure b).fmap f).depth = max (f b).depth 0 := rfl
          omega
        · simp only [chainRun, value_seq, hb]; rfl
    obtain ⟨h, b, hb⟩ := this
    exact ⟨h, by rw [hb]; rfl⟩
  · have : (mapAll DIO.run ios).depth ≤ K := by
      induction ios with
      | nil => exact Nat.zero_le _
      | cons x xs ih =>
        have h1 := hios x List.mem_cons_self
        have h2 := ih fun io h => hios io (List.mem_cons_of_mem _ h)
        simp only [mapAll, depth_seq, depth_ret]; omega
    simpa [DIO.sequence, DIO.run] using this

example : (DIO.sequence (List.replicate 1000 (DIO.Effect (ret 1)))).run.depth ≤ 2 :=
  (c94_io_partial 0 (fun a => ret a) _ 1 (fun _ => Nat.zero_le _) (fun io h => by
    rw [(List.mem_replicate.mp h).2]; exact Nat.le_refl _)).2

/-- `AsyncM`: chains of `fmap` and `bind` nest when awaited, from a pure value as well. -/
theorem c94_async_false (m : DAsync A) (f : A → Run A) (g : A → Run (DAsync A)) :
    Grows (fun n => (chain (·.fmap f) n m).tryGet.depth) ∧ Grows (fun n => (chain (·.bind g) n m).tryGet.depth) := by
  refine ⟨grows_of fun n => ?_, grows_of fun n => ?_⟩
  · refine Nat.le_trans (Nat.le_add_right _ _)
      (chain_lower (fun m : DAsync A => m.fmap f) (fun m => m.tryGet.depth) (fun x => ?_) m n)
    cases x <;> simp only [DAsync.fmap, DAsync.tryGet, depth_call, depth_seq, depth_ret] <;> omega
  · refine Nat.le_trans (Nat.le_add_right _ _)
      (chain_lower (fun m : DAsync A => m.bind g) (fun m => m.tryGet.depth) (fun x => ?_) m n)
    cases x <;> simp only [DAsync.bind, DAsync.tryGet, depth_call, depth_seq, depth_ret] <;> omega

/-- From a pure value one poll per `fmap` or `bind` when the functions need none. -/
theorem c94_async_exact (a : A) (f : A → A) (n : Nat) :
    (chain (·.fmap fun a => ret (f a)) n (.Pure a : DAsync A)).tryGet.depth = n ∧
    (chain (·.bind fun a => ret (.Pure (f a))) n (.Pure a : DAsync A)).tryGet.depth = n := by
  constructor
  · refine chain_exact (fun m : DAsync A => m.fmap fun a => ret (f a)) (fun m => m.tryGet.depth) (.Pure a) (fun y _ => ?_) n
    cases y <;> simp [DAsync.fmap, DAsync.tryGet]
  · refine chain_exact (fun m : DAsync A => m.bind fun a => ret (.Pure (f a))) (fun m => m.tryGet.depth) (.Pure a)
      (fun y _ => ?_) n
    cases y <;> simp [DAsync.bind, DAsync.tryGet]

/-- One step of `AsyncM`, `StateT`, `ReaderT`, predicates and composition, with whatever they are given. -/
theorem c94_steps {N : Type} (m : DStateT S M A) (r : DReaderT E M A) (f : A → Run B) (g : A → Run (DStateT S N B))
    (h : A → Run (DReaderT E N B)) (bs : M → (S × A → Run N) → Run N) (br : M → (A → Run N) → Run N)
    (ms : M → (S × A → Run (S × B)) → Run M) (p q : DPredicate A) (k : DMor B C) (j : DMor A B) (io : Run A)
    (b : A → Run (DAsync B)) (s : S) (e : E) (a : A) :
    ((m.fmapWith f ms).runState s).depth = max (m.runState s).depth (ms (m.runState s).value fun x =>
      ((f x.2).seq fun b => ret (x.1, b)).call).depth + 1 ∧
    ((m.bindWith g bs).runState s).depth = max (m.runState s).depth (bs (m.runState s).value fun x =>
      ((g x.2).seq fun n => n.runState x.1).call).depth + 1 ∧
    ((r.bindWith h br).runReader e).depth = max (r.runReader e).depth (br (r.runReader e).value fun x =>
      ((h x).seq fun n => n.runReader e).call).depth + 1 ∧
    ((p.union q).contains a).depth = (if (p.contains a).value then (p.contains a).depth else
      max (p.contains a).depth (q.contains a).depth) + 1 ∧
    ((p.intersection q).contains a).depth = (if (p.contains a).value then
      max (p.contains a).depth (q.contains a).depth else (p.contains a).depth) + 1 ∧
    (p.negate.contains a).depth = (p.contains a).depth + 1 ∧
    ((DMor.compose k j).app a).depth = max (j.app a).depth (k.app (j.app a).value).depth + 1 ∧
    ((DAsync.Pure a).bind b).tryGet.depth = max (b a).depth (b a).value.tryGet.depth + 1 ∧
    ((DAsync.Effect io).bind b).tryGet.depth =
      max (io.depth + 1) (max (b io.value).depth (b io.value).value.tryGet.depth) + 1 := by
  refine ⟨rfl, rfl, rfl, ?_, ?_, ?_, rfl, rfl, rfl⟩
  · simp only [DPredicate.contains, DPredicate.union, depth_call, depth_seq, value_call]
    by_cases h : (p.func a).value = true <;> simp [h]
  · simp only [DPredicate.contains, DPredicate.intersection, depth_call, depth_seq, value_call]
    by_cases h : (p.func a).value = true <;> simp [h]
  · simp [DPredicate.contains, DPredicate.negate]

/-! ## Predicates and morphisms -/

/-- Predicates: chains of `union`, `intersection` (to the left) and `negate`. -/
theorem c94_predicate_false (p q : DPredicate A) (a : A) :
    Grows (fun n => ((chain (·.union q) n p).contains a).depth) ∧
    Grows (fun n => ((chain (·.intersection q) n p).contains a).depth) ∧
    Grows (fun n => ((chain (·.negate) n p).contains a).depth) := by
  refine ⟨grows_of fun n => ?_, grows_of fun n => ?_, grows_of fun n => ?_⟩
  · refine Nat.le_trans (Nat.le_add_right _ _)
      (chain_lower (fun p : DPredicate A => p.union q) (fun p => (p.contains a).depth) (fun x => ?_) p n)
    simp only [DPredicate.contains, DPredicate.union, depth_call, depth_seq]; omega
  · refine Nat.le_trans (Nat.le_add_right _ _)
      (chain_lower (fun p : DPredicate A => p.intersection q) (fun p => (p.contains a).depth) (fun x => ?_) p n)
    simp only [DPredicate.contains, DPredicate.intersection, depth_call, depth_seq]; omega
  · refine Nat.le_trans (Nat.le_add_right _ _)
      (chain_lower (fun p : DPredicate A => p.negate) (fun p => (p.contains a).depth) (fun x => ?_) p n)
    simp only [DPredicate.contains, DPredicate.negate, depth_call, depth_seq]; omega

/-- `compose_morphisms`: composing again and again, on either side, nests. -/
theorem c94_compose_false (f g : DMor A A) (x : A) :
    Grows (fun n => ((chain (fun h => DMor.compose g h) n f).app x).depth) ∧
    Grows (fun n => ((chain (fun h => DMor.compose h g) n f).app x).depth) := by
  refine ⟨grows_of fun n => ?_, grows_of fun n => ?_⟩
  · refine Nat.le_trans (Nat.le_add_right _ _)
      (chain_lower (fun h : DMor A A => DMor.compose g h) (fun h => (h.app x).depth) (fun y => ?_) f n)
    simp only [DMor.app, DMor.compose, depth_call, depth_seq]; omega
  · have : ∀ n x, n ≤ ((chain (fun h => DMor.compose h g) n f).app x).depth := by
      intro n
      induction n with
      | zero => intro x; omega
      | succ n ih =>
        intro x
        have := ih (g.fn x).value
        simp only [chain, DMor.app, DMor.compose, depth_call, depth_seq, value_call] at this ⊢
        omega
    exact this n x

private theorem loop_le (f : B → A → Run B) (K : Nat) (xs : List A) (h : ∀ acc, ∀ x ∈ xs, (f acc x).depth ≤ K) (acc : B) :
    (loop f xs acc).depth ≤ K := by
  induction xs generalizing acc with
  | nil => exact Nat.zero_le _
  | cons x xs ih =>
    have h1 := h acc x List.mem_cons_self
    have h2 := ih (fun acc y hy => h acc y (List.mem_cons_of_mem _ hy)) (f acc x).value
    simp only [loop, depth_seq]; omega

/-- `FunctionCategory::sequence` and `compose_all` loop inside one closure: the depth does not depend on the number of
functions. -/
theorem c94_sequence (fs : List (A → Run A)) (conv : A → Run B) (K : Nat) (hf : ∀ f ∈ fs, ∀ a, (f a).depth ≤ K)
    (hc : ∀ a, (conv a).depth ≤ K) (x : A) :
    ((DMor.sequence fs).app x).depth ≤ K + 1 ∧ ((composeAll fs conv).app x).depth ≤ K + 2 := by
  constructor
  · have := loop_le (fun (acc : A) (f : A → Run A) => f acc) K fs (fun acc f h => hf f h acc) x
    simp only [DMor.app, DMor.sequence, depth_call]; omega
  · have := loop_le (fun (acc : A) (f : A → Run A) => (f acc).call) (K + 1) fs
      (fun acc f h => Nat.succ_le_succ (hf f h acc)) x
    have h2 := hc (loop (fun (acc : A) (f : A → Run A) => (f acc).call) fs x).value
    simp only [DMor.app, composeAll, depth_call, depth_seq]; omega

example : ((DMor.sequence (List.replicate 1000 fun a => ret (a + 1))).app 0).depth ≤ 1 :=
  (c94_sequence _ (fun a => ret a) 0 (fun f h a => by rw [(List.mem_replicate.mp h).2]; exact Nat.le_refl _)
    (fun _ => Nat.le_refl _) 0).1

/-! ## Computations that are data -/

private theorem chainRun_le {X : Type} (step : X → Run X) (K : Nat) (h : ∀ x, (step x).depth ≤ K) (n : Nat) (x : X) :
    (chainRun step n x).depth ≤ K := by
  induction n with
  | zero => exact Nat.zero_le _
  | succ n ih => have := h (chainRun step n x).value; simp only [chainRun, depth_seq]; omega

/-- `Writer`: a chain of any length needs no more stack than one of its steps or one combination of logs. -/
theorem c94_writer (comb : W → W → Run W) (f : A → Run A) (g : A → Run (Writer W A)) (K : Nat)
    (hc : ∀ a b, (comb a b).depth ≤ K) (hf : ∀ a, (f a).depth ≤ K) (hg : ∀ a, (g a).depth ≤ K) (n : Nat) (w : Writer W A) :
    (chainRun (writerFmap · f) n w).depth ≤ K ∧ (chainRun (writerBind comb · g) n w).depth ≤ K := by
  constructor
  · refine chainRun_le _ K (fun w => ?_) n w
    have := hf w.value
    simp only [writerFmap, depth_seq, depth_ret]; omega
  · refine chainRun_le _ K (fun w => ?_) n w
    have := hg w.value
    have := hc w.log (g w.value).value.log
    simp only [writerBind, depth_seq, depth_ret]; omega

example : (chainRun (writerBind (fun a b => ret (a ++ b)) · fun a => ret ⟨[a], a + 1⟩) 1000 ⟨[], 0⟩).depth ≤ 0 :=
  (c94_writer _ (fun a => ret a) _ 0 (fun _ _ => Nat.le_refl _) (fun _ => Nat.le_refl _) (fun _ => Nat.le_refl _)
    1000 _).2

/-- The closures of a pipeline step need at most `K`. -/
def PStep.Within {T E : Type} (K : Nat) : PStep T E → Prop
  | .withContext msg => msg.depth ≤ K
  | .mapError f => ∀ e, (f e).depth ≤ K
  | .recover f => ∀ e, (f e).depth ≤ K
  | .andThen f => ∀ t, (f t).depth ≤ K
  | .map f => ∀ t, (f t).depth ≤ K

/-- `ErrorPipeline`: any program of steps needs no more stack than one of its closures. -/
theorem c94_pipeline {T E : Type} (steps : List (PStep T E)) (K : Nat) (h : ∀ s ∈ steps, s.Within K)
    (p : ErrorPipeline T E) : (loop (fun p s => PStep.run p s) steps p).depth ≤ K := by
  refine loop_le _ K steps (fun p s hs => ?_) p
  have hw := h s hs
  rcases p with ⟨r, cs⟩
  cases s <;> cases r <;> simp only [PStep.Within] at hw <;>
    simp only [PStep.run, depth_seq, depth_ret, Nat.max_zero, Nat.zero_le] <;> first | exact hw | exact hw _

example : (loop (fun p s => PStep.run p s)
    (List.replicate 1000 (PStep.andThen fun t => ret (if t < 500 then .ok (t + 1) else .error t)))
    (ErrorPipeline.new (.ok 0) : ErrorPipeline Nat Nat)).depth ≤ 0 :=
  c94_pipeline _ 0 (fun s h => by rw [(List.mem_replicate.mp h).2]; exact fun _ => Nat.le_refl _) _

/-- `Maybe`, `Validated`, `Choice`: chains of `bind`. -/
theorem c94_containers (f : A → Run (Maybe A)) (g : A → Run (Validated E A)) (h : A → Run (Choice A)) (K : Nat)
    (hf : ∀ a, (f a).depth ≤ K) (hg : ∀ a, (g a).depth ≤ K) (hh : ∀ a, (h a).depth ≤ K) (n : Nat) (m : Maybe A)
    (v : Validated E A) (c : Choice A) :
    (chainRun (maybeBind · f) n m).depth ≤ K ∧ (chainRun (validatedBind · g) n v).depth ≤ K ∧
    (chainRun (choiceBind · h) n c).depth ≤ K := by
  refine ⟨chainRun_le _ K (fun m => ?_) n m, chainRun_le _ K (fun v => ?_) n v, chainRun_le _ K (fun c => ?_) n c⟩
  · cases m with
    | Just a => exact hf a
    | Nothing => exact Nat.zero_le _
  · cases v with
    | Valid a => exact hg a
    | Invalid e => exact Nat.zero_le _
  · rcases c with ⟨vs⟩
    cases vs with
    | nil => exact Nat.zero_le _
    | cons v vs =>
      have h1 := hh v
      simp only [choiceBind, depth_seq]
      rcases hv : (h v).value with ⟨ws⟩
      cases ws with
      | nil => simpa using h1
      | cons x xs =>
        have h2 := loop_le (fun (acc : List A) alt => (h alt).seq fun r => ret (acc ++ r.values)) K vs
          (fun acc y _ => by have := hh y; simp only [depth_seq, depth_ret]; omega) xs
        simp only [depth_seq, depth_ret]
        omega

example : (chainRun (choiceBind · fun a => ret ⟨[a, a + 1]⟩) 10 ⟨[0]⟩).depth ≤ 0 :=
  (c94_containers (E := Nat) (fun _ => ret .Nothing) (fun a => ret (.Valid a)) _ 0 (fun _ => Nat.le_refl _)
    (fun _ => Nat.le_refl _) (fun _ => Nat.le_refl _) 10 .Nothing (.Valid 0) ⟨[0]⟩).2.2

/-! ## The values are those of the models without depth -/

/-- Forget the depth. -/
def DState.erase (m : DState S A) : State S A := State.new fun s => some (m.fn s).value
/-- Forget the depth. -/
def DReader.erase (m : DReader E A) : Reader E A := Reader.new fun e => (m.fn e).value
/-- Forget the depth. -/
def DPredicate.erase (p : DPredicate A) : Predicate A := ⟨fun a => (p.func a).value⟩

private theorem loop_value (f : B → A → Run B) (xs : List A) (acc : B) :
    (loop f xs acc).value = xs.foldl (fun acc x => (f acc x).value) acc := by
  induction xs generalizing acc with
  | nil => rfl
  | cons x xs ih => simp only [loop, value_seq, List.foldl_cons, ih]

/-- The functions above compute what the functions of the other models compute. -/
theorem c94_values (m : DState S A) (sf : DState S (A → Run B)) (f : A → Run B) (g : A → Run (DState S B))
    (r : DReader E A) (rg : A → Run (DReader E B)) (l : E → Run E) (p q : DPredicate A) [RMonoid W]
    (w : Writer W A) (wg : A → Run (Writer W B)) (mm : Maybe A) (mg : A → Run (Maybe B)) (c : Choice A)
    (cg : A → Run (Choice B)) (a : A) :
    (m.fmap f).erase = m.erase.fmap (fun a => (f a).value) ∧
    (m.bind g).erase = m.erase.bind (fun a => (g a).value.erase) ∧
    (DState.pure a : DState S A).erase = State.pure a ∧
    ((sf.apply m).erase = (State.new fun s => some (fun a => ((sf.fn s).value.1 a).value, (sf.fn s).value.2)).apply
      m.erase) ∧
    (r.fmap f).erase = r.erase.fmap (fun a => (f a).value) ∧
    (r.bind rg).erase = r.erase.bind (fun a => (rg a).value.erase) ∧
    (r.localE l).erase = r.erase.localE (fun e => (l e).value) ∧
    (∀ a, ((p.union q).contains a).value = ((p.contains a).value || (q.contains a).value)) ∧
    (∀ a, ((p.intersection q).contains a).value = ((p.contains a).value && (q.contains a).value)) ∧
    (∀ a, (p.negate.contains a).value = !(p.contains a).value) ∧
    (writerFmap w f).value = RFunctor.fmap (fun a => (f a).value) w ∧
    (writerBind (fun a b => ret (combine a b)) w wg).value = RMonad.bind w (fun a => (wg a).value) ∧
    (maybeBind mm mg).value = RMonad.bind mm (fun a => (mg a).value) ∧
    (choiceBind c cg).value = RMonad.bind c (fun a => (cg a).value) := by
  refine ⟨rfl, rfl, rfl, rfl, rfl, rfl, rfl, fun a => ?_, fun a => ?_, fun a => rfl, rfl, rfl, ?_, ?_⟩
  · simp only [DPredicate.contains, DPredicate.union, value_call, value_seq]
    by_cases h : (p.func a).value = true <;> simp [h]
  · simp only [DPredicate.contains, DPredicate.intersection, value_call, value_seq]
    by_cases h : (p.func a).value = true <;> simp [h]
  · cases mm <;> rfl
  · rcases c with ⟨vs⟩
    cases vs with
    | nil => rfl
    | cons v vs =>
      simp only [choiceBind, RMonad.bind, Choice.bind, value_seq]
      rcases hv : (cg v).value with ⟨ws⟩
      cases ws with
      | nil => rfl
      | cons x xs => simp only [value_seq, value_ret, loop_value]

/-- The plain continuation computation with the same results. -/
def DContT.Erases (m : DContT M A) (p : RContT M A) : Prop := ∀ k, (m.fn k).value = p.runCont fun a => (k a).value

/-- `ContT`: the operations keep the relation to the plain ones. -/
theorem c94_values_cont (m : DContT M A) (p : RContT M A) (hm : m.Erases p) (f : A → Run B) (g : A → Run (DContT M B))
    (pg : A → RContT M B) (hg : ∀ a, (g a).value.Erases (pg a)) (a : A) :
    (DContT.pure a : DContT M A).Erases (RContT.pure a) ∧
    (m.fmap f).Erases (p.fmap fun a => (f a).value) ∧ (m.bind g).Erases (p.bind pg) := by
  refine ⟨fun k => rfl, fun k => ?_, fun k => ?_⟩
  · simp only [DContT.fmap, value_call]
    rw [hm]; rfl
  · simp only [DContT.bind, value_call]
    rw [hm]
    simp only [value_seq, value_call, RContT.bind, RContT.new]
    exact congrArg p.runCont (funext fun a => hg a k)

example : ((DContT.pure 3 : DContT Nat Nat).bind fun a => ret (DContT.pure (a + 1))).Erases
    ((RContT.pure 3).bind fun a => RContT.pure (a + 1)) :=
  (c94_values_cont _ _ (fun _ => rfl) (fun a => ret a) _ _ (fun _ _ => rfl) 0).2.2

/-- Forget the depth: an `IO` that touches no world. -/
def DIO.erase : DIO A → RIO Unit A
  | .Pure a => .Pure a
  | .Effect r => .Effect (Act.ret r.value)

/-- `IO`, `Validated`, function morphisms and the error pipeline: the same values as the models without depth. -/
theorem c94_values_rest (io : DIO A) (f : A → Run B) (g : A → Run (DIO B)) (v : Validated E A)
    (vg : A → Run (Validated E B)) (p : DMor A B) (q : DMor B C) (fs : List (A → Run A)) (conv : A → Run B) (x : A)
    (pl : ErrorPipeline A E) (s : PStep A E) :
    io.erase.run () = (.ok io.run.value, ()) ∧
    io.erase.fmap (fun a => Act.ret (f a).value) () = (.ok (io.fmap f).value.erase, ()) ∧
    io.erase.bind (fun a => Act.ret (g a).value.erase) () = (.ok (io.bind g).value.erase, ()) ∧
    (validatedBind v vg).value = RMonad.bind v (fun a => (vg a).value) ∧
    (((DMor.compose q p).app x).value, ()) =
      FunctionCategory.compose (fun b => Eff.ret (q.app b).value) (fun a => Eff.ret (p.app a).value) x () ∧
    (((DMor.sequence fs).app x).value, ()) = FunctionCategory.sequence (fs.map fun f a => Eff.ret (f a).value) x () ∧
    ((composeAll fs conv).app x).value = Rustica.composeAll (fun a => (conv a).value) (fs.map fun f a => (f a).value) x ∧
    (((PStep.run pl s).value, ()) = match s with
      | .withContext msg => pl.withContext (ofString msg.value) ()
      | .mapError f => pl.mapError (fun e => Eff.ret (f e).value) ()
      | .recover f => pl.recover (fun e => Eff.ret (f e).value) ()
      | .andThen f => pl.andThen (fun t => Eff.ret (f t).value) ()
      | .map f => pl.map (fun t => Eff.ret (f t).value) ()) := by
  refine ⟨?_, ?_, ?_, ?_, rfl, ?_, ?_, ?_⟩
  · cases io <;> rfl
  · cases io <;> rfl
  · cases io with
    | Pure a => rfl
    | Effect r =>
      have : (g r.value).value.erase.run = Act.ret (g r.value).value.run.value := by
        cases (g r.value).value <;> rfl
      simp only [DIO.erase, RIO.bind, Act.ret, DIO.bind, value_ret, value_seq]
      refine congrArg (fun x => (Except.ok (RIO.Effect x), ())) (funext fun w => ?_)
      exact congrFun this w
  · cases v <;> rfl
  · have : ∀ (fs : List (A → Run A)) (acc : Eff Unit A),
        ((fs.map fun f a => Eff.ret (f a).value).foldl (fun acc f => Eff.seq acc f) acc) () =
        (fs.foldl (fun acc f => (f acc).value) (acc ()).1, ()) := by
      intro fs
      induction fs with
      | nil => intro acc; rfl
      | cons f fs ih => intro acc; rw [List.map_cons, List.foldl_cons, ih]; rfl
    simp only [DMor.app, DMor.sequence, value_call, FunctionCategory.sequence, this, loop_value]; rfl
  · simp only [DMor.app, composeAll, value_call, value_seq, Rustica.composeAll, loop_value, List.foldl_map]
  · rcases pl with ⟨r, cs⟩
    cases s <;> cases r <;> rfl

/-- Forget the depth. -/
def DAsync.erase : DAsync A → AsyncM Unit A
  | .Pure a => .Pure a
  | .Effect r => .Effect (.ret r.value)

/-- `AsyncM`: the same values as the model without depth, for futures that are ready. -/
theorem c94_values_async (m : DAsync A) (f : A → Run B) (g : A → Run (DAsync B)) :
    m.erase.tryGet = .ret m.tryGet.value ∧ (m.fmap f).erase = m.erase.fmap (fun a => .ret (f a).value) ∧
    (m.bind g).erase = m.erase.bind (fun a => .ret (g a).value.erase) := by
  refine ⟨by cases m <;> rfl, by cases m <;> rfl, ?_⟩
  cases m with
  | Pure a =>
    simp only [DAsync.bind, DAsync.erase, AsyncM.bind, Fut.bind, value_seq]
    cases (g a).value <;> rfl
  | Effect r =>
    simp only [DAsync.bind, DAsync.erase, AsyncM.bind, AsyncM.runEffect, Fut.bind, value_seq, value_call]
    cases (g r.value).value <;> rfl

/-- Forget the depth. -/
def DReaderT.erase (m : DReaderT E M A) : RReaderT E M A := RReaderT.new fun e => (m.fn e).value
/-- Forget the depth. -/
def DStateT.erase (m : DStateT S M A) : RStateT S M A := RStateT.new fun s => some (m.fn s).value

/-- `ReaderT` and `StateT`: the same values as the models without depth, when the functions on the base monad look at
the values of their callbacks only. -/
theorem c94_values_transformers {N : Type} (m : DReaderT E M A) (t : DStateT S M A) (f : A → Run B) (l : E → Run E)
    (g : A → Run (DReaderT E N B)) (h : A → Run (DStateT S N B)) (mapR : M → (A → Run B) → Run M) (pmapR : M → (A → B) → M)
    (bindR : M → (A → Run N) → Run N) (pbindR : M → (A → N) → N) (mapS : M → (S × A → Run (S × B)) → Run M)
    (pmapS : M → (S × A → S × B) → M) (bindS : M → (S × A → Run N) → Run N)
    (pbindS : M → (S × A → Option N) → Option N)
    (h1 : ∀ m k, (mapR m k).value = pmapR m fun a => (k a).value)
    (h2 : ∀ m k, (bindR m k).value = pbindR m fun a => (k a).value)
    (h3 : ∀ m k, (mapS m k).value = pmapS m fun a => (k a).value)
    (h4 : ∀ m k, some (bindS m k).value = pbindS m fun a => some (k a).value) :
    (m.localE l).erase = m.erase.localE (fun e => (l e).value) ∧
    (m.fmapWith f mapR).erase = m.erase.fmapWith (fun a => (f a).value) pmapR ∧
    (m.bindWith g bindR).erase = m.erase.bindWith (fun a => (g a).value.erase) pbindR ∧
    (t.fmapWith f mapS).erase = t.erase.fmapWith (fun a => (f a).value) pmapS ∧
    (t.bindWith h bindS).erase = t.erase.bindWith (fun a => (h a).value.erase) pbindS := by
  refine ⟨rfl, ?_, ?_, ?_, ?_⟩
  · simp only [DReaderT.erase, DReaderT.fmapWith, value_seq, h1]; rfl
  · simp only [DReaderT.erase, DReaderT.bindWith, value_seq, h2]; rfl
  · simp only [DStateT.erase, DStateT.fmapWith, value_seq, h3]; rfl
  · simp only [DStateT.erase, DStateT.bindWith, value_seq, h4]; rfl

/-- With `Option` for the base monad. -/
example : ((⟨fun e => ret (some e)⟩ : DReaderT Nat (Option Nat) Nat).bindWith (B := Nat)
      (fun a => ret ⟨fun e => ret (some (a + e))⟩)
      (fun m k => match m with | some a => k a | none => ret none)).erase =
    ((⟨fun e => ret (some e)⟩ : DReaderT Nat (Option Nat) Nat).erase.bindWith
      (fun a => RReaderT.new fun e => some (a + e)) (fun m k => m.bind k)) :=
  (c94_values_transformers (B := Nat) (E := Nat) (S := Nat) (A := Nat) (M := Option Nat) (N := Option Nat) _ ⟨fun _ => ret none⟩
    (fun a => ret a) (fun e => ret e)
    (fun a => ret ⟨fun e => ret (some (a + e))⟩) (fun _ => ret ⟨fun _ => ret none⟩)
    (fun m _ => ret m) (fun m _ => m) (fun m k => match m with | some a => k a | none => ret none) _ (fun m _ => ret m)
    (fun m _ => m) (fun _ k => k (0, 0)) (fun _ k => k (0, 0)) (fun _ _ => rfl) (fun m _ => by cases m <;> rfl)
    (fun _ _ => rfl) (fun _ _ => rfl)).2.2.1

end Rustica.Depth
