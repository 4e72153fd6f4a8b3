import Verif.Spec.EnvClones
import Verif.Trans.Clones
import Verif.Trans.ReaderT
import Verif.Trans.StateT
import Verif.Theorems.CloneRest

/-!
# C104: how often the environment of a reader and the state of a state are cloned
-/

namespace Rustica
open Act (ret mapList foldList)
open Spec

namespace Clones
variable {E A B S : Type} [RClone Nat E] [RClone Nat S]

/-! ## The programs, run with the methods of the library -/

/-- With `Reader` (`reader.rs`). -/
def readerOf : {A : Type} → Ask E A → ReaderC Nat E A
  | _, .use f => .new fun e => ret (f e)
  | _, .map p f => (readerOf p).fmap fun a => ret (f a)
  | _, .andThen p f => (readerOf p).bind fun a => ret (readerOf (f a))
  | _, .under g p => (readerOf p).localE fun e => ret (g e)
  | _, .both p q f => (readerOf p).combine (readerOf q) fun a b => ret (f a b)

/-- With `ReaderT` over `Id` (`reader_t.rs`). -/
def readerTOf [RClone Nat A] : AskM E A A → ReaderTC Nat E (RId A)
  | .use f => .new fun e => ret ⟨f e⟩
  | .map p f => (readerTOf p).fmap fun a => ret (f a)
  | .andThen p f => (readerTOf p).bind fun a => ret (readerTOf (f a))
  | .under g p => (readerTOf p).localE fun e => ret (g e)
  | .both p q f => (readerTOf p).combine (readerTOf q) fun a b => ret (f a b)

/-- With `ReaderT` over `Option`. -/
def readerOptOf [RClone Nat A] : AskM E A (Option A) → ReaderTC Nat E (Option A)
  | .use f => .new fun e => ret (f e)
  | .map p f => (readerOptOf p).fmap fun a => ret (f a)
  | .andThen p f => (readerOptOf p).bind fun a => ret (readerOptOf (f a))
  | .under g p => (readerOptOf p).localE fun e => ret (g e)
  | .both p q f => (readerOptOf p).combine (readerOptOf q) fun a b => ret (f a b)

/-- With `State` (`state.rs`), where `values` clones the values; `both` is `apply` of the first, mapped to a function, to the second. -/
def stateOf (values : (A : Type) → A → Act Nat A) : {A : Type} → Carry S A → StateC Nat S A
  | A, .give a => letI : RClone Nat A := ⟨values A⟩; .pure a
  | _, .use f => .new fun s => ret (f s)
  | _, .get => .get
  | _, .put s => .put s
  | _, .modify f => .modify fun s => ret (f s)
  | _, .map p f => (stateOf values p).fmap fun a => ret (f a)
  | _, .andThen p f => (stateOf values p).bind fun a => ret (stateOf values (f a))
  | _, .both f p q => ((stateOf values p).fmap fun a => ret fun b => ret (f a b)).apply (stateOf values q)

/-! ## How many clones -/

/-- `clone` of a value counts as `c`. -/
def ClonesCost (A : Type) [RClone Nat A] (c : Nat) : Prop := ∀ a : A, Spec.Clones (clone a) a c

omit [RClone Nat S] in
theorem inner_exact (hE : CountsClones E) {A : Type} (p : Ask E A) :
    ∀ e, Spec.Clones ((readerOf p).inner.runReader e) ⟨p.value e⟩ (p.splits e) := by
  induction p with
  | use f => intro e; exact Clones.ret' _
  | map p f ih => intro e; exact Clones.seq' (ih e) (Clones.ret' _) rfl
  | andThen p f ihp ihf =>
    intro e
    exact Clones.seq' (hE e) (Clones.seq' (ihp e) (ihf _ e) rfl) (by simp only [Ask.splits]; omega)
  | under g p ih => intro e; exact ih (g e)
  | both p q f ihp ihq =>
    intro e
    exact Clones.seq' (hE e) (Clones.seq' (ihp e) (Clones.seq' (ihq e) (Clones.ret' _) rfl) rfl)
      (by simp only [Ask.splits]; omega)

omit [RClone Nat S] in
/-- C104 for `Reader`, exactly: running any program clones the environment once for each `bind` and `combine` that runs,
and nothing else. -/
theorem c104_reader_exact (hE : CountsClones E) (p : Ask E A) (e : E) :
    Spec.Clones ((readerOf p).runReader e) (p.value e) (p.splits e) :=
  Clones.seq' (inner_exact hE p e) (Clones.ret' _) rfl

/-- Meets the hypothesis: `bind` in the second part of a `combine`, two clones. -/
example : letI : RClone Nat String := counting
    (readerOf (.both (.use String.length) (.andThen (.use String.length) fun n => .use fun e : String => n + e.length)
      Nat.add)).runReader "ab" 0 = (.ok 6, 2) := rfl

omit [RClone Nat S] in
/-- C104, the usual program: `n` times `bind` after a part clones the environment `n` times. -/
theorem c104_chain_exact (hE : CountsClones E) (first next : E → Nat) (n : Nat) (e : E) :
    ∃ a, Spec.Clones ((readerOf (Ask.times (.use first) (fun _ => .use next) n)).runReader e) a n := by
  have h : ∀ n, (Ask.times (.use first) (fun _ => .use next) n).splits e = n := by
    intro n
    induction n with
    | zero => rfl
    | succ n ih => simp only [Ask.times, Ask.splits, ih]
  exact ⟨_, (h n).symm ▸ c104_reader_exact hE _ e |> fun x => by simpa only [h n] using x⟩

/-- Meets the hypothesis: five clones. -/
example : letI : RClone Nat String := counting
    ((readerOf (Ask.times (.use String.length) (fun _ => .use String.length) 5)).runReader "ab" 0).2 = 5 := rfl

omit [RClone Nat S] in
/-- C104 for `ReaderT` over `Id`, exactly: the environment is cloned three times for each `bind` and twice for each
`combine` that runs; a value is cloned once for each `fmap`, once for each `bind`, and twice, once each, for each
`combine`. -/
theorem c104_reader_t_exact [RClone Nat A] (hE : CountsClones E) {c : Nat} (hA : ClonesCost A c) (p : AskM E A A) :
    ∀ e, Spec.Clones ((readerTOf p).runReader e) ⟨p.value e⟩
      (3 * p.thens e + 2 * p.boths e + c * (p.maps e + p.thens e + 2 * p.boths e)) := by
  induction p with
  | use f => intro e; exact Clones.ret' _
  | map p f ih =>
    intro e
    exact Clones.seq' (ih e) (Clones.seq' (Clones.seq' (hA _) (Clones.ret' _) rfl) (Clones.ret' _) rfl)
      (by simp only [AskM.thens, AskM.boths, AskM.maps, Nat.mul_add, Nat.mul_one]; omega)
  | andThen p f ihp ihf =>
    intro e
    exact Clones.seq' (hE e) (Clones.seq' (ihp e) (Clones.seq' (hE e) (Clones.seq' (hA _) (Clones.seq' (Clones.ret' _)
      (Clones.seq' (hE e) (ihf _ e) rfl) rfl) rfl) rfl) rfl)
      (by simp only [AskM.thens, AskM.boths, AskM.maps, Nat.mul_add, Nat.mul_one]; omega)
  | under g p ih => intro e; exact ih (g e)
  | both p q f ihp ihq =>
    intro e
    exact Clones.seq' (hE e) (Clones.seq' (ihp e) (Clones.seq' (hE e) (Clones.seq' (ihq e)
      (Clones.seq' (Clones.seq' (hA _) (Clones.seq' (hA _) (Clones.ret' _) rfl) rfl) (Clones.ret' _) rfl) rfl) rfl) rfl)
      (by simp only [AskM.thens, AskM.boths, AskM.maps, Nat.mul_add, Nat.mul_one]; omega)

/-- Meets the hypotheses: one `bind`, three clones of the environment and one of the value. -/
example : letI : RClone Nat String := counting; letI : RClone Nat Nat := counting
    (readerTOf (.andThen (.use String.length) fun n => .use fun e : String => n + e.length)).runReader "ab" 0 =
      (.ok ⟨4⟩, 4) := rfl

omit [RClone Nat S] in
/-- C104 for `ReaderT` over `Option`, exactly: two clones of the environment for each `bind` and `combine`, one more for
each `bind` whose first part gave a value, and `combine` runs its second part even if the first gave `None`. -/
theorem c104_reader_option_exact [RClone Nat A] (hE : CountsClones E) {c : Nat} (hA : ClonesCost A c)
    (p : AskM E A (Option A)) :
    ∀ e, Spec.Clones ((readerOptOf p).runReader e) (p.valueO e) (2 * p.splitsO e + p.passed e + c * p.taken e) := by
  induction p with
  | use f => intro e; exact Clones.ret' _
  | map p f ih =>
    intro e
    refine Clones.seq' (ih e) (k := c * if (p.valueO e).isSome then 1 else 0) ?_
      (by simp only [AskM.splitsO, AskM.passed, AskM.taken, Nat.mul_add]; omega)
    simp only [AskM.valueO]
    cases p.valueO e with
    | none => exact Clones.ret' _
    | some a => exact Clones.seq' (Clones.seq' (hA _) (Clones.ret' _) rfl) (Clones.ret' _) (by simp)
  | andThen p f ihp ihf =>
    intro e
    have hp := ihp e
    simp only [AskM.splitsO, AskM.passed, AskM.taken, AskM.valueO]
    cases h : p.valueO e with
    | none =>
      rw [h] at hp
      exact Clones.seq' (hE e) (Clones.seq' hp (Clones.seq' (hE e) (Clones.ret' _) rfl) rfl) (by simp only; omega)
    | some a =>
      rw [h] at hp
      exact Clones.seq' (hE e) (Clones.seq' hp (Clones.seq' (hE e) (Clones.seq' (hA _) (Clones.seq' (Clones.ret' _)
        (Clones.seq' (hE e) (ihf _ e) rfl) rfl) rfl) rfl) rfl) (by simp only [Nat.mul_add, Nat.mul_one]; omega)
  | under g p ih => intro e; exact ih (g e)
  | both p q f ihp ihq =>
    intro e
    refine Clones.seq' (hE e) (Clones.seq' (ihp e) (Clones.seq' (hE e) (Clones.seq' (ihq e)
      (k := c * if (p.valueO e).isSome ∧ (q.valueO e).isSome then 2 else 0) ?_ rfl) rfl) rfl)
      (by simp only [AskM.splitsO, AskM.passed, AskM.taken, Nat.mul_add]; omega)
    simp only [AskM.valueO]
    cases p.valueO e with
    | none => exact Clones.ret' _
    | some a =>
      cases q.valueO e with
      | none => exact Clones.ret' _
      | some b =>
        exact Clones.seq' (Clones.seq' (hA _) (Clones.seq' (hA _) (Clones.ret' _) rfl) rfl) (Clones.ret' _) (by simp; omega)

/-- Meets the hypotheses: `combine` with `None` first still runs the `bind` after it: two clones and three. -/
example : letI : RClone Nat String := counting; letI : RClone Nat Nat := ⟨ret⟩
    (readerOptOf (.both (.use fun _ => none) (.andThen (.use fun e : String => some e.length) fun n => .use fun _ => some n)
      Nat.add)).runReader "ab" 0 = (.ok none, 5) := rfl

/-- C104 is false for `ReaderT`: one `bind` over `Id` clones the environment three times, though it goes to two readers. -/
theorem c104_reader_t_false :
    ¬ ∀ (E A : Type) [RClone Nat E] [RClone Nat A], CountsClones E → ClonesCost A 0 → ∀ (p : AskM E A A) (e : E),
      ∃ k, k ≤ p.thens e + p.boths e ∧ Spec.Clones ((readerTOf p).runReader e) ⟨p.value e⟩ k := by
  intro h
  letI : RClone Nat String := counting
  letI : RClone Nat Nat := ⟨ret⟩
  obtain ⟨k, hk, hc⟩ := h String Nat (fun _ _ => rfl) (fun _ _ => rfl)
    (.andThen (.use String.length) fun n => .use fun _ => n) "ab"
  have h1 := congrArg Prod.snd (hc 0)
  have h3 : 0 + k = 3 := h1.symm.trans rfl
  have h4 : k ≤ 1 := hk
  omega

omit [RClone Nat S] in
/-- C104 for `ReaderT`, what holds: never more than three clones of the environment for a `bind` or `combine` that runs. -/
theorem c104_reader_t_partial [RClone Nat A] (hE : CountsClones E) (hA : ClonesCost A 0) (p : AskM E A A) (e : E) :
    ∃ k, k ≤ 3 * (p.thens e + p.boths e) ∧ Spec.Clones ((readerTOf p).runReader e) ⟨p.value e⟩ k := by
  refine ⟨_, ?_, c104_reader_t_exact hE hA p e⟩
  simp only [Nat.zero_mul]
  omega

/-- Meets the hypotheses: a `combine` of two parts, two clones. -/
example : letI : RClone Nat String := counting; letI : RClone Nat Nat := ⟨ret⟩
    (readerTOf (.both (.use String.length) (.use String.length) Nat.add)).runReader "ab" 0 = (.ok ⟨4⟩, 2) := rfl

omit [RClone Nat S] in
/-- C104 for `ReaderT`, exactly when it holds: if no `bind` or `combine` runs. -/
theorem c104_reader_t_iff [RClone Nat A] (hE : CountsClones E) (hA : ClonesCost A 0) (p : AskM E A A) (e : E) :
    (∃ k, k ≤ p.thens e + p.boths e ∧ Spec.Clones ((readerTOf p).runReader e) ⟨p.value e⟩ k) ↔
      p.thens e = 0 ∧ p.boths e = 0 := by
  have hx := c104_reader_t_exact hE hA p e
  simp only [Nat.zero_mul, Nat.add_zero] at hx
  constructor
  · rintro ⟨k, hk, hc⟩
    have := (congrArg Prod.snd (hc 0)).symm.trans (congrArg Prod.snd (hx 0))
    simp only [Nat.zero_add] at this
    omega
  · rintro ⟨h1, h2⟩
    exact ⟨_, by omega, hx⟩

/-- Meets the hypotheses: `local` alone clones nothing. -/
example : letI : RClone Nat String := counting; letI : RClone Nat Nat := ⟨ret⟩
    (readerTOf (.under (· ++ "c") (.use String.length))).runReader "ab" 0 = (.ok ⟨3⟩, 0) := rfl

omit [RClone Nat S] in
/-- C104 for the methods of `ReaderT` that take the operation of the base monad: `bind_with` clones the environment twice
and once more for each call of its closure, `combine_with` twice, and each value once, `apply_with` once, `fmap_with` never. -/
theorem c104_with_exact {M N : Type} [RClone Nat A] [RClone Nat B] (hE : CountsClones E) {c : Nat} (hA : ClonesCost A c)
    (hB : ClonesCost B c) {p q : ReaderTC Nat E M} {e : E} {m m' : M} {j k : Nat} (hp : Spec.Clones (p.runReader e) m j) (hq : Spec.Clones (q.runReader e) m' k) :
    (∀ (f : A → ReaderTC Nat E N) (a : A) (b : N) (l : Nat), Spec.Clones ((f a).runReader e) b l →
      Spec.Clones ((p.bindWith (fun a => ret (f a)) fun _ g => g a).runReader e) b (j + 2 + (1 + l))) ∧
    (∀ (f : A → ReaderTC Nat E N) (b : N),
      Spec.Clones ((p.bindWith (fun a => ret (f a)) fun _ _ => ret b).runReader e) b (j + 2)) ∧
    (∀ apFn : M → M → M, Spec.Clones ((p.applyWith q fun x y => ret (apFn x y)).runReader e) (apFn m m') (j + k + 1)) ∧
    (∀ (f : A → B → M) (a : A) (b : B),
      Spec.Clones ((p.combineWith q (fun a b => ret (f a b)) fun _ _ g => g a b).runReader e) (f a b) (j + k + 2 + 2 * c)) ∧
    (∀ (f : A → B) (mapFn : M → (A → Act Nat B) → N),
      Spec.Clones ((p.fmapWith (fun a => ret (f a)) fun m g => ret (mapFn m g)).runReader e) (mapFn m fun a => ret (f a)) j) := by
  refine ⟨fun f a b l hb => ?_, fun f b => ?_, fun apFn => ?_, fun f a b => ?_, fun f mapFn => ?_⟩
  · exact Clones.seq' (hE e) (Clones.seq' hp (Clones.seq' (hE e) (Clones.seq' (Clones.ret' _) (Clones.seq' (hE e) hb rfl)
      rfl) rfl) rfl) (by omega)
  · exact Clones.seq' (hE e) (Clones.seq' hp (Clones.seq' (hE e) (Clones.ret' _) rfl) rfl) (by omega)
  · exact Clones.seq' (hE e) (Clones.seq' hp (Clones.seq' hq (Clones.ret' _) rfl) rfl) (by omega)
  · exact Clones.seq' (hE e) (Clones.seq' hp (Clones.seq' (hE e) (Clones.seq' hq (Clones.seq' (hA a) (Clones.seq' (hB b)
      (Clones.ret' _) rfl) rfl) rfl) rfl) rfl) (by omega)
  · exact Clones.seq' hp (Clones.ret' _) rfl

/-- Meets the hypotheses. -/
example : letI : RClone Nat String := counting; letI : RClone Nat Nat := ⟨ret⟩
    ((ReaderTC.new fun e : String => ret (some e.length)).applyWith (ReaderTC.new fun e : String => ret (some e.length))
      fun x _ => ret x).runReader "ab" 0 = (.ok (some 2), 1) := rfl

omit [RClone Nat E] in
/-- C104 for `State`, exactly: running any program clones the state once for each `get` and `put` that runs, and a value
once for each `pure` that runs; `bind`, `fmap`, `apply` and `modify` clone nothing. -/
theorem c104_state_exact (hS : CountsClones S) {c : Nat} (values : (A : Type) → A → Act Nat A)
    (hv : ∀ (A : Type) (a : A), Spec.Clones (values A a) a c) (p : Carry S A) :
    ∀ s, Spec.Clones ((stateOf values p).runState s) (p.value s) (p.accesses s + c * p.gives s) := by
  induction p with
  | give a => intro s; exact Clones.seq' (hv _ a) (Clones.ret' _) (by simp [Carry.accesses, Carry.gives])
  | use f => intro s; exact Clones.ret' _
  | get => intro s; exact Clones.seq' (show Spec.Clones (clone s) s 1 from hS s) (Clones.ret' _) (by simp [Carry.accesses, Carry.gives])
  | put s' => intro s; exact Clones.seq' (show Spec.Clones (clone s') s' 1 from hS s') (Clones.ret' _) (by simp [Carry.accesses, Carry.gives])
  | modify f => intro s; exact Clones.ret' _
  | map p f ih => intro s; exact Clones.seq' (ih s) (Clones.ret' _) rfl
  | andThen p f ihp ihf =>
    intro s
    exact Clones.seq' (ihp s) (ihf _ _) (by simp only [Carry.accesses, Carry.gives, Nat.mul_add]; omega)
  | both f p q ihp ihq =>
    intro s
    exact Clones.seq' (Clones.seq' (ihp s) (Clones.ret' _) rfl) (Clones.seq' (ihq _) (Clones.ret' _) rfl)
      (by simp only [Carry.accesses, Carry.gives, Nat.mul_add]; omega)

/-- Meets the hypotheses: `get`, then `put`, then `pure`: two clones of the state and one of the value. -/
example : letI : RClone Nat String := counting
    (stateOf (fun _ a n => (.ok a, n + 1)) (.andThen .get fun s => .andThen (.put (s ++ "c")) fun _ => .give s.length)).runState "ab" 0 =
      (.ok (2, "abc"), 3) := rfl

omit [RClone Nat E] in
/-- C104 for `eval_state` and `exec_state`: they clone as often as `run_state`. -/
theorem c104_eval_exact (hS : CountsClones S) {c : Nat} (values : (A : Type) → A → Act Nat A)
    (hv : ∀ (A : Type) (a : A), Spec.Clones (values A a) a c) (p : Carry S A) (s : S) :
    Spec.Clones ((stateOf values p).evalState s) (p.value s).1 (p.accesses s + c * p.gives s) ∧
    Spec.Clones ((stateOf values p).execState s) (p.value s).2 (p.accesses s + c * p.gives s) :=
  ⟨Clones.seq' (c104_state_exact hS values hv p s) (Clones.ret' _) rfl,
    Clones.seq' (c104_state_exact hS values hv p s) (Clones.ret' _) rfl⟩

/-- Meets the hypotheses. -/
example : letI : RClone Nat String := counting
    (stateOf (fun _ a => ret a) (.andThen .get fun s => .put (s ++ "c"))).execState "ab" 0 = (.ok "abc", 2) := rfl

/-! ## Agreement with the model without clones -/

/-- The program with the model of `Trans/ReaderT`. -/
def readerPlain : {A : Type} → Ask E A → Reader E A
  | _, .use f => .new f
  | _, .map p f => (readerPlain p).fmap f
  | _, .andThen p f => (readerPlain p).bind fun a => readerPlain (f a)
  | _, .under g p => (readerPlain p).localE g
  | _, .both p q f => (readerPlain p).combine (readerPlain q) f

/-- The program with the model of `Trans/StateT`. -/
def statePlain : {A : Type} → Carry S A → State S A
  | _, .give a => .pure a
  | _, .use f => .new fun s => some (f s)
  | _, .get => .get
  | _, .put s => .put s
  | _, .modify f => .modify f
  | _, .map p f => (statePlain p).fmap f
  | _, .andThen p f => (statePlain p).bind fun a => statePlain (f a)
  | _, .both f p q => ((statePlain p).fmap f).apply (statePlain q)

omit [RClone Nat E] [RClone Nat S] in
theorem reader_plain (p : Ask E A) : ∀ e, (readerPlain p).runReader e = p.value e := by
  induction p with
  | use f => intro e; rfl
  | map p f ih => intro e; exact congrArg f (ih e)
  | andThen p f ihp ihf =>
    intro e
    refine Eq.trans ?_ (ihf (p.value e) e)
    exact congrArg (fun a => (readerPlain (f a)).runReader e) (ihp e)
  | under g p ih => intro e; exact ih (g e)
  | both p q f ihp ihq =>
    intro e
    refine Eq.trans ?_ (congrArg (fun b => f (p.value e) b) (ihq e))
    exact congrArg (fun a => f a ((readerPlain q).runReader e)) (ihp e)

omit [RClone Nat E] [RClone Nat S] in
theorem runState_new (f : S → Option (A × S)) (s : S) : (State.new f).runState s = f s := by
  simp only [State.new, State.runState, RStateT.new, RStateT.runState]
  cases f s <;> rfl

omit [RClone Nat E] [RClone Nat S] in
theorem state_plain (p : Carry S A) : ∀ s, (statePlain p).runState s = some (p.value s) := by
  induction p with
  | give a => intro s; rfl
  | use f => intro s; rfl
  | get => intro s; rfl
  | put s' => intro s; rfl
  | modify f => intro s; rfl
  | map p f ih => intro s; simp only [statePlain, State.fmap, runState_new, ih s]; rfl
  | andThen p f ihp ihf => intro s; simp only [statePlain, State.bind, runState_new, ihp s]; exact ihf _ _
  | both f p q ihp ihq =>
    intro s
    simp only [statePlain, State.apply, State.fmap, runState_new, ihp s, Option.map_some, Option.bind_some, ihq]
    rfl

/-- Counted programs give what the model without clones gives, for every program. -/
theorem c104_plain (hE : CountsClones E) (hS : CountsClones S) (p : Ask E A) (q : Carry S B) (e : E) (s : S) :
    ((readerOf p).runReader e 0).1 = .ok ((readerPlain p).runReader e) ∧
    (((stateOf (fun _ a => ret a) q).runState s 0).1.toOption = (statePlain q).runState s) := by
  refine ⟨?_, ?_⟩
  · rw [c104_reader_exact hE p e 0, reader_plain]
  · rw [c104_state_exact hS (c := 0) (fun _ a => ret a) (fun _ _ _ => rfl) q s 0, state_plain]
    rfl

/-- Meets the hypotheses. -/
example : (letI : RClone Nat String := counting; ∀ s : String, CountsClones String ∧
    ((stateOf (fun _ a => ret a) (.andThen .get fun n : String => .put (n ++ "c"))).runState s 0) = (.ok ((), s ++ "c"), 2)) :=
  fun _ => ⟨fun _ _ => rfl, rfl⟩

end Clones
end Rustica
