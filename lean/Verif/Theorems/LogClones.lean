import Verif.Spec.LogClones
import Verif.Theorems.CloneRest
import Verif.Theorems.Validated

/-!
# C103: how often the entries of a log are cloned
-/

namespace Rustica
open Act (ret mapList foldList)
open Spec

namespace Clones
variable {E A B : Type} [RClone Nat E] [RClone Nat Unit]

/-! ## The programs, run with the methods of the library -/

/-- With `Writer::bind` (`writer.rs` 946-1192). -/
def bindAll : Prog E → Act Nat (Writer (List E) Unit)
  | .step es => ret ⟨es, ()⟩
  | .both p q => (bindAll p).seq fun w => bindC w fun _ => bindAll q

/-- With `Writer::bind_owned`. -/
def bindAllOwned : Prog E → Act Nat (Writer (List E) Unit)
  | .step es => ret ⟨es, ()⟩
  | .both p q => (bindAllOwned p).seq fun w => bindOwnedC w fun _ => bindAllOwned q

/-- With `Writer::lift2` (`writer.rs` 530-944). -/
def liftAll : Prog E → Act Nat (Writer (List E) Unit)
  | .step es => ret ⟨es, ()⟩
  | .both p q => (liftAll p).seq fun a => (liftAll q).seq fun b => lift2C (fun _ _ => ret ()) a b

/-- With `Writer::lift2_owned`. -/
def liftAllOwned : Prog E → Act Nat (Writer (List E) Unit)
  | .step es => ret ⟨es, ()⟩
  | .both p q => (liftAllOwned p).seq fun a => (liftAllOwned q).seq fun b => lift2OwnedC (fun _ _ => ret ()) a b

/-- Some errors, or success. -/
def errorsOrValid (es : List E) : Validated E Unit := if es.isEmpty then .Valid () else .Invalid es

/-- With `Validated::lift2` (`traits.rs` 365-530). -/
def collectAll : Prog E → Act Nat (Validated E Unit)
  | .step es => ret (errorsOrValid es)
  | .both p q => (collectAll p).seq fun a => (collectAll q).seq fun b => lift2C (fun _ _ => ret ()) a b

/-- With `Validated::lift2_owned`. -/
def collectAllOwned : Prog E → Act Nat (Validated E Unit)
  | .step es => ret (errorsOrValid es)
  | .both p q => (collectAllOwned p).seq fun a => (collectAllOwned q).seq fun b => lift2OwnedC (fun _ _ => ret ()) a b

/-- With `Semigroup::combine` of `Vec` (`semigroup.rs` 289-302). -/
def combineAll : Prog E → Act Nat (List E)
  | .step es => ret es
  | .both p q => (combineAll p).seq fun a => (combineAll q).seq fun b => combineC a b

/-! ## Facts about programs -/

omit [RClone Nat E] [RClone Nat Unit] in
theorem sum_succ (xs : List Nat) : (xs.map (· + 1)).sum = xs.sum + xs.length := by
  induction xs with
  | nil => rfl
  | cons x xs ih => simp [ih]; omega

omit [RClone Nat E] [RClone Nat Unit] in
theorem depths_length (p : Prog E) : p.depths.length = p.entries.length := by
  induction p with
  | step es => simp [Prog.depths, Prog.entries]
  | both p q hp hq => simp [Prog.depths, Prog.entries, hp, hq]

omit [RClone Nat E] [RClone Nat Unit] in
theorem depths_both (p q : Prog E) :
    (Prog.both p q).depths.sum = p.depths.sum + q.depths.sum + (p.entries.length + q.entries.length) := by
  simp only [Prog.depths, sum_succ, List.sum_append, List.length_append, depths_length]

omit [RClone Nat E] [RClone Nat Unit] in
theorem depths_step (es : List E) : (Prog.step es).depths.sum = 0 := by
  simp only [Prog.depths, sum_const]; simp

omit [RClone Nat E] [RClone Nat Unit] in
theorem EachWrites.length {p : Prog E} (h : p.EachWrites) : p.steps ≤ p.entries.length := by
  induction p with
  | step es => exact List.length_pos_iff.2 h
  | both p q hp hq => have := hp h.1; have := hq h.2; simp [Prog.steps, Prog.entries]; omega

/-! ## How many clones -/

omit [RClone Nat Unit] in
theorem combine_list (hE : CountsClones E) (xs ys : List E) :
    Spec.Clones (combineC xs ys : Act Nat (List E)) (xs ++ ys) (xs.length + ys.length) :=
  Clones.seq' (Clones.list hE xs) (Clones.seq' (Clones.list hE ys) (Clones.ret' _) rfl) rfl

/-- C103, exactly: with the methods that borrow, an entry is cloned once for each `bind`, `lift2` or `combine` it is below, whatever
the program is. -/
theorem c103_exact (hE : CountsClones E) (p : Prog E) :
    Spec.Clones (bindAll p) ⟨p.entries, ()⟩ p.depths.sum ∧ Spec.Clones (liftAll p) ⟨p.entries, ()⟩ p.depths.sum ∧
    Spec.Clones (collectAll p) (errorsOrValid p.entries) p.depths.sum ∧ Spec.Clones (combineAll p) p.entries p.depths.sum := by
  induction p with
  | step es => rw [depths_step]; exact ⟨Clones.ret' _, Clones.ret' _, Clones.ret' _, Clones.ret' _⟩
  | both p q hp hq =>
    rw [depths_both]
    obtain ⟨p1, p2, p3, p4⟩ := hp
    obtain ⟨q1, q2, q3, q4⟩ := hq
    refine ⟨?_, ?_, ?_, ?_⟩
    · exact Clones.seq' p1 (Clones.seq' q1 (Clones.seq' (combine_list hE p.entries q.entries) (Clones.ret' _) rfl) rfl) (by omega)
    · exact Clones.seq' p2 (Clones.seq' q2 (Clones.seq' (combine_list hE p.entries q.entries)
        (Clones.seq' (Clones.ret' ()) (Clones.ret' _) rfl) rfl) rfl) (by omega)
    · refine Clones.seq' p3 (Clones.seq' q3 (l := q.depths.sum + (p.entries.length + q.entries.length)) ?_ rfl) (by omega)
      simp only [Prog.entries]
      generalize p.entries = xs
      generalize q.entries = ys
      have hadd : ∀ buf zs : List E, Spec.Clones (Validated.addClonedC buf (errorsOrValid zs)) (buf ++ zs) zs.length := by
        intro buf zs
        cases zs with
        | nil => simpa [errorsOrValid, Validated.addClonedC] using Clones.ret' buf
        | cons z zs => exact Clones.seq' (Clones.list hE (z :: zs)) (Clones.ret' _) rfl
      have hboth : Spec.Clones ((Validated.addClonedC [] (errorsOrValid xs)).seq fun errors =>
          (Validated.addClonedC errors (errorsOrValid ys)).seq fun errors => ret (Validated.Invalid errors : Validated E Unit))
          (.Invalid (xs ++ ys)) (xs.length + ys.length) :=
        Clones.seq' (hadd [] xs) (Clones.seq' (hadd _ ys) (Clones.ret' _) rfl) (by simp)
      cases xs with
      | nil =>
        cases ys with
        | nil => exact Clones.ret' _
        | cons y ys => exact hboth
      | cons x xs => exact hboth
    · exact Clones.seq' p4 (Clones.seq' q4 (combine_list hE _ _) rfl) (by omega)

/-- Meets the hypothesis: the first of three entries is cloned twice, the second twice, the third once. -/
example : letI : RClone Nat String := counting; letI : RClone Nat Unit := counting
    bindAll (.both (.both (.step ["a"]) (.step ["b"])) (.step ["c"])) 0 = (.ok ⟨["a", "b", "c"], ()⟩, 5) := rfl

/-- C103 for the methods that take ownership: no entry is ever cloned, for every program and every `Clone`. -/
theorem c103_owned (p : Prog E) :
    bindAllOwned p = ret ⟨p.entries, ()⟩ ∧ liftAllOwned p = ret ⟨p.entries, ()⟩ ∧
    collectAllOwned p = ret (errorsOrValid p.entries) := by
  induction p with
  | step es => exact ⟨rfl, rfl, rfl⟩
  | both p q hp hq =>
    refine ⟨?_, ?_, ?_⟩
    · simp only [bindAllOwned, hp.1, hq.1]; rfl
    · simp only [liftAllOwned, hp.2.1, hq.2.1]; rfl
    · simp only [collectAllOwned, hp.2.2, hq.2.2, Prog.entries, Act.ret_seq]
      cases p.entries <;> cases q.entries <;> simp [errorsOrValid, lift2OwnedC, Validated.addErrors]

/-- C103, the usual programs: `n` entries one after the other are cloned `(n - 1)(n + 2) / 2` times in all, whether each is added to
all before it or the rest of the program is nested in each step. -/
theorem c103_chain_exact (hE : CountsClones E) (e : E) (es : List E) :
    (∃ c, Spec.Clones (bindAll (Prog.addEach (.step [e]) es)) ⟨e :: es, ()⟩ c ∧ 2 * c = es.length * (es.length + 3)) ∧
    (∃ c, Spec.Clones (bindAll (Prog.nest es (.step [e]))) ⟨es ++ [e], ()⟩ c ∧ 2 * c = es.length * (es.length + 3)) := by
  constructor
  · have key : ∀ (es : List E) (p : Prog E), (Prog.addEach p es).entries = p.entries ++ es ∧
        2 * (Prog.addEach p es).depths.sum = 2 * p.depths.sum + es.length * (es.length + 1 + 2 * p.entries.length) := by
      intro es
      induction es with
      | nil => intro p; simp [Prog.addEach]
      | cons e es ih =>
        intro p
        obtain ⟨h1, h2⟩ := ih (.both p (.step [e]))
        refine ⟨by rw [show Prog.addEach p (e :: es) = Prog.addEach (.both p (.step [e])) es from rfl, h1]; simp [Prog.entries], ?_⟩
        rw [show Prog.addEach p (e :: es) = Prog.addEach (.both p (.step [e])) es from rfl, h2, depths_both, depths_step]
        simp only [Prog.entries, List.length_append, List.length_cons, List.length_nil, Nat.mul_add, Nat.add_mul]
        omega
    obtain ⟨h1, h2⟩ := key es (.step [e])
    refine ⟨(Prog.addEach (.step [e]) es).depths.sum, ?_, ?_⟩
    · have := (c103_exact hE (Prog.addEach (.step [e]) es)).1
      rw [h1] at this; exact this
    · rw [h2, depths_step]; simp [Prog.entries]
  · have key : ∀ es : List E, (Prog.nest es (.step [e])).entries = es ++ [e] ∧
        2 * (Prog.nest es (.step [e])).depths.sum = es.length * (es.length + 3) := by
      intro es
      induction es with
      | nil => simp [Prog.nest, Prog.entries, depths_step]
      | cons x es ih =>
        obtain ⟨h1, h2⟩ := ih
        have hn : Prog.nest (x :: es) (.step [e]) = .both (.step [x]) (Prog.nest es (.step [e])) := rfl
        refine ⟨by rw [hn, Prog.entries, h1]; rfl, ?_⟩
        rw [hn, depths_both, depths_step, h1]
        simp only [Prog.entries, List.length_append, List.length_cons, List.length_nil, Nat.mul_add, Nat.add_mul] at h2 ⊢
        omega
    obtain ⟨h1, h2⟩ := key es
    refine ⟨_, ?_, h2⟩
    have := (c103_exact hE (Prog.nest es (.step [e]))).1
    rw [h1] at this; exact this

/-- Meets the hypothesis: a hundred entries are cloned 5049 times. -/
example : letI : RClone Nat Nat := counting; letI : RClone Nat Unit := counting
    (bindAll (Prog.addEach (.step [0]) (List.range 99)) 0).2 = 5049 := by decide +kernel

omit [RClone Nat E] [RClone Nat Unit] in
theorem steps_pos (p : Prog E) : 0 < p.steps := by
  induction p with
  | step es => exact Nat.one_pos
  | both p q hp hq => simp only [Prog.steps]; omega

omit [RClone Nat E] [RClone Nat Unit] in
theorem depths_least (p : Prog E) : p.EachWrites → ∀ k, p.steps * (k + 2) ≤ p.depths.sum + 2 ^ (k + 1) := by
  induction p with
  | step es =>
    intro _ k
    have : k + 1 < 2 ^ (k + 1) := Nat.lt_two_pow_self
    simp only [Prog.steps]; omega
  | both p q hp hq =>
    intro h k
    have h1 := EachWrites.length h.1
    have h2 := EachWrites.length h.2
    have h4 := steps_pos p
    have h5 := steps_pos q
    rw [depths_both]
    simp only [Prog.steps]
    cases k with
    | zero =>
      have := hp h.1 0
      have := hq h.2 0
      omega
    | succ k =>
      have hp := hp h.1 k
      have hq := hq h.2 k
      rw [Nat.pow_succ]
      simp only [Nat.mul_add, Nat.add_mul, Nat.mul_one] at *
      omega

/-- C103: no way of putting the steps together avoids it.  With `n` steps that each write something, at least `n * log2 n` clones
are made. -/
theorem c103_least (hE : CountsClones E) (p : Prog E) (h : p.EachWrites) :
    ∃ c, Spec.Clones (bindAll p) ⟨p.entries, ()⟩ c ∧ Spec.Clones (liftAll p) ⟨p.entries, ()⟩ c ∧
      Spec.Clones (collectAll p) (errorsOrValid p.entries) c ∧ p.steps * p.steps.log2 ≤ c := by
  obtain ⟨h1, h2, h3, _⟩ := c103_exact hE p
  refine ⟨_, h1, h2, h3, ?_⟩
  have h1 := depths_least p h p.steps.log2
  have h2 := Nat.log2_self_le (Nat.pos_iff_ne_zero.1 (steps_pos p))
  rw [Nat.pow_succ, Nat.mul_add] at h1
  omega

/-- Meets the hypotheses: eight steps, halved, make 24 clones. -/
example : letI : RClone Nat Nat := counting; letI : RClone Nat Unit := counting
    (Prog.halved 7 3).EachWrites ∧ (bindAll (Prog.halved 7 3) 0).2 = 24 :=
  ⟨by simp [Prog.halved, Prog.EachWrites], rfl⟩

/-- C103, the bound of `c103_least` is met: steps that are halved again and again make exactly `n * log2 n` clones. -/
theorem c103_halved_exact (hE : CountsClones E) (e : E) (k : Nat) :
    (Prog.halved e k).EachWrites ∧ (Prog.halved e k).steps = 2 ^ k ∧
    Spec.Clones (bindAll (Prog.halved e k)) ⟨List.replicate (2 ^ k) e, ()⟩ (2 ^ k * k) := by
  have hk : (Prog.halved e k).EachWrites ∧ (Prog.halved e k).steps = 2 ^ k ∧
      (Prog.halved e k).entries = List.replicate (2 ^ k) e ∧ (Prog.halved e k).depths.sum = 2 ^ k * k := by
    induction k with
    | zero => exact ⟨by simp [Prog.halved, Prog.EachWrites], rfl, rfl, rfl⟩
    | succ k ih =>
      obtain ⟨i1, i2, i3, i4⟩ := ih
      refine ⟨⟨i1, i1⟩, ?_, ?_, ?_⟩
      · simp only [Prog.halved, Prog.steps, i2]; rw [Nat.pow_succ]; omega
      · simp only [Prog.halved, Prog.entries, i3]
        rw [List.replicate_append_replicate]; congr 1; rw [Nat.pow_succ]; omega
      · rw [Prog.halved, depths_both, i4, i3, List.length_replicate, Nat.pow_succ]
        simp only [Nat.mul_add, Nat.mul_one]
        rw [Nat.mul_assoc, Nat.mul_comm 2 k, ← Nat.mul_assoc]
        omega
  refine ⟨hk.1, hk.2.1, ?_⟩
  have := (c103_exact hE (Prog.halved e k)).1
  rw [hk.2.2.1, hk.2.2.2] at this
  exact this

/-- Meets the hypothesis: four steps make eight clones. -/
example : letI : RClone Nat Nat := counting; letI : RClone Nat Unit := counting
    bindAll (Prog.halved 7 2) 0 = (.ok ⟨[7, 7, 7, 7], ()⟩, 8) := rfl

/-- The full C103 is false, and for every way of putting the steps together: whatever `a` and `b`, all programs of enough steps
that each write something make more than `a * n + b` clones. -/
theorem c103_linear_false (hE : CountsClones E) (a b : Nat) :
    ∃ n, ∀ p : Prog E, p.EachWrites → n ≤ p.steps →
      ∃ c, Spec.Clones (bindAll p) ⟨p.entries, ()⟩ c ∧ Spec.Clones (liftAll p) ⟨p.entries, ()⟩ c ∧
        Spec.Clones (collectAll p) (errorsOrValid p.entries) c ∧ a * p.steps + b < c := by
  refine ⟨2 ^ (a + b + 1), fun p h hn => ?_⟩
  obtain ⟨c, h1, h2, h3, h4⟩ := c103_least hE p h
  refine ⟨c, h1, h2, h3, ?_⟩
  have h0 := steps_pos p
  have hl : a + b + 1 ≤ p.steps.log2 := (Nat.le_log2 (by omega)).2 hn
  have h5 := Nat.mul_le_mul_left p.steps hl
  have h6 : b ≤ p.steps * b := Nat.le_mul_of_pos_left b h0
  rw [Nat.mul_add, Nat.mul_add, Nat.mul_one, Nat.mul_comm p.steps a] at h5
  omega

/-- Meets the hypothesis: strings that count how often they are cloned. -/
example : letI : RClone Nat String := counting; letI : RClone Nat Unit := counting
    ∃ n, ∀ p : Prog String, p.EachWrites → n ≤ p.steps → ∃ c, Spec.Clones (bindAll p) ⟨p.entries, ()⟩ c ∧ 1000 * p.steps < c := by
  letI : RClone Nat String := counting
  letI : RClone Nat Unit := counting
  obtain ⟨n, h⟩ := c103_linear_false (E := String) (fun _ _ => rfl) 1000 0
  exact ⟨n, fun p h1 h2 => let ⟨c, h3, _, _, h4⟩ := h p h1 h2; ⟨c, h3, by omega⟩⟩

/-! ## Single calls -/

omit [RClone Nat Unit] in
/-- C103: `fmap` clones the whole log, so `n` calls of it clone a log of `m` entries `n` times; `fmap_owned` never does. -/
theorem c103_fmap_exact (hE : CountsClones E) [RClone Nat A] (f : A → A) (n : Nat) (w : Writer (List E) A) :
    Spec.Clones (Act.repeatN (fun w => fmapC (fun a => ret (f a)) w) n w) ⟨w.log, Nat.repeat f n w.value⟩ (n * w.log.length) ∧
    Spec.Clones (Act.repeatN (fun w => fmapOwnedC (fun a => ret (f a)) w) n w) ⟨w.log, Nat.repeat f n w.value⟩ 0 := by
  have hrep : ∀ n a, Nat.repeat f (n + 1) a = Nat.repeat f n (f a) := by
    intro n
    induction n with
    | zero => intro a; rfl
    | succ n ih => intro a; exact congrArg f (ih a)
  induction n generalizing w with
  | zero => rw [Nat.zero_mul]; exact ⟨Clones.ret' _, Clones.ret' _⟩
  | succ n ih =>
    have h := ih ⟨w.log, f w.value⟩
    rw [hrep]
    refine ⟨Clones.seq' (a := ⟨w.log, f w.value⟩) (j := w.log.length) ?_ h.1 (by simp only [Nat.succ_mul]; omega),
      Clones.seq' (a := ⟨w.log, f w.value⟩) (j := 0) ?_ h.2 rfl⟩
    · exact Clones.seq' (Clones.list hE w.log) (Clones.seq' (Clones.ret' _) (Clones.ret' _) rfl) rfl
    · exact Clones.seq' (Clones.ret' _) (Clones.ret' _) rfl

/-- Meets the hypothesis: five calls on a log of three entries. -/
example : letI : RClone Nat String := counting; letI : RClone Nat Nat := counting
    Act.repeatN (fun w => fmapC (fun a => ret (a + 1)) w) 5 (⟨["a", "b", "c"], 0⟩ : Writer (List String) Nat) 0 =
      (.ok ⟨["a", "b", "c"], 5⟩, 15) := rfl

omit [RClone Nat Unit] in
/-- C103: `join` clones the inner log twice, once with the inner `Writer` and once to put the logs together, and the inner value;
`join_owned` clones nothing. -/
theorem c103_join_exact (hE : CountsClones E) [RClone Nat A] (hA : CountsClones A) (outer inner : List E) (a : A) :
    Spec.Clones (joinC (fun w : Writer (List E) A => ret w) (⟨outer, ⟨inner, a⟩⟩ : Writer (List E) (Writer (List E) A)))
      ⟨outer ++ inner, a⟩ (outer.length + 2 * inner.length + 1) ∧
    Spec.Clones (joinOwnedC (fun w : Writer (List E) A => ret w) (⟨outer, ⟨inner, a⟩⟩ : Writer (List E) (Writer (List E) A)))
      ⟨outer ++ inner, a⟩ 0 := by
  refine ⟨Clones.seq' (a := ⟨inner, a⟩) (j := inner.length + 1) ?_
    (Clones.seq' (Clones.ret' _) (Clones.seq' (combine_list hE outer inner) (Clones.ret' _) rfl) rfl) (by omega),
    Clones.seq' (Clones.ret' _) (Clones.seq' (Clones.ret' _) (Clones.ret' _) rfl) rfl⟩
  exact Clones.seq' (Clones.list hE inner) (Clones.seq' (fun n => hA a n) (Clones.ret' _) rfl) rfl

/-- Meets the hypotheses: one entry outside and two inside make six clones. -/
example : letI : RClone Nat String := counting; letI : RClone Nat Nat := counting
    joinC (fun w : Writer (List String) Nat => ret w)
      (⟨["a"], ⟨["b", "c"], 7⟩⟩ : Writer (List String) (Writer (List String) Nat)) 0 =
      (.ok ⟨["a", "b", "c"], 7⟩, 6) := rfl

omit [RClone Nat Unit] in
/-- C103 for `Validated::sequence`, which does it in one call: every error is cloned exactly once.  Missing: programs made of
`bind` and `lift2` (`c103_linear_false`). -/
theorem c103_sequence_partial (hE : CountsClones E) [RClone Nat A] [RClone Nat B] (values : List (Validated E A))
    (h : ∃ v ∈ values, ¬ IsV v) (g : List A → Act Nat B) :
    Spec.Clones (Validated.sequenceC values g) (.Invalid (values.flatMap errsOf)) (values.flatMap errsOf).length := by
  obtain ⟨h1, h2⟩ := not_all_valid h
  have hstep : ∀ (acc : List E) (v : Validated E A), Spec.Clones (match v with
      | .Invalid es => Validated.extendClonedC acc es
      | .Valid _ => ret acc) (acc ++ errsOf v) (errsOf v).length := by
    intro acc v
    cases v with
    | Valid a => simpa [errsOf] using Clones.ret' acc
    | Invalid es =>
      cases es with
      | nil => simpa [errsOf, Validated.extendClonedC] using Clones.ret' acc
      | cons e es => exact Clones.seq' (Clones.list hE (e :: es)) (Clones.ret' _) rfl
  have hval : ∀ (vs : List (Validated E A)) (acc : List E), vs.foldl (fun acc v => acc ++ errsOf v) acc = acc ++ vs.flatMap errsOf := by
    intro vs
    induction vs with
    | nil => intro acc; simp
    | cons v vs ih => intro acc; simp [ih]
  have hf := Clones.fold' hstep values []
  rw [hval, List.nil_append] at hf
  unfold Validated.sequenceC
  rw [h1, h2]
  simp only [Bool.false_eq_true, if_false]
  exact Clones.seq' hf (Clones.ret' _) (by simp [List.length_flatMap])

/-- Meets the hypotheses: three errors in two of three values are cloned once each. -/
example : letI : RClone Nat String := counting; letI : RClone Nat Nat := counting
    Validated.sequenceC [.Invalid ["a"], .Valid 1, .Invalid ["b", "c"]] (fun xs => ret xs.length) 0 =
      (.ok (.Invalid ["a", "b", "c"] : Validated String Nat), 3) := rfl

end Clones
end Rustica
