import Verif.Theorems.AsyncCancel
import Verif.Theorems.Access2

/-!
# Joined computations that share data (C45, C67, C101)

Two parts of a `join!` that write to one log.  Whatever the schedule, the log ends up as an interleaving of what the
two parts write, and every interleaving comes from some schedule.
-/

namespace Rustica
open AsyncM

variable {σ A B C E G L : Type}

/-- Specification: `t` is an interleaving of `l` and `r`, both kept in order. -/
inductive Interleave : List L → List L → List L → Prop
  | nil : Interleave [] [] []
  | left {l r t : List L} (x : L) : Interleave l r t → Interleave (x :: l) r (x :: t)
  | right {l r t : List L} (x : L) : Interleave l r t → Interleave l (x :: r) (x :: t)

namespace Interleave

theorem left_append (d : List L) {l r t : List L} (h : Interleave l r t) : Interleave (d ++ l) r (d ++ t) := by
  induction d with
  | nil => exact h
  | cons x d ih => exact .left x ih

theorem right_append (d : List L) {l r t : List L} (h : Interleave l r t) : Interleave l (d ++ r) (d ++ t) := by
  induction d with
  | nil => exact h
  | cons x d ih => exact .right x ih

theorem nil_left : ∀ r : List L, Interleave [] r r
  | [] => .nil
  | x :: r => .right x (nil_left r)

theorem nil_right : ∀ l : List L, Interleave l [] l
  | [] => .nil
  | x :: l => .left x (nil_right l)

theorem perm {l r t : List L} (h : Interleave l r t) : t.Perm (l ++ r) := by
  induction h with
  | nil => exact .nil
  | left x _ ih => exact ih.cons x
  | right x _ ih => exact (ih.cons x).trans List.perm_middle.symm

theorem sublist {l r t : List L} (h : Interleave l r t) : l.Sublist t ∧ r.Sublist t := by
  induction h with
  | nil => exact ⟨.slnil, .slnil⟩
  | left x _ ih => exact ⟨ih.1.cons_cons x, ih.2.cons x⟩
  | right x _ ih => exact ⟨ih.1.cons x, ih.2.cons_cons x⟩

end Interleave

namespace Fut

/-- Specification: whatever other code writes in between, the future only adds entries to the log; the entries it adds,
in order, have the property `T`, and it returns `a`. -/
inductive Writes : (List L → Prop) → A → Fut (List L) A → Prop
  | ret {T : List L → Prop} (a : A) : T [] → Writes T a (.ret a)
  | step {T : List L → Prop} {d : List L → List L} {a : A} {upd : List L → List L} {k : List L → Fut (List L) A} :
      (∀ w, upd w = w ++ d w) → (∀ w, Writes (fun t => T (d w ++ t)) a (k w)) → Writes T a (.step upd k)

theorem Writes.mono {T U : List L → Prop} {a : A} {x : Fut (List L) A} (h : Writes T a x) (hTU : ∀ t, T t → U t) :
    Writes U a x := by
  induction h generalizing U with
  | ret a h => exact .ret a (hTU _ h)
  | step hu _ ih => exact .step hu fun w => ih w fun t => hTU _

/-- The future that writes the entries `l` one by one, each in a segment of its own, and returns `a`. -/
def writer (l : List L) (a : A) : Fut (List L) A :=
  l.foldr (fun e k => .step (· ++ [e]) fun _ => k) (.ret a)

theorem writer_writes (l : List L) (a : A) : Writes (· = l) a (writer l a) := by
  induction l with
  | nil => exact .ret a rfl
  | cons e l ih => exact .step (d := fun _ => [e]) (fun _ => rfl) fun _ => ih.mono fun t h => by rw [h]; rfl

theorem Writes.run {T : List L → Prop} {a : A} {x : Fut (List L) A} (h : Writes T a x) (w : List L) :
    ∃ t, T t ∧ x.run w = (.ok a, w ++ t) := by
  induction h generalizing w with
  | ret a h => exact ⟨[], h, by simp [Fut.run]⟩
  | @step T d a upd k hu _ ih =>
    obtain ⟨t, ht, e⟩ := ih w (upd w)
    refine ⟨d w ++ t, ht, ?_⟩
    show (k w).run (upd w) = _
    rw [e, hu, List.append_assoc]

theorem Writes.map {T : List L → Prop} {a : A} {x : Fut (List L) A} (h : Writes T a x) (f : A → B) :
    Writes T (f a) (x.bind fun a => .ret (f a)) := by
  induction h with
  | ret a h => exact .ret _ h
  | step hu _ ih => exact .step hu ih

theorem Writes.join {T U : List L → Prop} {a : A} {b : B} {x : Fut (List L) A} {y : Fut (List L) B}
    (hx : Writes T a x) (hy : Writes U b y) (s : List Bool) :
    Writes (fun t => ∃ l r, T l ∧ U r ∧ Interleave l r t) (a, b) (x.join y s) := by
  induction hx generalizing U y s with
  | ret a h => exact (hy.map fun b => (a, b)).mono fun t ht => ⟨[], t, h, ht, Interleave.nil_left t⟩
  | @step T d a upd k hu _ ih =>
    show Writes _ _ (joinStep upd (fun w => Fut.join (k w)) y s)
    have go : ∀ (s : List Bool) (y : Fut (List L) B), Writes U b y → Writes
        (fun t => ∃ l r, T l ∧ U r ∧ Interleave l r t) (a, b) (.step upd fun w => (k w).join y s) :=
      fun s y hy => .step hu fun w => (ih w hy s).mono fun t ⟨l, r, hl, hr, ht⟩ =>
        ⟨d w ++ l, r, hl, hr, ht.left_append (d w)⟩
    induction s generalizing U y with
    | nil => cases y <;> exact go [] _ hy
    | cons c s ihs =>
      cases c with
      | false => cases y <;> exact go s _ hy
      | true =>
        cases hy with
        | ret b h => exact go s (.ret b) (.ret b h)
        | @step _ d' _ upd' k' hu' hk =>
          refine .step hu' fun w => ?_
          refine (ihs (hk w) fun s y hy => .step hu fun v => (ih v hy s).mono fun t ⟨l, r, hl, hr, ht⟩ =>
            ⟨d v ++ l, r, hl, hr, ht.left_append (d v)⟩).mono fun t ⟨l, r, hl, hr, ht⟩ => ?_
          exact ⟨l, d' w ++ r, hl, hr, ht.right_append (d' w)⟩

theorem join_run {T U : List L → Prop} {a : A} {b : B} {x : Fut (List L) A} {y : Fut (List L) B} (hx : Writes T a x)
    (hy : Writes U b y) (s : List Bool) (w : List L) :
    ∃ l r t, T l ∧ U r ∧ Interleave l r t ∧ (x.join y s).run w = (.ok (a, b), w ++ t) := by
  obtain ⟨t, ⟨l, r, hl, hr, ht⟩, e⟩ := (hx.join hy s).run w
  exact ⟨l, r, t, hl, hr, ht, e⟩

theorem join_reaches {l r t : List L} (h : Interleave l r t) (a : A) (b : B) :
    ∃ s, ∀ w, ((writer l a).join (writer r b) s).run w = (.ok (a, b), w ++ t) := by
  induction h with
  | nil => exact ⟨[], fun w => by simp [writer, Fut.join, Fut.bind, Fut.run]⟩
  | @left l r t x h ih =>
    obtain ⟨s, hs⟩ := ih
    refine ⟨false :: s, fun w => ?_⟩
    have e : ((writer (x :: l) a).join (writer r b) (false :: s)).run w
        = ((writer l a).join (writer r b) s).run (w ++ [x]) := by
      show (joinStep (· ++ [x]) (fun _ => Fut.join (writer l a)) (writer r b) (false :: s)).run w = _
      cases r <;> rfl
    rw [e, hs, List.append_assoc]; rfl
  | @right l r t x h ih =>
    obtain ⟨s, hs⟩ := ih
    refine ⟨true :: s, fun w => ?_⟩
    have e : ((writer l a).join (writer (x :: r) b) (true :: s)).run w
        = ((writer l a).join (writer r b) s).run (w ++ [x]) := by
      cases l with
      | nil => rfl
      | cons y l => rfl
    rw [e, hs, List.append_assoc]; rfl

end Fut

/-- Two parts that write to one log, joined by `zip_with`, `apply` or `apply_owned`: under every schedule the log gets
an interleaving of the entries of the two parts, each part's in its order, and then what the function writes; the value
does not depend on the schedule. -/
theorem c45_shared_log (s : List Bool) (x : Fut (List L) A) (y : Fut (List L) B)
    (z : Fut (List L) (A → Act (List L) C)) (T U V : List L → Prop) (u : List L) (a : A) (b : B) (c : C)
    (f : A → B → Act (List L) C) (g : A → Act (List L) C) (hx : x.Writes T a) (hy : y.Writes U b) (hz : z.Writes V g)
    (hf : ∀ w, f a b w = (.ok c, w ++ u)) (hg : ∀ w, g a w = (.ok c, w ++ u)) (w : List L) :
    (∃ l r t, T l ∧ U r ∧ Interleave l r t ∧
      (((AsyncM.new x).zipWith s (AsyncM.new y) f).seq fun m => m.tryGet.run) w = (.ok c, w ++ t ++ u)) ∧
    (∃ l r t, T l ∧ V r ∧ Interleave l r t ∧
      (((AsyncM.new x).apply s (AsyncM.new z)).seq fun m => m.tryGet.run) w = (.ok c, w ++ t ++ u)) ∧
    (∃ l r t, T l ∧ V r ∧ Interleave l r t ∧
      ((AsyncM.new x).applyOwned s (AsyncM.new z)).tryGet.run w = (.ok c, w ++ t ++ u)) := by
  have hz' : ∃ l r t, T l ∧ V r ∧ Interleave l r t ∧
      ((x.join z s).bind fun p => Fut.ofAct (p.2 p.1)).run w = (.ok c, w ++ t ++ u) := by
    obtain ⟨l, r, t, hl, hr, ht, e⟩ := Fut.join_run hx hz s w
    refine ⟨l, r, t, hl, hr, ht, ?_⟩
    rw [Fut.run_bind]
    simp only [Act.seq, e, Fut.run_ofAct, hg]
  refine ⟨?_, hz', hz'⟩
  obtain ⟨l, r, t, hl, hr, ht, e⟩ := Fut.join_run hx hy s w
  refine ⟨l, r, t, hl, hr, ht, ?_⟩
  show ((x.join y s).bind fun p => Fut.ofAct (f p.1 p.2)).run w = _
  rw [Fut.run_bind]
  simp only [Act.seq, e, Fut.run_ofAct, hf]

/-- Not vacuous: two parts that write two entries each and a function that writes one. -/
example : (((AsyncM.new (Fut.writer [1, 2] 5)).zipWith [false, true, true] (AsyncM.new (Fut.writer [3, 4] 6))
      fun a b w => (.ok (a + b), w ++ [9])).seq fun m => m.tryGet.run) [0]
    = (.ok 11, [0] ++ [1, 3, 4, 2] ++ [9]) := rfl

/-- Exactly the interleavings: for parts that write their entries one by one, a log is the result of some schedule if
and only if it is an interleaving. -/
theorem c45_shared_iff (l r t w : List L) (a : A) (b : B) :
    (∃ s, (((AsyncM.new (Fut.writer l a)).zip s (AsyncM.new (Fut.writer r b))).seq fun m => m.tryGet.run) w
      = (.ok (a, b), w ++ t)) ↔ Interleave l r t := by
  have key : ∀ s, ∃ t, Interleave l r t ∧ ((Fut.writer l a).join (Fut.writer r b) s).run w = (.ok (a, b), w ++ t) := by
    intro s
    obtain ⟨l', r', t, hl, hr, ht, e⟩ := Fut.join_run (Fut.writer_writes l a) (Fut.writer_writes r b) s w
    exact ⟨t, by rw [← hl, ← hr]; exact ht, e⟩
  have e : ∀ s, (((AsyncM.new (Fut.writer l a)).zip s (AsyncM.new (Fut.writer r b))).seq fun m => m.tryGet.run) w
      = ((Fut.writer l a).join (Fut.writer r b) s).run w := by
    intro s
    show (((Fut.writer l a).join (Fut.writer r b) s).bind fun p => Fut.ofAct (Act.ret (p.1, p.2))).run w = _
    rw [Fut.run_bind]
    obtain ⟨t, _, e⟩ := key s
    simp only [Act.seq, e, Fut.run_ofAct, Act.ret]
  constructor
  · rintro ⟨s, hs⟩
    obtain ⟨t', ht, e'⟩ := key s
    rw [e, e'] at hs
    injection hs with _ h2
    rw [List.append_cancel_left h2] at ht
    exact ht
  · intro h
    obtain ⟨s, hs⟩ := Fut.join_reaches h a b
    exact ⟨s, by rw [e, hs]⟩

/-- Both sides occur: `[3, 1, 2]` is an interleaving of `[1, 2]` and `[3]`, `[2, 1, 3]` is not. -/
example : Interleave [1, 2] [3] [3, 1, 2] ∧ ¬ Interleave [1, 2] [3] [2, 1, 3] :=
  ⟨.right 3 (.left 1 (.left 2 .nil)), fun h => by cases h⟩

/-! ## `join_all` -/

theorem joinAll_writes {T : E → List L → Prop} {f : E → Fut (List L) G} {g : E → G}
    (h : ∀ e, (f e).Writes (T e) (g e)) (es : List E) (ss : List (List Bool)) :
    (joinAll (es.map f) ss).Writes (fun t => ∃ ls, List.Forall₂ T es ls ∧ t.Perm ls.flatten ∧ ∀ l ∈ ls, l.Sublist t)
      (es.map g) := by
  induction es generalizing ss with
  | nil => exact .ret _ ⟨[], .nil, .nil, fun l h => absurd h List.not_mem_nil⟩
  | cons e es ih =>
    refine (((h e).join (ih ss.tail) (ss.headD [])).map fun p => p.1 :: p.2).mono ?_
    rintro t ⟨l, r, hl, ⟨ls, h1, h2, h3⟩, ht⟩
    refine ⟨l :: ls, .cons hl h1, ht.perm.trans (h2.append_left l), fun l' hl' => ?_⟩
    rcases List.mem_cons.mp hl' with rfl | hl'
    · exact ht.sublist.1
    · exact (h3 l' hl').trans ht.sublist.2

/-- `fmap_invalid_async` with a function that writes to a log: for every interleaving the results are those of the
synchronous map, in order, and the log gets the entries of all calls, each call's entries once and in their order. -/
theorem c67_shared_log (T : E → List L → Prop) (f : E → Fut (List L) G) (g : E → G)
    (h : ∀ e, (f e).Writes (T e) (g e)) (es : List E) (ss : List (List Bool)) (w : List L) :
    ∃ t ls, List.Forall₂ T es ls ∧ t.Perm ls.flatten ∧ (∀ l ∈ ls, l.Sublist t) ∧
      ((Validated.Invalid es : Validated E A).fmapInvalidAsync ss f).run w
        = (.ok ((Validated.Invalid es : Validated E A).fmapInvalid g), w ++ t) := by
  obtain ⟨t, ⟨ls, h1, h2, h3⟩, e⟩ := ((joinAll_writes h es ss).map fun r => (Validated.Invalid r : Validated G A)).run w
  exact ⟨t, ls, h1, h2, h3, e⟩

/-- Not vacuous: three calls that write two entries each, interleaved. -/
example : (∀ e : Nat, (Fut.writer [e, e + 1] (e * 2)).Writes (· = [e, e + 1]) (e * 2)) ∧
    ((Validated.Invalid [10, 20, 30] : Validated Nat Nat).fmapInvalidAsync [[true, false], [true, true]]
      fun e => Fut.writer [e, e + 1] (e * 2)).run [0]
    = (.ok (.Invalid [20, 40, 60]), [0] ++ [30, 10, 11, 31, 20, 21]) :=
  ⟨fun _ => Fut.writer_writes _ _, rfl⟩

theorem joinAll_crashes (f : E → Fut σ G) (g : E → G) (p : Panic) (e : E) (pre post : List E)
    (h : ∀ e' ∈ pre ++ post, Fut.Settles (f e') (g e')) (he : Fut.Crashes (f e) p) (ss : List (List Bool)) :
    Fut.Crashes (joinAll ((pre ++ e :: post).map f) ss) p := by
  have all : ∀ (l : List E) (_ : ∀ e' ∈ l, Fut.Settles (f e') (g e')) (ss : List (List Bool)),
      Fut.Settles (joinAll (l.map f) ss) (l.map g) := by
    intro l hl ss
    refine joinAll_settles _ _ ?_ ss
    induction l with
    | nil => exact .nil
    | cons a l ih => exact .cons (hl a (List.mem_cons_self ..)) (ih fun e' h' => hl e' (List.mem_cons_of_mem _ h'))
  induction pre generalizing ss with
  | nil => exact (he.join_left (all post h ss.tail) _).bind _
  | cons a pre ih =>
    refine (Fut.Crashes.join_right (h a (List.mem_cons_self ..)) (ih (fun e' h' => ?_) ss.tail) _).bind _
    exact h e' (List.mem_cons_of_mem _ h')

/-- `fmap_invalid_async` when one call of the function panics and the others do not: the whole map panics with that
panic, for every interleaving; so do `fmap_valid_async` and `and_then_async` when theirs does. -/
theorem c67_panics (f : E → Fut σ G) (g : E → G) (p : Panic) (e : E) (pre post : List E) (a : A) (fv : A → Fut σ B)
    (fw : A → Fut σ (Validated E B)) (ss : List (List Bool)) (h : ∀ e' ∈ pre ++ post, Fut.Settles (f e') (g e'))
    (he : Fut.Crashes (f e) p) (hv : Fut.Crashes (fv a) p) (hw : Fut.Crashes (fw a) p) :
    Fut.Crashes ((Validated.Invalid (pre ++ e :: post) : Validated E A).fmapInvalidAsync ss f) p ∧
    Fut.Crashes ((Validated.Valid a : Validated E A).fmapValidAsync fv) p ∧
    Fut.Crashes ((Validated.Valid a : Validated E A).andThenAsync fw) p :=
  ⟨(joinAll_crashes f g p e pre post h he ss).bind _, hv.bind _, hw⟩

/-- Not vacuous: of three calls the second panics. -/
example : Fut.Crashes ((Validated.Invalid ([1] ++ 2 :: [3]) : Validated Nat Nat).fmapInvalidAsync [[true]]
      fun e => .step (fun w : List Nat => w ++ [e]) fun _ => if e = 2 then .panic .other else .ret e) .other :=
  (c67_panics (B := Nat) _ id .other 2 [1] [3] 0 (fun _ => .panic .other) (fun _ => .panic .other) [[true]]
    (fun e' h => .step fun _ => by
      have : e' ≠ 2 := by rintro rfl; simp at h
      rw [if_neg this]; exact .ret _)
    (.step fun _ => .panic _) (.panic _) (.panic _)).1

/-- The asynchronous maps of `Validated`, dropped early: if every segment of the function's futures only adds to the
world, what a shorter run leaves is contained in what a longer one leaves, and nothing happens before the first
segment. -/
theorem c101_validated (R : σ → σ → Prop) (hr : ∀ w, R w w) (ht : ∀ u v w, R u v → R v w → R u w)
    (v : Validated E A) (ss : List (List Bool)) (f : E → Fut σ G) (fv : A → Fut σ B) (fw : A → Fut σ (Validated E B))
    (hf : ∀ e, Fut.Only R (fun _ => True) (f e)) (hv : ∀ a, Fut.Only R (fun _ => True) (fv a))
    (hw : ∀ a, Fut.Only R (fun _ => True) (fw a)) (i j : Nat) (hij : i ≤ j) (w : σ) :
    let grows {D : Type} (x : Fut σ D) : Prop :=
      x.segments 0 w = w ∧ R (x.segments i w) (x.segments j w) ∧ R (x.segments i w) (x.run w).2
    grows (v.fmapInvalidAsync ss f) ∧ grows (v.fmapValidAsync fv) ∧ grows (v.andThenAsync fw) := by
  intro grows
  have key : ∀ {D : Type} (x : Fut σ D), Fut.Only R (fun _ => True) x → grows x := by
    intro D x h
    refine ⟨rfl, h.mono hr ht w i j hij, ?_⟩
    have e := Fut.segments_all x w (max i (x.count w)) (Nat.le_max_right _ _)
    rw [← e]
    exact h.mono hr ht w i _ (Nat.le_max_left _ _)
  have all : ∀ (es : List E) (ss : List (List Bool)), Fut.Only R (fun _ => True) (joinAll (es.map f) ss) := by
    intro es
    induction es with
    | nil => intro ss; exact .ret trivial
    | cons e es ih =>
      intro ss
      exact Fut.Only.bind (Fut.Only.join (hf e) (ih ss.tail) _) fun _ _ => .ret trivial
  cases v with
  | Valid a =>
    exact ⟨key _ (.ret trivial), key _ (Fut.Only.bind (hv a) fun _ _ => .ret trivial), key _ (hw a)⟩
  | Invalid es =>
    exact ⟨key _ (Fut.Only.bind (all es ss) fun _ _ => .ret trivial), key _ (.ret trivial), key _ (.ret trivial)⟩

/-- Not vacuous: two calls that write twice each; dropped after three segments. -/
example : ((Validated.Invalid [10, 20] : Validated Nat Nat).fmapInvalidAsync [[true, false]]
      fun e => Fut.writer [e, e + 1] e).segments 3 [] = [20, 10, 11] ∧
    Fut.Only (· <+: ·) (fun _ => True) (Fut.writer [1, 2] 5) :=
  ⟨rfl, .step (fun w => List.prefix_append w _) fun _ => .step (fun w => List.prefix_append w _) fun _ => .ret trivial⟩

end Rustica
