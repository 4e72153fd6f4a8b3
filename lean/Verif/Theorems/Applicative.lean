import Verif.Theorems.Functor

/-!
# C24: applicative laws
-/

namespace Rustica

theorem c24_option : ApplicativeLaws Option where
  identity := by intro A v; cases v <;> rfl
  homomorphism := fun _ _ => rfl
  interchange := by intro A B u a; cases u <;> rfl
  composition := by intro A B C u v w; cases u <;> cases v <;> cases w <;> rfl
  fmap_eq := by intro A B f x; cases x <;> rfl
  lift2_eq := by intro A B C f a b; cases a <;> cases b <;> rfl
  lift3_eq := by intro A B C D f a b c; cases a <;> cases b <;> cases c <;> rfl
  seq_right := by intro A B a b; cases a <;> cases b <;> rfl
  seq_left := by intro A B a b; cases a <;> cases b <;> rfl
  pure_owned := fun _ => rfl
  apply_owned := by intro A B u v; cases u <;> cases v <;> rfl
  lift2_owned := by intro A B C f a b; cases a <;> cases b <;> rfl
  lift3_owned := by intro A B C D f a b c; cases a <;> cases b <;> cases c <;> rfl
  seq_owned := by intro A B a b; cases a <;> cases b <;> exact ⟨rfl, rfl⟩

theorem c24_result {E : Type} : ApplicativeLaws (Except E) where
  identity := by intro A v; cases v <;> rfl
  homomorphism := fun _ _ => rfl
  interchange := by intro A B u a; cases u <;> rfl
  composition := by intro A B C u v w; cases u <;> cases v <;> cases w <;> rfl
  fmap_eq := by intro A B f x; cases x <;> rfl
  lift2_eq := by intro A B C f a b; cases a <;> cases b <;> rfl
  lift3_eq := by intro A B C D f a b c; cases a <;> cases b <;> cases c <;> rfl
  seq_right := by intro A B a b; cases a <;> cases b <;> rfl
  seq_left := by intro A B a b; cases a <;> cases b <;> rfl
  pure_owned := fun _ => rfl
  apply_owned := by intro A B u v; cases u <;> cases v <;> rfl
  lift2_owned := by intro A B C f a b; cases a <;> cases b <;> rfl
  lift3_owned := by intro A B C D f a b c; cases a <;> cases b <;> cases c <;> rfl
  seq_owned := by intro A B a b; cases a <;> cases b <;> exact ⟨rfl, rfl⟩

theorem c24_maybe : ApplicativeLaws Maybe where
  identity := by intro A v; cases v <;> rfl
  homomorphism := fun _ _ => rfl
  interchange := by intro A B u a; cases u <;> rfl
  composition := by intro A B C u v w; cases u <;> cases v <;> cases w <;> rfl
  fmap_eq := by intro A B f x; cases x <;> rfl
  lift2_eq := by intro A B C f a b; cases a <;> cases b <;> rfl
  lift3_eq := by intro A B C D f a b c; cases a <;> cases b <;> cases c <;> rfl
  seq_right := by intro A B a b; cases a <;> cases b <;> rfl
  seq_left := by intro A B a b; cases a <;> cases b <;> rfl
  pure_owned := fun _ => rfl
  apply_owned := by intro A B u v; cases u <;> cases v <;> rfl
  lift2_owned := by intro A B C f a b; cases a <;> cases b <;> rfl
  lift3_owned := by intro A B C D f a b c; cases a <;> cases b <;> cases c <;> rfl
  seq_owned := by intro A B a b; cases a <;> cases b <;> exact ⟨rfl, rfl⟩

theorem c24_either {L : Type} : ApplicativeLaws (Either L) where
  identity := by intro A v; cases v <;> rfl
  homomorphism := fun _ _ => rfl
  interchange := by intro A B u a; cases u <;> rfl
  composition := by intro A B C u v w; cases u <;> cases v <;> cases w <;> rfl
  fmap_eq := by intro A B f x; cases x <;> rfl
  lift2_eq := by intro A B C f a b; cases a <;> cases b <;> rfl
  lift3_eq := by intro A B C D f a b c; cases a <;> cases b <;> cases c <;> rfl
  seq_right := by intro A B a b; cases a <;> cases b <;> rfl
  seq_left := by intro A B a b; cases a <;> cases b <;> rfl
  pure_owned := fun _ => rfl
  apply_owned := by intro A B u v; cases u <;> cases v <;> rfl
  lift2_owned := by intro A B C f a b; cases a <;> cases b <;> rfl
  lift3_owned := by intro A B C D f a b c; cases a <;> cases b <;> cases c <;> rfl
  seq_owned := by intro A B a b; cases a <;> cases b <;> exact ⟨rfl, rfl⟩

theorem c24_id : ApplicativeLaws RId where
  identity := fun _ => rfl
  homomorphism := fun _ _ => rfl
  interchange := fun _ _ => rfl
  composition := fun _ _ _ => rfl
  fmap_eq := fun _ _ => rfl
  lift2_eq := fun _ _ _ => rfl
  lift3_eq := fun _ _ _ _ => rfl
  seq_right := fun _ _ => rfl
  seq_left := fun _ _ => rfl
  pure_owned := fun _ => rfl
  apply_owned := fun _ _ => rfl
  lift2_owned := fun _ _ _ => rfl
  lift3_owned := fun _ _ _ _ => rfl
  seq_owned := fun _ _ => ⟨rfl, rfl⟩

theorem c24_validated {E : Type} : ApplicativeLaws (Validated E) where
  identity := by intro A v; cases v <;> rfl
  homomorphism := fun _ _ => rfl
  interchange := by intro A B u a; cases u <;> rfl
  composition := by
    intro A B C u v w
    cases u <;> cases v <;> cases w <;> simp [RApplicative.apply, RPure.pure]
  fmap_eq := by intro A B f x; cases x <;> rfl
  lift2_eq := by
    intro A B C f a b
    cases a <;> cases b <;> simp [RApplicative.apply, RPure.pure, RApplicative.lift2, Validated.addErrors]
  lift3_eq := by
    intro A B C D f a b c
    cases a <;> cases b <;> cases c <;>
      simp [RApplicative.apply, RPure.pure, RApplicative.lift3, Validated.addErrors]
  seq_right := by
    intro A B a b
    cases a <;> cases b <;>
      simp [RApplicative.apply, RPure.pure, sequenceRight, RApplicative.lift2, Validated.addErrors]
  seq_left := by
    intro A B a b
    cases a <;> cases b <;>
      simp [RApplicative.apply, RPure.pure, sequenceLeft, RApplicative.lift2, Validated.addErrors]
  pure_owned := fun _ => rfl
  apply_owned := by
    intro A B u v
    cases u <;> cases v <;> simp [RApplicative.apply, RApplicative.applyOwned, Validated.addErrors]
  lift2_owned := by
    intro A B C f a b
    cases a <;> cases b <;> rfl
  lift3_owned := by
    intro A B C D f a b c
    cases a <;> cases b <;> cases c <;>
      simp [RApplicative.lift3, RApplicative.lift3Owned, Validated.addErrors]
  seq_owned := by intro A B a b; cases a <;> cases b <;> exact ⟨rfl, rfl⟩

section vec
variable {A B C D : Type}

theorem foldl_push (f : A → B) (xs : List A) (acc : List B) :
    xs.foldl (fun r x => r ++ [f x]) acc = acc ++ xs.map f := by
  induction xs generalizing acc with
  | nil => simp
  | cons x xs ih => rw [List.foldl_cons, ih]; simp

theorem vecLoop_eq (f : A → B → C) (xs : List A) (ys : List B) :
    vecLoop f xs ys = xs.flatMap (fun a => ys.map (f a)) := by
  unfold vecLoop
  simp only [foldl_push, Choice.foldl_append_flatMap, List.nil_append]

theorem vecLoop3_eq (f : A → B → C → D) (xs : List A) (ys : List B) (zs : List C) :
    vecLoop3 f xs ys zs = xs.flatMap (fun a => ys.flatMap (fun b => zs.map (f a b))) := by
  unfold vecLoop3
  simp only [foldl_push, Choice.foldl_append_flatMap, List.nil_append]

theorem vec_lift3_eq (f : A → B → C → D) (xs : List A) (ys : List B) (zs : List C) :
    RApplicative.lift3 f xs ys zs = xs.flatMap (fun a => ys.flatMap (fun b => zs.map (f a b))) := by
  show List.foldl _ _ _ = _
  rw [foldl_push (fun abc : (A × B) × C => f abc.1.1 abc.1.2 abc.2)]
  simp [List.map_flatMap, List.flatMap_map, List.flatMap_assoc, Function.comp_def]
end vec

theorem c24_vec : ApplicativeLaws List where
  identity := by
    intro A v
    show vecLoop _ _ _ = _
    simp [vecLoop_eq, RPure.pure]
  homomorphism := fun _ _ => rfl
  interchange := by
    intro A B u a
    show vecLoop _ _ _ = vecLoop _ _ _
    simp [vecLoop_eq, RPure.pure, List.map_eq_flatMap]
  composition := by
    intro A B C u v w
    show vecLoop _ (vecLoop _ (vecLoop _ _ _) _) _ = vecLoop _ _ (vecLoop _ _ _)
    simp [vecLoop_eq, RPure.pure, List.flatMap_assoc, List.flatMap_map, List.map_flatMap, Function.comp_def]
  fmap_eq := by
    intro A B f x
    show _ = vecLoop _ _ _
    simp [vecLoop_eq, RPure.pure, RFunctor.fmap]
  lift2_eq := by
    intro A B C f a b
    show vecLoop _ _ _ = vecLoop _ (vecLoop _ _ _) _
    simp [vecLoop_eq, RPure.pure, List.flatMap_map]
  lift3_eq := by
    intro A B C D f a b c
    rw [vec_lift3_eq]
    show _ = vecLoop _ (vecLoop _ (vecLoop _ _ _) _) _
    simp [vecLoop_eq, RPure.pure, List.flatMap_assoc, List.flatMap_map]
  seq_right := by
    intro A B a b
    show vecLoop _ _ _ = vecLoop _ (vecLoop _ _ _) _
    simp [vecLoop_eq, RPure.pure, List.flatMap_map]
  seq_left := by
    intro A B a b
    show vecLoop _ _ _ = vecLoop _ (vecLoop _ _ _) _
    simp [vecLoop_eq, RPure.pure, List.flatMap_map]
  pure_owned := fun _ => rfl
  apply_owned := fun _ _ => rfl
  lift2_owned := fun _ _ _ => rfl
  lift3_owned := by
    intro A B C D f a b c
    rw [vec_lift3_eq]
    exact vecLoop3_eq f a b c
  seq_owned := fun _ _ => ⟨rfl, rfl⟩

/-- `Writer`, for every lawful log monoid. -/
theorem c24_writer {W : Type} [RMonoid W] (hs : SemigroupLaw W) (hm : MonoidLaw W) (ho : OwnedAgrees W) :
    ApplicativeLaws (Writer W) where
  identity := by intro A v; simp [RApplicative.apply, RPure.pure, (hm v.log).1]
  homomorphism := by intro A B f a; simp [RApplicative.apply, RPure.pure, (hm _).1]
  interchange := by intro A B u a; simp [RApplicative.apply, RPure.pure, (hm _).1, (hm _).2]
  composition := by intro A B C u v w; simp [RApplicative.apply, RPure.pure, (hm _).1, hs _ _ _]
  fmap_eq := by intro A B f x; simp [RApplicative.apply, RPure.pure, RFunctor.fmap, (hm _).1]
  lift2_eq := by intro A B C f a b; simp [RApplicative.apply, RPure.pure, RApplicative.lift2, (hm _).1]
  lift3_eq := by intro A B C D f a b c; simp [RApplicative.apply, RPure.pure, RApplicative.lift3, (hm _).1]
  seq_right := by
    intro A B a b; simp [RApplicative.apply, RPure.pure, sequenceRight, RApplicative.lift2, (hm _).1]
  seq_left := by
    intro A B a b; simp [RApplicative.apply, RPure.pure, sequenceLeft, RApplicative.lift2, (hm _).1]
  pure_owned := fun _ => rfl
  apply_owned := by intro A B u v; simp [RApplicative.apply, RApplicative.applyOwned, ho _ _]
  lift2_owned := by intro A B C f a b; simp [RApplicative.lift2, RApplicative.lift2Owned, ho _ _]
  lift3_owned := by intro A B C D f a b c; simp [RApplicative.lift3, RApplicative.lift3Owned, ho _ _]
  seq_owned := by
    intro A B a b
    simp [sequenceRight, sequenceRightOwned, sequenceLeft, sequenceLeftOwned, RApplicative.lift2,
      RApplicative.lift2Owned, ho _ _]

example : ApplicativeLaws (Writer String) := c24_writer c16_string c17_string c18_string

/-- `Choice`: `apply` loops over the values outside and the functions inside, `lift2` the other way round,
so `lift2` is *not* the corresponding application. -/
theorem c24_choice_false : ¬ ApplicativeLaws Choice := by
  intro h
  have := h.lift2_eq (fun a b : Nat => (a, b)) (Choice.new 1 [2]) (Choice.new 3 [4])
  exact absurd (congrArg Choice.values this) (by decide)

section choice
variable {A B C D : Type}

theorem perm_interleave (p : A → B) (q : A → List B) (ys : List A) :
    (ys.map p ++ ys.flatMap q).Perm (ys.flatMap (fun y => p y :: q y)) := by
  induction ys with
  | nil => exact List.Perm.refl _
  | cons y ys ih =>
    simp only [List.map_cons, List.flatMap_cons, List.cons_append]
    refine List.Perm.cons _ ?_
    refine List.Perm.trans ?_ (ih.append_left _)
    rw [← List.append_assoc, ← List.append_assoc]
    exact List.perm_append_comm.append_right _

theorem perm_swap (g : A → B → C) (xs : List A) (ys : List B) :
    (xs.flatMap fun x => ys.map (g x)).Perm (ys.flatMap fun y => xs.map fun x => g x y) := by
  induction xs with
  | nil => simp
  | cons x xs ih =>
    rw [List.flatMap_cons]
    refine (ih.append_left _).trans ?_
    exact perm_interleave (g x) _ ys

/-- `Choice`: everything except `lift2`/`lift3` as iterated application.  Those have the same first element
and the same elements up to order (`c24_choice_lift_partial`). -/
theorem c24_choice_partial :
    (∀ {A : Type} (v : Choice A), RApplicative.apply (RPure.pure (fun a : A => a)) v = v) ∧
    (∀ {A B : Type} (f : A → B) (a : A),
      RApplicative.apply (RPure.pure f : Choice (A → B)) (RPure.pure a) = RPure.pure (f a)) ∧
    (∀ {A B : Type} (u : Choice (A → B)) (a : A),
      RApplicative.apply u (RPure.pure a) = RApplicative.apply (RPure.pure (fun f : A → B => f a)) u) ∧
    (∀ {A B C : Type} (u : Choice (B → C)) (v : Choice (A → B)) (w : Choice A),
      RApplicative.apply (RApplicative.apply
        (RApplicative.apply (RPure.pure (fun (g : B → C) (f : A → B) (a : A) => g (f a))) u) v) w
        = RApplicative.apply u (RApplicative.apply v w)) ∧
    (∀ {A B : Type} (f : A → B) (x : Choice A), RFunctor.fmap f x = RApplicative.apply (RPure.pure f) x) ∧
    (∀ {A : Type} (a : A), (RPure.pureOwned a : Choice A) = RPure.pure a) ∧
    (∀ {A B : Type} (u : Choice (A → B)) (v : Choice A), RApplicative.applyOwned u v = RApplicative.apply u v) ∧
    (∀ {A B C : Type} (f : A → B → C) (a : Choice A) (b : Choice B),
      RApplicative.lift2Owned f a b = RApplicative.lift2 f a b) ∧
    (∀ {A B C D : Type} (f : A → B → C → D) (a : Choice A) (b : Choice B) (c : Choice C),
      RApplicative.lift3Owned f a b c = RApplicative.lift3 f a b c) := by
  refine ⟨?_, ?_, ?_, ?_, ?_, fun _ => rfl, fun u v => Choice.applyOwned_eq u v, fun _ _ _ => rfl,
    fun _ _ _ _ => rfl⟩
  · intro A v
    apply Choice.ext'
    show (Choice.apply _ _).values = _
    rw [Choice.apply_values, Choice.pure_values]
    simp
  · intro A B f a; rfl
  · intro A B u a
    apply Choice.ext'
    show (Choice.apply _ _).values = (Choice.apply _ _).values
    simp only [Choice.apply_values, Choice.pure_values]
    simp [List.map_eq_flatMap]
  · intro A B C u v w
    apply Choice.ext'
    show (Choice.apply (Choice.apply (Choice.apply _ _) _) _).values
      = (Choice.apply _ (Choice.apply _ _)).values
    simp only [Choice.apply_values, Choice.pure_values]
    simp [List.flatMap_assoc, List.flatMap_map, List.map_flatMap, Function.comp_def, List.map_eq_flatMap]
  · intro A B f x
    apply Choice.ext'
    show (Choice.fmap _ _).values = (Choice.apply _ _).values
    rw [Choice.apply_values, Choice.fmap_values, Choice.pure_values]
    simp [List.map_eq_flatMap]

/-- `lift2` of `Choice` is all pairs in `a`-major order; the iterated application has the same elements with
the same multiplicities (and the same primary value), in `b`-major order.  Likewise `lift3` is all triples. -/
theorem c24_choice_lift_partial (f : A → B → C) (g : A → B → C → D) (a : Choice A) (b : Choice B)
    (c : Choice C) :
    (RApplicative.lift2 f a b).values = a.values.flatMap (fun x => b.values.map (fun y => f x y)) ∧
    (RApplicative.lift3 g a b c).values
      = a.values.flatMap (fun x => b.values.flatMap (fun y => c.values.map (fun z => g x y z))) ∧
    (RApplicative.lift2 f a b).values.Perm
      (RApplicative.apply (RApplicative.apply (RPure.pure f) a) b).values ∧
    (RApplicative.lift2 f a b).first
      = (RApplicative.apply (RApplicative.apply (RPure.pure f) a) b).first := by
  refine ⟨Choice.lift2_values f a b, Choice.lift3_values g a b c, ?_, ?_⟩
  · show (Choice.lift2 f a b).values.Perm (Choice.apply (Choice.apply _ _) _).values
    simp only [Choice.lift2_values, Choice.apply_values, Choice.pure_values]
    simp only [List.map_cons, List.map_nil, ← List.map_eq_flatMap, List.map_map]
    exact perm_swap f a.values b.values
  · obtain ⟨_ | ⟨x, xs⟩⟩ := a <;> obtain ⟨_ | ⟨y, ys⟩⟩ := b <;> rfl

/-- Repeating every element puts element `p / k` at position `p`. -/
theorem getElem?_repeat {T : Type} (k : Nat) (hk : 0 < k) (l : List T) (p : Nat) :
    (l.flatMap (List.replicate k))[p]? = l[p / k]? := by
  induction l generalizing p with
  | nil => simp
  | cons x l ih =>
    rw [List.flatMap_cons]
    by_cases hp : p < k
    · rw [List.getElem?_append_left (by simpa using hp), Nat.div_eq_of_lt hp]
      simp [hp]
    · rw [List.getElem?_append_right (by simpa using hp), List.length_replicate, ih]
      have : p / k = (p - k) / k + 1 := by
        rw [← Nat.sub_add_cancel (Nat.le_of_not_lt hp), Nat.add_div_right _ hk]; simp
      rw [this, List.getElem?_cons_succ]

/-- A list that begins as it does with every element repeated is constant. -/
theorem constant_of_repeat {T : Type} {k : Nat} (hk : 2 ≤ k) {l : List T} (h : l <+: l.flatMap (List.replicate k)) :
    ∀ x ∈ l, ∀ y ∈ l, x = y := by
  have key : ∀ p, p < l.length → l[p]? = l[0]? := by
    intro p
    induction p using Nat.strongRecOn with
    | ind p ih =>
      intro hp
      by_cases h0 : p = 0
      · rw [h0]
      · obtain ⟨r, hr⟩ := h
        have e : l[p]? = l[p / k]? := by
          rw [← getElem?_repeat k (by omega), ← hr, List.getElem?_append_left hp]
        have lt : p / k < p := Nat.div_lt_self (by omega) (by omega)
        rw [e, ih _ lt (by omega)]
  intro x hx y hy
  obtain ⟨i, hi, rfl⟩ := List.getElem_of_mem hx
  obtain ⟨j, hj, rfl⟩ := List.getElem_of_mem hy
  have := (key i hi).trans (key j hj).symm
  rw [List.getElem?_eq_getElem hi, List.getElem?_eq_getElem hj] at this
  exact Option.some.inj this

theorem eq_replicate_of_constant {T : Type} {l : List T} {x : T} (h : ∀ y ∈ l, y = x) : l = List.replicate l.length x :=
  List.eq_replicate_iff.2 ⟨rfl, h⟩

/-- Two lists all of whose pairs are the same in row order and in column order, the second not shorter than the first. -/
theorem rows_columns {A B : Type} {as : List A} {bs : List B} (ha : 2 ≤ as.length) (hl : as.length ≤ bs.length)
    (h : as.flatMap (fun x => bs.map (fun y => (x, y))) = bs.flatMap (fun y => as.map (fun x => (x, y)))) :
    (∀ x ∈ as, ∀ y ∈ as, x = y) ∧ ∀ x ∈ bs, ∀ y ∈ bs, x = y := by
  obtain _ | ⟨x, as⟩ := as
  · simp at ha
  obtain _ | ⟨y, bs⟩ := bs
  · simp at hl
  have hx : ∀ z ∈ x :: as, z = x := by
    have h1 := congrArg (fun l => (l.take (x :: as).length).map Prod.fst) h
    simp only [List.flatMap_cons] at h1
    rw [List.take_append_of_le_length (by simpa using hl), List.take_append_of_le_length (by simp)] at h1
    have e2 : (((x :: as).map (fun x => (x, y))).take (x :: as).length).map Prod.fst = x :: as := by
      rw [List.take_of_length_le (by simp), List.map_map]
      exact List.map_id _
    rw [e2] at h1
    intro z hz
    rw [← h1] at hz
    simp only [List.map_take, List.map_map] at hz
    have := List.mem_of_mem_take hz
    simp only [List.mem_map, Function.comp] at this
    obtain ⟨_, _, rfl⟩ := this
    rfl
  refine ⟨fun z hz w hw => by rw [hx z hz, hx w hw], ?_⟩
  rw [eq_replicate_of_constant hx] at h
  generalize hk : (x :: as).length = k at *
  generalize y :: bs = ys at *
  have h2 := congrArg (List.map Prod.snd) h
  simp only [List.map_flatMap, List.map_map, List.map_replicate] at h2
  apply constant_of_repeat ha
  have e : (fun a : B => List.replicate k a) = List.replicate k := rfl
  rw [e] at h2
  rw [← h2]
  obtain ⟨k, rfl⟩ : ∃ j, k = j + 1 := ⟨k - 1, by omega⟩
  rw [List.replicate_succ, List.flatMap_cons]
  refine ⟨_, congrArg (· ++ _) ?_⟩
  exact (List.map_id _).symm

/-- Exactly when the claim holds of `lift2`: it is the iterated application for every function exactly when one of the
two choices has at most one value, or all values of either choice are the same. -/
theorem c24_choice_lift_iff {A B : Type} (a : Choice A) (b : Choice B) :
    (∀ {C : Type} (f : A → B → C),
      RApplicative.lift2 f a b = RApplicative.apply (RApplicative.apply (RPure.pure f) a) b) ↔
    a.values.length ≤ 1 ∨ b.values.length ≤ 1 ∨
      ((∀ x ∈ a.values, ∀ y ∈ a.values, x = y) ∧ ∀ x ∈ b.values, ∀ y ∈ b.values, x = y) := by
  have lists : ∀ {C : Type} (f : A → B → C),
      RApplicative.lift2 f a b = RApplicative.apply (RApplicative.apply (RPure.pure f) a) b ↔
      a.values.flatMap (fun x => b.values.map (fun y => f x y)) =
        b.values.flatMap (fun y => a.values.map (fun x => f x y)) := by
    intro C f
    have e1 : (RApplicative.lift2 f a b).values = _ := Choice.lift2_values f a b
    have e2 : (RApplicative.apply (RApplicative.apply (RPure.pure f) a) b).values =
        b.values.flatMap (fun y => a.values.map (fun x => f x y)) := by
      show (Choice.apply (Choice.apply _ _) _).values = _
      simp only [Choice.apply_values, Choice.pure_values, List.map_cons, List.map_nil, ← List.map_eq_flatMap,
        List.map_map, Function.comp_def]
    rw [← e1, ← e2]
    exact ⟨fun h => by rw [h], fun h => Choice.ext' h⟩
  generalize a.values = as at lists ⊢
  generalize b.values = bs at lists ⊢
  constructor
  · intro h
    have h := (lists Prod.mk).1 (h Prod.mk)
    by_cases h1 : as.length ≤ 1
    · exact .inl h1
    by_cases h2 : bs.length ≤ 1
    · exact .inr (.inl h2)
    refine .inr (.inr ?_)
    by_cases hl : as.length ≤ bs.length
    · exact rows_columns (by omega) hl h
    · have h' := congrArg (List.map Prod.swap) h
      simp only [List.map_flatMap, List.map_map, Function.comp_def, Prod.swap] at h'
      exact (rows_columns (by omega) (by omega) h'.symm).symm
  · intro h C f
    rw [lists]
    clear lists
    rcases h with h | h | ⟨h1, h2⟩
    · match as, h with
      | [], _ => simp
      | [x], _ => simp [List.map_eq_flatMap]
    · match bs, h with
      | [], _ => simp
      | [x], _ => simp [List.map_eq_flatMap]
    · match as, bs, h1, h2 with
      | [], _, _, _ => simp
      | _, [], _, _ => simp
      | x :: as, y :: bs, h1, h2 =>
        rw [eq_replicate_of_constant (fun z hz => h1 z hz x (by simp)),
          eq_replicate_of_constant (fun z hz => h2 z hz y (by simp))]
        simp only [List.map_replicate, List.flatMap_replicate, List.length_replicate, List.flatten_replicate_replicate]
        rw [Nat.mul_comm]

example : (RApplicative.lift2 (fun a b : Nat => (a, b)) (Choice.new 1 [2]) (Choice.new 3 [4])).values
    = [(1, 3), (1, 4), (2, 3), (2, 4)] := by decide
end choice

/-- A law-abiding `lift2` on a concrete non-trivial value, for each kind of container. -/
example : RApplicative.lift2 (fun a b : Nat => a + b) [1, 2] [10, 20] = [11, 21, 12, 22] := by decide
example : RApplicative.lift2 (fun a b : Nat => a + b) (Validated.Invalid ["x"]) (.Invalid ["y"])
    = .Invalid ["x", "y"] := by decide

end Rustica
