import Verif.Calls.Lemmas

/-!
# C69: which calls the functor, applicative and monad methods make

Closures have effects and may panic (`Calls/Model.lean`); the laws are in `Spec/Calls.lean`.
-/

namespace Rustica
open Act Spec
variable {σ A B C D E L W : Type}

/-! ## `fmap` -/

theorem c69_fmap_option : FunctorCalls Option where
  fmap x f := by
    cases x with
    | none => exact visits_none none rfl rfl rfl rfl
    | some a => exact visits_one some rfl rfl fun _ => ⟨rfl, rfl⟩
  fmapOwned x f := by
    cases x with
    | none => exact visits_none none rfl rfl rfl rfl
    | some a => exact visits_one some rfl rfl fun _ => ⟨rfl, rfl⟩
  shape x y h _ := by cases x <;> cases y <;> simp_all [elems]
  fmap_pure x f := by cases x <;> rfl
  fmapOwned_pure x f := by cases x <;> rfl

theorem c69_fmap_result : FunctorCalls (Except E) where
  fmap x f := by
    cases x with
    | error e => exact visits_none (.error e) rfl rfl rfl rfl
    | ok a => exact visits_one .ok rfl rfl fun _ => ⟨rfl, rfl⟩
  fmapOwned x f := by
    cases x with
    | error e => exact visits_none (.error e) rfl rfl rfl rfl
    | ok a => exact visits_one .ok rfl rfl fun _ => ⟨rfl, rfl⟩
  shape x y h h2 := by cases x <;> cases y <;> simp_all [elems, void, RFunctor.fmap]
  fmap_pure x f := by cases x <;> rfl
  fmapOwned_pure x f := by cases x <;> rfl

theorem c69_fmap_maybe : FunctorCalls Maybe where
  fmap x f := by
    cases x with
    | Nothing => exact visits_none .Nothing rfl rfl rfl rfl
    | Just a => exact visits_one .Just rfl rfl fun _ => ⟨rfl, rfl⟩
  fmapOwned x f := by
    cases x with
    | Nothing => exact visits_none .Nothing rfl rfl rfl rfl
    | Just a => exact visits_one .Just rfl rfl fun _ => ⟨rfl, rfl⟩
  shape x y h _ := by cases x <;> cases y <;> simp_all [elems]
  fmap_pure x f := by cases x <;> rfl
  fmapOwned_pure x f := by cases x <;> rfl

theorem c69_fmap_either : FunctorCalls (Either L) where
  fmap x f := by
    cases x with
    | Left e => exact visits_none (.Left e) rfl rfl rfl rfl
    | Right a => exact visits_one .Right rfl rfl fun _ => ⟨rfl, rfl⟩
  fmapOwned x f := by
    cases x with
    | Left e => exact visits_none (.Left e) rfl rfl rfl rfl
    | Right a => exact visits_one .Right rfl rfl fun _ => ⟨rfl, rfl⟩
  shape x y h h2 := by cases x <;> cases y <;> simp_all [elems, void, RFunctor.fmap]
  fmap_pure x f := by cases x <;> rfl
  fmapOwned_pure x f := by cases x <;> rfl

theorem c69_fmap_validated : FunctorCalls (Validated E) where
  fmap x f := by
    cases x with
    | Invalid e => exact visits_none (.Invalid e) rfl rfl rfl rfl
    | Valid a => exact visits_one .Valid rfl rfl fun _ => ⟨rfl, rfl⟩
  fmapOwned x f := by
    cases x with
    | Invalid e => exact visits_none (.Invalid e) rfl rfl rfl rfl
    | Valid a => exact visits_one .Valid rfl rfl fun _ => ⟨rfl, rfl⟩
  shape x y h h2 := by cases x <;> cases y <;> simp_all [elems, void, RFunctor.fmap]
  fmap_pure x f := by cases x <;> rfl
  fmapOwned_pure x f := by cases x <;> rfl

/-- Two lists of the same length are the same list of units. -/
theorem void_list {xs : List A} {ys : List B} (h : ys.length = xs.length) :
    (void ys : List Unit) = void xs := by
  show ys.map (fun _ => ()) = xs.map (fun _ => ())
  rw [List.map_const', List.map_const', h]

theorem c69_fmap_vec : FunctorCalls List where
  fmap x _ := visits_of_list (xs := x) (fun bs => bs) rfl (seq_ret _).symm fun _ h => ⟨rfl, void_list h⟩
  fmapOwned x _ := visits_of_list (xs := x) (fun bs => bs) rfl (seq_ret _).symm fun _ h => ⟨rfl, void_list h⟩
  shape _ _ h _ := h
  fmap_pure x f := mapList_pure f x
  fmapOwned_pure x f := mapList_pure f x

theorem void_choice {c : Choice A} {d : Choice B} (h : d.values.length = c.values.length) :
    (void d : Choice Unit) = void c := by
  rcases c with ⟨_ | ⟨x, xs⟩⟩ <;> rcases d with ⟨_ | ⟨y, ys⟩⟩ <;> simp at h
  · rfl
  · show Choice.new () (ys.map fun _ => ()) = Choice.new () (xs.map fun _ => ())
    rw [List.map_const', List.map_const', h]

theorem visits_choice {c : Choice A} {f : A → Act σ B} {m : Act σ (Choice B)}
    (hm : m = (mapList f c.values).seq fun bs => ret ⟨bs⟩) : VisitsOnce c f m :=
  visits_of_list (xs := c.values) (fun bs => ⟨bs⟩) rfl hm fun _ h => ⟨rfl, void_choice h⟩

theorem choice_fmapE (c : Choice A) (f : A → Act σ B) :
    fmapE f c = (mapList f c.values).seq fun bs => ret ⟨bs⟩ := by
  rcases c with ⟨_ | ⟨x, xs⟩⟩
  · rfl
  · simp [fmapE, mapList, seq_assoc, Choice.new]

theorem c69_fmap_choice : FunctorCalls Choice where
  fmap x f := visits_choice (choice_fmapE x f)
  fmapOwned x f := visits_choice (choice_fmapE x f)
  shape x y h _ := by cases x; cases y; simp_all [elems]
  fmap_pure x f := by
    rcases x with ⟨_ | ⟨x, xs⟩⟩
    · rfl
    · simp [fmapE, mapList_pure]; rfl
  fmapOwned_pure x f := by
    rcases x with ⟨_ | ⟨x, xs⟩⟩
    · rfl
    · simp [fmapOwnedE, mapList_pure]; rfl

theorem c69_fmap_id : FunctorCalls RId where
  fmap x f := visits_one (fun b => ⟨b⟩) rfl rfl fun _ => ⟨rfl, rfl⟩
  fmapOwned x f := visits_one (fun b => ⟨b⟩) rfl rfl fun _ => ⟨rfl, rfl⟩
  shape x y h _ := by cases x; cases y; simp_all [elems]
  fmap_pure x f := rfl
  fmapOwned_pure x f := rfl

theorem c69_fmap_writer [RMonoid W] : FunctorCalls (Writer W) where
  fmap x f := visits_one (fun b => ⟨x.log, b⟩) rfl rfl fun _ => ⟨rfl, rfl⟩
  fmapOwned x f := visits_one (fun b => ⟨x.log, b⟩) rfl rfl fun _ => ⟨rfl, rfl⟩
  shape x y h h2 := by cases x; cases y; simp_all [elems, void, RFunctor.fmap]
  fmap_pure x f := rfl
  fmapOwned_pure x f := rfl

theorem c69_fmap_first : FunctorCalls First where
  fmap x f := by
    rcases x with ⟨_ | a⟩
    · exact visits_none ⟨none⟩ rfl rfl rfl rfl
    · exact visits_one (fun b => ⟨some b⟩) rfl rfl fun _ => ⟨rfl, rfl⟩
  fmapOwned x f := by
    rcases x with ⟨_ | a⟩
    · exact visits_none ⟨none⟩ rfl rfl rfl rfl
    · exact visits_one (fun b => ⟨some b⟩) rfl rfl fun _ => ⟨rfl, rfl⟩
  shape x y h _ := by rcases x with ⟨_ | a⟩ <;> rcases y with ⟨_ | b⟩ <;> simp_all [elems]
  fmap_pure x f := by rcases x with ⟨_ | a⟩ <;> rfl
  fmapOwned_pure x f := by rcases x with ⟨_ | a⟩ <;> rfl

theorem c69_fmap_last : FunctorCalls Last where
  fmap x f := by
    rcases x with ⟨_ | a⟩
    · exact visits_none ⟨none⟩ rfl rfl rfl rfl
    · exact visits_one (fun b => ⟨some b⟩) rfl rfl fun _ => ⟨rfl, rfl⟩
  fmapOwned x f := by
    rcases x with ⟨_ | a⟩
    · exact visits_none ⟨none⟩ rfl rfl rfl rfl
    · exact visits_one (fun b => ⟨some b⟩) rfl rfl fun _ => ⟨rfl, rfl⟩
  shape x y h _ := by rcases x with ⟨_ | a⟩ <;> rcases y with ⟨_ | b⟩ <;> simp_all [elems]
  fmap_pure x f := by rcases x with ⟨_ | a⟩ <;> rfl
  fmapOwned_pure x f := by rcases x with ⟨_ | a⟩ <;> rfl

theorem c69_fmap_min : FunctorCalls Min where
  fmap x f := visits_one (fun b => ⟨b⟩) rfl rfl fun _ => ⟨rfl, rfl⟩
  fmapOwned x f := visits_one (fun b => ⟨b⟩) rfl rfl fun _ => ⟨rfl, rfl⟩
  shape x y h _ := by cases x; cases y; simp_all [elems]
  fmap_pure x f := rfl
  fmapOwned_pure x f := rfl

theorem c69_fmap_max : FunctorCalls Max where
  fmap x f := visits_one (fun b => ⟨b⟩) rfl rfl fun _ => ⟨rfl, rfl⟩
  fmapOwned x f := visits_one (fun b => ⟨b⟩) rfl rfl fun _ => ⟨rfl, rfl⟩
  shape x y h _ := by cases x; cases y; simp_all [elems]
  fmap_pure x f := rfl
  fmapOwned_pure x f := rfl

theorem c69_fmap_sum : FunctorCalls Sum where
  fmap x f := visits_one (fun b => ⟨b⟩) rfl rfl fun _ => ⟨rfl, rfl⟩
  fmapOwned x f := visits_one (fun b => ⟨b⟩) rfl rfl fun _ => ⟨rfl, rfl⟩
  shape x y h _ := by cases x; cases y; simp_all [elems]
  fmap_pure x f := rfl
  fmapOwned_pure x f := rfl

theorem c69_fmap_product : FunctorCalls Product where
  fmap x f := visits_one (fun b => ⟨b⟩) rfl rfl fun _ => ⟨rfl, rfl⟩
  fmapOwned x f := visits_one (fun b => ⟨b⟩) rfl rfl fun _ => ⟨rfl, rfl⟩
  shape x y h _ := by cases x; cases y; simp_all [elems]
  fmap_pure x f := rfl
  fmapOwned_pure x f := rfl

/-! ## `apply`, `lift2`, `lift3` -/

theorem c69_lift_option : ApplicativeCalls Option where
  apply f a := by
    cases f <;> cases a <;> first
      | exact visits_none none rfl rfl rfl rfl
      | exact visits_one some rfl rfl fun _ => ⟨rfl, rfl⟩
  lift2 f a b := by
    cases a <;> cases b <;> first
      | exact visits_none none rfl rfl rfl rfl
      | exact visits_one some rfl rfl fun _ => ⟨rfl, rfl⟩
  lift3 f a b c := by
    cases a <;> cases b <;> cases c <;> first
      | exact visits_none none rfl rfl rfl rfl
      | exact visits_one some rfl rfl fun _ => ⟨rfl, rfl⟩
  applyOwned f a := by
    cases f <;> cases a <;> first
      | exact visits_none none rfl rfl rfl rfl
      | exact visits_one some rfl rfl fun _ => ⟨rfl, rfl⟩
  lift2Owned f a b := by
    cases a <;> cases b <;> first
      | exact visits_none none rfl rfl rfl rfl
      | exact visits_one some rfl rfl fun _ => ⟨rfl, rfl⟩
  lift3Owned f a b c := by
    cases a <;> cases b <;> cases c <;> first
      | exact visits_none none rfl rfl rfl rfl
      | exact visits_one some rfl rfl fun _ => ⟨rfl, rfl⟩

theorem c69_lift_maybe : ApplicativeCalls Maybe where
  apply f a := by
    cases f <;> cases a <;> first
      | exact visits_none .Nothing rfl rfl rfl rfl
      | exact visits_one .Just rfl rfl fun _ => ⟨rfl, rfl⟩
  lift2 f a b := by
    cases a <;> cases b <;> first
      | exact visits_none .Nothing rfl rfl rfl rfl
      | exact visits_one .Just rfl rfl fun _ => ⟨rfl, rfl⟩
  lift3 f a b c := by
    cases a <;> cases b <;> cases c <;> first
      | exact visits_none .Nothing rfl rfl rfl rfl
      | exact visits_one .Just rfl rfl fun _ => ⟨rfl, rfl⟩
  applyOwned f a := by
    cases f <;> cases a <;> first
      | exact visits_none .Nothing rfl rfl rfl rfl
      | exact visits_one .Just rfl rfl fun _ => ⟨rfl, rfl⟩
  lift2Owned f a b := by
    cases a <;> cases b <;> first
      | exact visits_none .Nothing rfl rfl rfl rfl
      | exact visits_one .Just rfl rfl fun _ => ⟨rfl, rfl⟩
  lift3Owned f a b c := by
    cases a <;> cases b <;> cases c <;> first
      | exact visits_none .Nothing rfl rfl rfl rfl
      | exact visits_one .Just rfl rfl fun _ => ⟨rfl, rfl⟩

theorem c69_lift_result : ApplicativeCalls (Except E) where
  apply f a := by
    cases f <;> cases a <;> first
      | exact visits_none (.error _) rfl rfl rfl rfl
      | exact visits_one .ok rfl rfl fun _ => ⟨rfl, rfl⟩
  lift2 f a b := by
    cases a <;> cases b <;> first
      | exact visits_none (.error _) rfl rfl rfl rfl
      | exact visits_one .ok rfl rfl fun _ => ⟨rfl, rfl⟩
  lift3 f a b c := by
    cases a <;> cases b <;> cases c <;> first
      | exact visits_none (.error _) rfl rfl rfl rfl
      | exact visits_one .ok rfl rfl fun _ => ⟨rfl, rfl⟩
  applyOwned f a := by
    cases f <;> cases a <;> first
      | exact visits_none (.error _) rfl rfl rfl rfl
      | exact visits_one .ok rfl rfl fun _ => ⟨rfl, rfl⟩
  lift2Owned f a b := by
    cases a <;> cases b <;> first
      | exact visits_none (.error _) rfl rfl rfl rfl
      | exact visits_one .ok rfl rfl fun _ => ⟨rfl, rfl⟩
  lift3Owned f a b c := by
    cases a <;> cases b <;> cases c <;> first
      | exact visits_none (.error _) rfl rfl rfl rfl
      | exact visits_one .ok rfl rfl fun _ => ⟨rfl, rfl⟩

theorem c69_lift_either : ApplicativeCalls (Either L) where
  apply f a := by
    cases f <;> cases a <;> first
      | exact visits_none (.Left _) rfl rfl rfl rfl
      | exact visits_one .Right rfl rfl fun _ => ⟨rfl, rfl⟩
  lift2 f a b := by
    cases a <;> cases b <;> first
      | exact visits_none (.Left _) rfl rfl rfl rfl
      | exact visits_one .Right rfl rfl fun _ => ⟨rfl, rfl⟩
  lift3 f a b c := by
    cases a <;> cases b <;> cases c <;> first
      | exact visits_none (.Left _) rfl rfl rfl rfl
      | exact visits_one .Right rfl rfl fun _ => ⟨rfl, rfl⟩
  applyOwned f a := by
    cases f <;> cases a <;> first
      | exact visits_none (.Left _) rfl rfl rfl rfl
      | exact visits_one .Right rfl rfl fun _ => ⟨rfl, rfl⟩
  lift2Owned f a b := by
    cases a <;> cases b <;> first
      | exact visits_none (.Left _) rfl rfl rfl rfl
      | exact visits_one .Right rfl rfl fun _ => ⟨rfl, rfl⟩
  lift3Owned f a b c := by
    cases a <;> cases b <;> cases c <;> first
      | exact visits_none (.Left _) rfl rfl rfl rfl
      | exact visits_one .Right rfl rfl fun _ => ⟨rfl, rfl⟩

theorem c69_lift_validated : ApplicativeCalls (Validated E) where
  apply f a := by
    cases f <;> cases a <;> first
      | exact visits_none (.Invalid _) rfl rfl rfl rfl
      | exact visits_one .Valid rfl rfl fun _ => ⟨rfl, rfl⟩
  lift2 f a b := by
    cases a <;> cases b <;> first
      | exact visits_none (.Invalid _) rfl rfl rfl rfl
      | exact visits_one .Valid rfl rfl fun _ => ⟨rfl, rfl⟩
  lift3 f a b c := by
    cases a <;> cases b <;> cases c <;> first
      | exact visits_none (.Invalid _) rfl rfl rfl rfl
      | exact visits_one .Valid rfl rfl fun _ => ⟨rfl, rfl⟩
  applyOwned f a := by
    cases f <;> cases a <;> first
      | exact visits_none (.Invalid _) rfl rfl rfl rfl
      | exact visits_one .Valid rfl rfl fun _ => ⟨rfl, rfl⟩
  lift2Owned f a b := by
    cases a <;> cases b <;> first
      | exact visits_none (.Invalid _) rfl rfl rfl rfl
      | exact visits_one .Valid rfl rfl fun _ => ⟨rfl, rfl⟩
  lift3Owned f a b c := by
    cases a <;> cases b <;> cases c <;> first
      | exact visits_none (.Invalid _) rfl rfl rfl rfl
      | exact visits_one .Valid rfl rfl fun _ => ⟨rfl, rfl⟩

theorem c69_lift_id : ApplicativeCalls RId where
  apply _ _ := visits_one (fun b => ⟨b⟩) rfl rfl fun _ => ⟨rfl, rfl⟩
  lift2 _ _ _ := visits_one (fun b => ⟨b⟩) rfl rfl fun _ => ⟨rfl, rfl⟩
  lift3 _ _ _ _ := visits_one (fun b => ⟨b⟩) rfl rfl fun _ => ⟨rfl, rfl⟩
  applyOwned _ _ := visits_one (fun b => ⟨b⟩) rfl rfl fun _ => ⟨rfl, rfl⟩
  lift2Owned _ _ _ := visits_one (fun b => ⟨b⟩) rfl rfl fun _ => ⟨rfl, rfl⟩
  lift3Owned _ _ _ _ := visits_one (fun b => ⟨b⟩) rfl rfl fun _ => ⟨rfl, rfl⟩

theorem c69_lift_writer [RMonoid W] : ApplicativeCalls (Writer W) where
  apply _ _ := visits_one (fun b => ⟨_, b⟩) rfl rfl fun _ => ⟨rfl, rfl⟩
  lift2 _ _ _ := visits_one (fun b => ⟨_, b⟩) rfl rfl fun _ => ⟨rfl, rfl⟩
  lift3 _ _ _ _ := visits_one (fun b => ⟨_, b⟩) rfl rfl fun _ => ⟨rfl, rfl⟩
  applyOwned _ _ := visits_one (fun b => ⟨_, b⟩) rfl rfl fun _ => ⟨rfl, rfl⟩
  lift2Owned _ _ _ := visits_one (fun b => ⟨_, b⟩) rfl rfl fun _ => ⟨rfl, rfl⟩
  lift3Owned _ _ _ _ := visits_one (fun b => ⟨_, b⟩) rfl rfl fun _ => ⟨rfl, rfl⟩

theorem vecLoop_flatMap (f : A → B → C) (xs : List A) (ys : List B) :
    vecLoop f xs ys = xs.flatMap fun a => ys.map fun b => f a b := by
  unfold vecLoop
  rw [foldl_flatMap (fun a => ys.map fun b => f a b)]
  · simp
  · intro r a
    rw [foldl_flatMap (fun b => [f a b]) _ (fun _ _ => rfl), ← List.map_eq_flatMap]

theorem vecLoop3_flatMap (f : A → B → C → D) (xs : List A) (ys : List B) (zs : List C) :
    vecLoop3 f xs ys zs = xs.flatMap fun a => ys.flatMap fun b => zs.map fun c => f a b c := by
  unfold vecLoop3
  rw [foldl_flatMap (fun a => ys.flatMap fun b => zs.map fun c => f a b c)]
  · simp
  · intro r a
    rw [foldl_flatMap (fun b => zs.map fun c => f a b c)]
    intro r b
    rw [foldl_flatMap (fun c => [f a b c]) _ (fun _ _ => rfl), ← List.map_eq_flatMap]

theorem vecLoopE_eq (f : A → B → Act σ C) (xs : List A) (ys : List B) :
    vecLoopE f xs ys = mapList (fun p => f p.1 p.2) (vecLoop Prod.mk xs ys) := by
  unfold vecLoopE
  rw [vecLoop_flatMap, foldList_flatMap (fun p => f p.1 p.2) (fun a => ys.map fun b => (a, b))]
  · simp
  · intro r a
    rw [foldList_push, mapList_map]

theorem vecLoop3E_eq (f : A → B → C → Act σ D) (xs : List A) (ys : List B) (zs : List C) :
    vecLoop3E f xs ys zs = mapList (fun p => f p.1 p.2.1 p.2.2) (vecLoop3 (fun a b c => (a, b, c)) xs ys zs) := by
  unfold vecLoop3E
  rw [vecLoop3_flatMap, foldList_flatMap (fun p => f p.1 p.2.1 p.2.2)
    (fun a => ys.flatMap fun b => zs.map fun c => (a, b, c))]
  · simp
  · intro r a
    rw [foldList_flatMap (fun p => f p.1 p.2.1 p.2.2) (fun b => zs.map fun c => (a, b, c))]
    intro r b
    rw [foldList_push, mapList_map]

theorem visits_vec {xs : List A} {f : A → Act σ B} {m : Act σ (List B)} (hm : m = mapList f xs) :
    VisitsOnce xs f m :=
  visits_of_list (xs := xs) (fun bs => bs) rfl (by rw [hm]; exact (seq_ret _).symm) fun _ h => ⟨rfl, void_list h⟩

theorem vec_applyE (fs : List (A → Act σ B)) (xs : List A) :
    vecLoopE (fun f x => f x) fs xs =
      mapList (fun p => p.1 p.2) (vecLoop (fun g x => g x) (fs.map Prod.mk) xs) := by
  rw [vecLoopE_eq, vecLoop_flatMap, vecLoop_flatMap, List.flatMap_map]

theorem c69_lift_vec : ApplicativeCalls List where
  apply fs xs := visits_vec (vec_applyE fs xs)
  lift2 f xs ys := visits_vec (vecLoopE_eq f xs ys)
  lift3 f xs ys zs := visits_vec (by
    show foldList _ _ _ = mapList _ (List.foldl _ _ _)
    rw [foldList_push, foldl_flatMap (fun abc : (_ × _) × _ => [(abc.1.1, abc.1.2, abc.2)]) _ (fun _ _ => rfl)]
    simp only [List.nil_append]
    rw [seq_ret, ← List.map_eq_flatMap, mapList_map])
  applyOwned fs xs := visits_vec (vec_applyE fs xs)
  lift2Owned f xs ys := visits_vec (vecLoopE_eq f xs ys)
  lift3Owned f xs ys zs := visits_vec (vecLoop3E_eq f xs ys zs)

/-- The condition of the double loop as a list of pairs. -/
theorem foldList_skip {X Y : Type} (c : Y → Bool) (g : Y → X) (k : X → Act σ C) (ys : List Y) (r : List C) :
    foldList (fun acc y => if c y then ret acc else (k (g y)).seq fun d => ret (acc ++ [d])) ys r =
      (mapList k (ys.flatMap fun y => if c y then [] else [g y])).seq fun cs => ret (r ++ cs) := by
  refine foldList_flatMap k (fun y => if c y then [] else [g y]) _ ?_ ys r
  intro r y
  cases c y <;> simp [mapList, seq_assoc]

theorem foldl_skip {X Y : Type} (c : Y → Bool) (g : Y → X) (ys : List Y) (r : List X) :
    ys.foldl (fun acc y => if c y then acc else acc ++ [g y]) r =
      r ++ ys.flatMap fun y => if c y then [] else [g y] := by
  refine foldl_flatMap (fun y => if c y then [] else [g y]) _ ?_ ys r
  intro r y
  cases c y <;> simp

theorem liftLoop2E_eq (f : A → B → Act σ C) (as : List A) (bs : List B) :
    Choice.liftLoop2E f as bs = mapList (fun p => f p.1 p.2) (Choice.liftLoop2 Prod.mk as bs) := by
  unfold Choice.liftLoop2E Choice.liftLoop2
  rw [foldl_flatMap (fun ai : A × Nat => bs.zipIdx.flatMap fun bj : B × Nat =>
      if ai.2 == 0 && bj.2 == 0 then [] else [(ai.1, bj.1)]) _ (fun r ai => foldl_skip _ _ _ _),
    foldList_flatMap (fun p : A × B => f p.1 p.2) (fun ai : A × Nat => bs.zipIdx.flatMap fun bj : B × Nat =>
      if ai.2 == 0 && bj.2 == 0 then [] else [(ai.1, bj.1)]) _
      (fun r ai => foldList_skip (fun bj : B × Nat => ai.2 == 0 && bj.2 == 0) (fun bj => (ai.1, bj.1))
        (fun p : A × B => f p.1 p.2) _ _)]
  simp

theorem liftLoop3E_eq (f : A → B → C → Act σ D) (as : List A) (bs : List B) (cs : List C) :
    Choice.liftLoop3E f as bs cs =
      mapList (fun p => f p.1 p.2.1 p.2.2) (Choice.liftLoop3 (fun a b c => (a, b, c)) as bs cs) := by
  unfold Choice.liftLoop3E Choice.liftLoop3
  rw [foldl_flatMap (fun ai : A × Nat => bs.zipIdx.flatMap fun bj : B × Nat => cs.zipIdx.flatMap fun ck : C × Nat =>
      if ai.2 == 0 && bj.2 == 0 && ck.2 == 0 then [] else [(ai.1, bj.1, ck.1)]) _
      (fun r ai => foldl_flatMap (fun bj : B × Nat => cs.zipIdx.flatMap fun ck : C × Nat =>
        if ai.2 == 0 && bj.2 == 0 && ck.2 == 0 then [] else [(ai.1, bj.1, ck.1)]) _
        (fun r bj => foldl_skip _ _ _ _) _ _),
    foldList_flatMap (fun p : A × B × C => f p.1 p.2.1 p.2.2)
      (fun ai : A × Nat => bs.zipIdx.flatMap fun bj : B × Nat => cs.zipIdx.flatMap fun ck : C × Nat =>
        if ai.2 == 0 && bj.2 == 0 && ck.2 == 0 then [] else [(ai.1, bj.1, ck.1)]) _
      (fun r ai => foldList_flatMap (fun p : A × B × C => f p.1 p.2.1 p.2.2)
        (fun bj : B × Nat => cs.zipIdx.flatMap fun ck : C × Nat =>
          if ai.2 == 0 && bj.2 == 0 && ck.2 == 0 then [] else [(ai.1, bj.1, ck.1)]) _
        (fun r bj => foldList_skip (fun ck : C × Nat => ai.2 == 0 && bj.2 == 0 && ck.2 == 0)
          (fun ck => (ai.1, bj.1, ck.1)) (fun p : A × B × C => f p.1 p.2.1 p.2.2) _ _) _ _)]
  simp

theorem generateApplyAlternativesE_eq (fs : List (A → Act σ B)) (xs : List A) :
    Choice.generateApplyAlternativesE fs xs =
      mapList (fun p => p.1 p.2) (Choice.generateApplyAlternatives (fs.map Prod.mk) xs) := by
  unfold Choice.generateApplyAlternativesE Choice.generateApplyAlternatives
  rw [mapList_flatten (k := fun p : (A → Act σ B) × A => p.1 p.2)
    (h := fun xi : A × Nat => (fs.map Prod.mk).zipIdx.filterMap
      (fun fj => if xi.2 == 0 && fj.2 == 0 then none else some (fj.1 xi.1)))]
  intro xi
  rw [filterMapList_if (fun fj : (A → Act σ B) × Nat => xi.2 == 0 && fj.2 == 0) (fun fj => fj.1 xi.1)]
  rw [List.zipIdx_map]
  generalize fs.zipIdx = l
  induction l with
  | nil => rfl
  | cons y l ih =>
    simp only [List.map_cons, List.filterMap_cons, List.filter_cons]
    cases h : (xi.2 == 0 && y.2 == 0)
    · simp only [Prod.map, id_eq, h, Bool.not_false, if_true, mapList, ih]
      rfl
    · simp only [Prod.map, id_eq, h, Bool.not_true, if_true]
      exact ih

theorem choice_lift2E (f : A → B → Act σ C) (a : Choice A) (b : Choice B) :
    VisitsOnce (RApplicative.lift2 Prod.mk a b) (fun p => f p.1 p.2) (Choice.lift2E' f a b) := by
  rcases a with ⟨_ | ⟨x, xs⟩⟩ <;> rcases b with ⟨_ | ⟨y, ys⟩⟩
  · exact visits_none ⟨[]⟩ rfl rfl rfl rfl
  · exact visits_none ⟨[]⟩ rfl rfl rfl rfl
  · exact visits_none ⟨[]⟩ rfl rfl rfl rfl
  · refine visits_choice ?_
    show _ = (mapList _ ((x, y) :: Choice.liftLoop2 Prod.mk (x :: xs) (y :: ys))).seq _
    simp [Choice.lift2E', liftLoop2E_eq, mapList, seq_assoc, Choice.new]

theorem choice_lift3E (f : A → B → C → Act σ D) (a : Choice A) (b : Choice B) (c : Choice C) :
    VisitsOnce (RApplicative.lift3 (fun a b c => (a, b, c)) a b c) (fun p => f p.1 p.2.1 p.2.2)
      (Choice.lift3E' f a b c) := by
  rcases a with ⟨_ | ⟨x, xs⟩⟩ <;> rcases b with ⟨_ | ⟨y, ys⟩⟩ <;> rcases c with ⟨_ | ⟨z, zs⟩⟩
  case cons.cons.cons =>
    refine visits_choice ?_
    show _ = (mapList _ ((x, y, z) :: Choice.liftLoop3 (fun a b c => (a, b, c)) (x :: xs) (y :: ys) (z :: zs))).seq _
    simp [Choice.lift3E', liftLoop3E_eq, mapList, seq_assoc, Choice.new]
  all_goals exact visits_none ⟨[]⟩ rfl rfl rfl rfl

theorem c69_lift_choice : ApplicativeCalls Choice where
  apply f a := by
    rcases f with ⟨_ | ⟨x, xs⟩⟩ <;> rcases a with ⟨_ | ⟨y, ys⟩⟩
    · exact visits_none ⟨[]⟩ rfl rfl rfl rfl
    · exact visits_none ⟨[]⟩ rfl rfl rfl rfl
    · exact visits_none ⟨[]⟩ rfl rfl rfl rfl
    · refine visits_choice ?_
      show _ = (mapList _ ((x, y) :: ((xs.map Prod.mk).map (fun g => g y) ++
        ys.flatMap fun v => [(x, v)] ++ (xs.map Prod.mk).map fun g => g v))).seq _
      simp only [applyE, Choice.applyE', mapList, mapList_append, seq_assoc, ret_seq, Choice.new, List.map_map,
        mapList_map, Function.comp_def]
      congr 1; funext b
      congr 1; funext bs
      rw [← mapList_flatten (g := fun v => (x v).seq fun b => (mapList (fun g => g v) xs).seq fun bs => ret (b :: bs))]
      · simp [seq_assoc]
      · intro v
        simp [mapList, mapList_map]
  lift2 f a b := choice_lift2E f a b
  lift3 f a b c := choice_lift3E f a b c
  applyOwned f a := by
    rcases f with ⟨_ | ⟨x, xs⟩⟩ <;> rcases a with ⟨_ | ⟨y, ys⟩⟩
    · exact visits_none ⟨[]⟩ rfl rfl rfl rfl
    · exact visits_none ⟨[]⟩ rfl rfl rfl rfl
    · exact visits_none ⟨[]⟩ rfl rfl rfl rfl
    · refine visits_choice ?_
      show _ = (mapList _ ((x, y) :: Choice.generateApplyAlternatives ((x :: xs).map Prod.mk) (y :: ys))).seq _
      simp only [applyOwnedE, Choice.applyOwnedE', mapList, generateApplyAlternativesE_eq, seq_assoc, ret_seq, Choice.new,
        List.singleton_append]
  lift2Owned f a b := choice_lift2E f a b
  lift3Owned f a b c := choice_lift3E f a b c

/-! ## `bind` -/

theorem c69_bind_option : BindCalls Option where
  one x f a h := by cases x <;> simp_all [elems, bindE, bindOwnedE]
  none x f h := by
    cases x
    · exact ⟨Option.none, rfl, rfl, fun _ => ⟨rfl, rfl⟩⟩
    · simp [elems] at h
  atMostOne x := by cases x <;> simp [elems]

theorem c69_bind_result : BindCalls (Except E) where
  one x f a h := by cases x <;> simp_all [elems, bindE, bindOwnedE]
  none x f h := by
    cases x with
    | error e => exact ⟨.error e, rfl, rfl, fun _ => ⟨rfl, rfl⟩⟩
    | ok a => simp [elems] at h
  atMostOne x := by cases x <;> simp [elems]

theorem c69_bind_maybe : BindCalls Maybe where
  one x f a h := by cases x <;> simp_all [elems, bindE, bindOwnedE]
  none x f h := by
    cases x with
    | Nothing => exact ⟨.Nothing, rfl, rfl, fun _ => ⟨rfl, rfl⟩⟩
    | Just a => simp [elems] at h
  atMostOne x := by cases x <;> simp [elems]

theorem c69_bind_either : BindCalls (Either L) where
  one x f a h := by cases x <;> simp_all [elems, bindE, bindOwnedE]
  none x f h := by
    cases x with
    | Left e => exact ⟨.Left e, rfl, rfl, fun _ => ⟨rfl, rfl⟩⟩
    | Right a => simp [elems] at h
  atMostOne x := by cases x <;> simp [elems]

theorem c69_bind_validated : BindCalls (Validated E) where
  one x f a h := by cases x <;> simp_all [elems, bindE, bindOwnedE]
  none x f h := by
    cases x with
    | Invalid e => exact ⟨.Invalid e, rfl, rfl, fun _ => ⟨rfl, rfl⟩⟩
    | Valid a => simp [elems] at h
  atMostOne x := by cases x <;> simp [elems]

theorem c69_bind_id : BindCalls RId where
  one x f a h := by cases x; simp_all [elems, bindE, bindOwnedE]
  none x f h := by simp [elems] at h
  atMostOne x := by simp [elems]

/-- `Writer`: one call with the value; the log of the answer comes after the log so far; a panic leaves nothing. -/
theorem c69_bind_writer [RMonoid W] (x : Writer W A) (f : A → Act σ (Writer W B)) (w : σ) :
    match f x.value w with
    | (.error p, w') => bindE x f w = (.error p, w') ∧ bindOwnedE x f w = (.error p, w')
    | (.ok r, w') => bindE x f w = (.ok ⟨combine x.log r.log, r.value⟩, w') ∧
        bindOwnedE x f w = (.ok ⟨combineOwned x.log r.log, r.value⟩, w') := by
  rcases h : f x.value w with ⟨p | r, w'⟩ <;> exact ⟨by simp [bindE, seq, h, ret], by simp [bindOwnedE, seq, h, ret]⟩

/-- `Choice`: the closure is called with the primary value first; if the answer is empty nothing else is called and the
result is empty; otherwise it is called with every alternative, in order, and the answers are concatenated. -/
theorem c69_bind_choice (v : A) (vs : List A) (f : A → Act σ (Choice B)) (w : σ) :
    bindE (⟨v :: vs⟩ : Choice A) f w =
      (match f v w with
        | (.error p, w') => (.error p, w')
        | (.ok c, w') =>
          if c.values = [] then (.ok ⟨[]⟩, w')
          else match calls f vs w' with
            | (.error p, w'') => (.error p, w'')
            | (.ok cs, w'') => (.ok ⟨c.values ++ cs.flatMap Choice.values⟩, w'')) ∧
    bindOwnedE (⟨v :: vs⟩ : Choice A) f w = bindE (⟨v :: vs⟩ : Choice A) f w ∧
    bindE (⟨[]⟩ : Choice A) f w = (.ok ⟨[]⟩, w) ∧ bindOwnedE (⟨[]⟩ : Choice A) f w = (.ok ⟨[]⟩, w) := by
  refine ⟨?_, rfl, rfl, rfl⟩
  have key : ∀ (vs : List A) (rest : List B),
      foldList (fun alternatives alt => (f alt).seq fun c => ret (alternatives ++ c.values)) vs rest =
        (mapList f vs).seq fun cs => ret (rest ++ cs.flatMap Choice.values) := by
    intro vs
    induction vs with
    | nil => intro rest; simp [foldList, mapList]
    | cons a as ih => intro rest; simp [foldList, mapList, ih, seq_assoc]
  rcases h : f v w with ⟨p | c, w'⟩
  · simp [bindE, seq, h]
  · rcases c with ⟨_ | ⟨c, cs⟩⟩
    · simp [bindE, seq, h, ret, Choice.newEmpty]
    · simp only [bindE, key, calls_eq]
      rw [seq_ok h]
      rcases h2 : mapList f vs w' with ⟨p | ds, w''⟩
      · simp [seq, h2]
      · simp [seq, h2, ret, Choice.new]

/-! ## What a closure that keeps a log records -/

/-- A closure that records its argument and then returns `g` of it, or panics where `bad` says so. -/
def logging (g : A → B) (bad : A → Bool) : A → Act (List A) B := fun a log =>
  (if bad a then .error (.str "boom") else .ok (g a), log ++ [a])

/-- Without a panic the log is the list of held values and the result that of the pure model. -/
theorem c69_log {F : Type → Type} [RFunctor F] [RFunctorE F] [HasElems F] (h : FunctorCalls F) (x : F A) (g : A → B)
    (log : List A) :
    fmapE (logging g fun _ => false) x log = (.ok (RFunctor.fmap g x), log ++ elems x) := by
  have hc : ∀ (xs : List A) (bs : List B) (log : List A),
      xs.foldl (callStep (logging g fun _ => false)) (.ok bs, log) = (.ok (bs ++ xs.map g), log ++ xs) := by
    intro xs
    induction xs with
    | nil => intro bs log; simp
    | cons a as ih => intro bs log; simp [callStep, logging, ih]
  have hp : ∀ (xs : List A) (bs : List B),
      xs.foldl (callStep fun a => (ret (g a) : Act Unit B)) (.ok bs, ()) = (.ok (bs ++ xs.map g), ()) := by
    intro xs
    induction xs with
    | nil => intro bs; simp
    | cons a as ih => intro bs; simp [callStep, ret, ih]
  have h1 := h.fmap x (logging g fun _ => false) log
  have h2 := h.fmap x (fun a => (ret (g a) : Act Unit B)) ()
  simp only [calls, hc, hp, List.nil_append, h.fmap_pure] at h1 h2
  obtain ⟨y, hy, he, hv⟩ := h1
  obtain ⟨z, hz, he', hv'⟩ := h2
  simp only [ret, Prod.mk.injEq, Except.ok.injEq, and_true] at hz
  rw [hy, h.shape y (RFunctor.fmap g x) (by rw [hz, he, he']) (by rw [hz, hv, hv'])]

/-- A panic at the first bad value: the log ends with it, whatever comes after is not touched. -/
theorem c69_panic {F : Type → Type} [RFunctor F] [RFunctorE F] [HasElems F] (h : FunctorCalls F) (x : F A) (g : A → B)
    (bad : A → Bool) (pre post : List A) (a : A) (hx : elems x = pre ++ a :: post)
    (hpre : ∀ b ∈ pre, bad b = false) (ha : bad a = true) (log : List A) :
    fmapE (logging g bad) x log = (.error (.str "boom"), log ++ pre ++ [a]) := by
  have hc : ∀ (pre : List A), (∀ b ∈ pre, bad b = false) → ∀ (bs : List B) (log : List A),
      (pre ++ a :: post).foldl (callStep (logging g bad)) (.ok bs, log) =
        (.error (.str "boom"), log ++ pre ++ [a]) := by
    intro pre
    induction pre with
    | nil =>
      intro _ bs log
      simp only [List.nil_append, List.foldl_cons, callStep, logging, ha, if_true]
      rw [callStep_error]
      simp
    | cons b pre ih =>
      intro hb bs log
      have hb0 := hb b (by simp)
      simp only [List.cons_append, List.foldl_cons, callStep, logging, hb0]
      have := ih (fun c hc => hb c (by simp [hc])) (bs ++ [g b]) (log ++ [b])
      simpa using this
  have h1 := h.fmap x (logging g bad) log
  simp only [calls, hx, hc pre hpre] at h1
  exact h1

/-- On `[1, 2, 3]` with a closure that panics on `2`, the closure sees `1` and `2` only. -/
example : fmapE (logging (· + 10) (· == 2)) [1, 2, 3] [] = (.error (.str "boom"), [1, 2]) :=
  c69_panic c69_fmap_vec [1, 2, 3] (· + 10) (· == 2) [1] [3] 2 rfl (by decide) rfl []

example : fmapE (logging (· + 10) fun _ => false) (Choice.mk [1, 2, 3]) [] = (.ok ⟨[11, 12, 13]⟩, [1, 2, 3]) :=
  c69_log c69_fmap_choice _ _ _

/-- `lift2` of a `Choice` meets the combinations primary first; each one once. -/
example : lift2E (fun a b (log : List (Nat × Nat)) => (.ok (a + b), log ++ [(a, b)]))
    (Choice.mk [1, 2]) (Choice.mk [10, 20]) [] =
      (.ok ⟨[11, 21, 12, 22]⟩, [(1, 10), (1, 20), (2, 10), (2, 20)]) := rfl

/-- `bind` of a `Choice` whose closure answers empty on the primary value: the alternatives are not asked. -/
example : bindE (Choice.mk [1, 2, 3])
    (fun a (log : List Nat) => (.ok (if a == 1 then Choice.mk [] else Choice.mk [a]), log ++ [a])) [] =
      (.ok ⟨[]⟩, [1]) := rfl

example : bindE (Except.error 7 : Except Nat Nat) (fun a (log : List Nat) => (.ok (.ok a), log ++ [a])) [] =
    (.ok (.error 7 : Except Nat Nat), []) := rfl

end Rustica
