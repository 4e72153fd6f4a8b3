import Verif.Theorems.Clones

/-! # How often the methods clone that clone too much (C92) -/

namespace Rustica
open Act (ret mapList foldList)
open Spec
namespace Clones
variable {σ A B C D E L W : Type}

/-- The claim is false for the owned methods of `Vec`. -/
theorem c92_vec_owned_false : ¬ OwnedApplicative Nat List := by
  intro h
  letI : RClone Nat Nat := counting
  letI : RClone Nat (Nat → Act Nat Nat) := counting
  exact absurd (congrArg Prod.snd (congrFun (h.applyOwned [fun a => (ret a : Act Nat Nat)] [1]) 0)) (by decide)

/-! ## `Choice` -/

/-- The owned applicative methods of `Choice` are the methods that do not clone, with a closure that clones its
arguments. -/
theorem c92_choice_owned [RClone σ (A → Act σ B)] [RClone σ A] [RClone σ B] [RClone σ C] [RClone σ D] :
    (∀ (fs : Choice (A → Act σ B)) (x : Choice A),
      applyOwnedC fs x = applyOwnedE ⟨fs.values.map fun f a => (clone a).seq f⟩ x) ∧
    (∀ (f : A → B → Act σ C) (a : Choice A) (b : Choice B),
      lift2OwnedC f a b = lift2OwnedE (fun a b => (clone a).seq fun a => (clone b).seq fun b => f a b) a b) ∧
    (∀ (f : A → B → C → Act σ D) (a : Choice A) (b : Choice B) (c : Choice C),
      lift3OwnedC f a b c = lift3OwnedE (fun a b c => (clone a).seq fun a => (clone b).seq fun b =>
        (clone c).seq fun c => f a b c) a b c) := by
  refine ⟨fun fs x => ?_, fun f a b => ?_, fun f a b c => ?_⟩
  · rcases fs with ⟨_ | ⟨f, fs⟩⟩ <;> rcases x with ⟨_ | ⟨x, xs⟩⟩
    case cons.cons =>
      show Choice.applyOwnedC' _ _ = Choice.applyOwnedE' _ _
      simp only [Choice.applyOwnedC', Choice.applyOwnedE', Choice.generateApplyAlternativesC,
        Choice.generateApplyAlternativesE, Act.seq_assoc, List.map_cons]
      have : ∀ xi : A × Nat, Act.filterMapList (fun fj : (A → Act σ B) × Nat =>
          if xi.2 == 0 && fj.2 == 0 then ret none else (clone xi.1).seq fun x => (fj.1 x).seq fun b => ret (some b))
            (f :: fs).zipIdx =
          Act.filterMapList (fun fj : (A → Act σ B) × Nat =>
            if xi.2 == 0 && fj.2 == 0 then ret none else (fj.1 xi.1).seq fun b => ret (some b))
            (((fun a => (clone a).seq f) :: fs.map fun f a => (clone a).seq f)).zipIdx := by
        intro xi
        rw [show ((fun a => (clone a).seq f) :: fs.map fun (f : A → Act σ B) a => (clone a).seq f) =
          (f :: fs).map fun f a => (clone a).seq f from rfl, List.zipIdx_map]
        generalize (f :: fs).zipIdx = l
        induction l with
        | nil => rfl
        | cons y l ih =>
          simp only [List.map_cons, Act.filterMapList, ih, Prod.map, id_eq]
          by_cases h : (xi.2 == 0 && y.2 == 0) = true <;> simp [h, Act.seq_assoc]
      simp only [this]
    all_goals rfl
  · rcases a with ⟨_ | ⟨a, as⟩⟩ <;> rcases b with ⟨_ | ⟨b, bs⟩⟩ <;>
      simp [lift2OwnedC, lift2OwnedE, Choice.lift2OwnedC', Choice.lift2E', Choice.liftLoop2E, Act.seq_assoc]
  · rcases a with ⟨_ | ⟨a, as⟩⟩ <;> rcases b with ⟨_ | ⟨b, bs⟩⟩ <;> rcases c with ⟨_ | ⟨c, cs⟩⟩ <;>
      simp [lift3OwnedC, lift3OwnedE, Choice.lift3OwnedC', Choice.lift3E', Choice.liftLoop3E, Act.seq_assoc]

theorem choice_clone [RClone σ B] (c : Choice B) :
    (clone c : Act σ (Choice B)) = (mapList clone c.values).seq fun vs => ret ⟨vs⟩ := rfl

/-- `bind` clones every answer, `join` clones the inner value and then the answer, `join_owned` clones the answer. -/
theorem c92_choice_bind [RClone σ A] [RClone σ B] (c : Choice A) (f : A → Act σ (Choice B)) :
    bindC c f = bindE c (fun a => (f a).seq clone) ∧
    joinC f c = bindE c (fun a => (clone a).seq fun a' => (f a').seq clone) ∧
    joinOwnedC f c = bindE c (fun a => (f a).seq clone) := by
  rcases c with ⟨_ | ⟨v, vs⟩⟩
  · exact ⟨rfl, rfl, rfl⟩
  refine ⟨?_, ?_, ?_⟩
  · simp only [bindC, bindE, Choice.bindC', Act.seq_assoc]
    congr 1; funext c
    rcases c with ⟨_ | ⟨x, xs⟩⟩ <;> simp [choice_clone, Act.seq_assoc, mapList]
  · simp only [joinC, bindE, Choice.joinC', Act.seq_assoc]
    congr 1; funext v'
    congr 1; funext c
    rcases c with ⟨_ | ⟨x, xs⟩⟩ <;> simp [choice_clone, Act.seq_assoc, mapList]
  · simp only [joinOwnedC, bindE, Choice.joinOwnedC', Act.seq_assoc]
    congr 1; funext c
    rcases c with ⟨_ | ⟨x, xs⟩⟩ <;> simp [choice_clone, Act.seq_assoc, mapList]

/-- `bind_owned` clones the first answer only. -/
theorem c92_choice_bind_owned [RClone σ A] [RClone σ B] (f : A → Act σ (Choice B)) (v : A) (vs : List A) :
    bindOwnedC (⟨[]⟩ : Choice A) f = ret ⟨[]⟩ ∧
    bindOwnedC (⟨v :: vs⟩ : Choice A) f = ((f v).seq clone).seq fun first =>
      if first.values = [] then ret ⟨[]⟩
      else (mapList f vs).seq fun cs => ret ⟨first.values ++ cs.flatMap Choice.values⟩ := by
  refine ⟨rfl, ?_⟩
  have key : ∀ (vs : List A) (rest : List B),
      foldList (fun alternatives alt => (f alt).seq fun c => ret (alternatives ++ c.values)) vs rest =
        (mapList f vs).seq fun cs => ret (rest ++ cs.flatMap Choice.values) := by
    intro vs
    induction vs with
    | nil => intro rest; simp [foldList, mapList]
    | cons v vs ih => intro rest; simp [foldList, mapList, ih, Act.seq_assoc]
  simp only [bindOwnedC, Choice.bindOwnedC', Act.seq_assoc, key]
  congr 1; funext c
  rcases c with ⟨_ | ⟨x, xs⟩⟩ <;> simp [choice_clone, Act.seq_assoc, mapList, Choice.new, Choice.newEmpty]

theorem lift2E_eq (f : A → B → Act σ C) (a : Choice A) (b : Choice B) :
    Choice.lift2E' f a b = (mapList (fun p : A × B => f p.1 p.2) (a.values.flatMap fun a => b.values.map (Prod.mk a))).seq
      fun vs => ret ⟨vs⟩ := by
  rw [← Choice.lift2_values]
  rcases a with ⟨_ | ⟨x, xs⟩⟩ <;> rcases b with ⟨_ | ⟨y, ys⟩⟩
  case cons.cons =>
    show _ = (mapList _ ((x, y) :: Choice.liftLoop2 Prod.mk (x :: xs) (y :: ys))).seq _
    simp [Choice.lift2E', liftLoop2E_eq, mapList, Act.seq_assoc, Choice.new]
  all_goals rfl
theorem lift3E_eq (f : A → B → C → Act σ D) (a : Choice A) (b : Choice B) (c : Choice C) :
    Choice.lift3E' f a b c = (mapList (fun p : A × B × C => f p.1 p.2.1 p.2.2)
      (a.values.flatMap fun a => b.values.flatMap fun b => c.values.map fun c => (a, b, c))).seq
      fun vs => ret ⟨vs⟩ := by
  rw [← Choice.lift3_values (fun a b c => (a, b, c))]
  rcases a with ⟨_ | ⟨x, xs⟩⟩ <;> rcases b with ⟨_ | ⟨y, ys⟩⟩ <;> rcases c with ⟨_ | ⟨z, zs⟩⟩
  case cons.cons.cons =>
    show _ = (mapList _ ((x, y, z) :: Choice.liftLoop3 (fun a b c => (a, b, c)) (x :: xs) (y :: ys) (z :: zs))).seq _
    simp [Choice.lift3E', liftLoop3E_eq, mapList, Act.seq_assoc, Choice.new]
  all_goals rfl
theorem applyOwnedE_eq (fs : Choice (A → Act σ B)) (x : Choice A) :
    Choice.applyOwnedE' fs x = (mapList (fun p : (A → Act σ B) × A => p.1 p.2)
      (x.values.flatMap fun x => fs.values.map fun f => (f, x))).seq fun vs => ret ⟨vs⟩ := by
  have e : (x.values.flatMap fun x => fs.values.map fun f => (f, x)) =
      (Choice.applyOwned ⟨fs.values.map Prod.mk⟩ x).values := by
    rw [Choice.applyOwned_eq, Choice.apply_values]
    simp [Function.comp_def]
  rw [e]
  rcases fs with ⟨_ | ⟨f, fs⟩⟩ <;> rcases x with ⟨_ | ⟨y, ys⟩⟩
  case cons.cons =>
    show _ = (mapList _ ((f, y) :: Choice.generateApplyAlternatives ((f :: fs).map Prod.mk) (y :: ys))).seq _
    simp only [Choice.applyOwnedE', mapList, generateApplyAlternativesE_eq, Act.seq_assoc, Act.ret_seq, Choice.new,
      List.singleton_append]
  all_goals rfl

theorem Clones.mapConst {f : A → Act Nat B} {g : A → B} {k l : Nat} (h : ∀ a, Spec.Clones (f a) (g a) k)
    (xs : List A) (hl : l = xs.length * k) : Spec.Clones (mapList f xs) (xs.map g) l := by
  rw [hl, ← sum_const xs k]
  exact Clones.map' h xs
theorem Clones.of_eq {m : Act Nat A} {a b : A} {j k : Nat} (h : Spec.Clones m a j) (ha : a = b) (hk : j = k) :
    Spec.Clones m b k := ha ▸ hk ▸ h

theorem Clones.args2 [RClone Nat A] [RClone Nat B] (hA : CountsClones A) (hB : CountsClones B) (f : A → B → C) (a : A)
    (b : B) : Spec.Clones ((clone a).seq fun a => (clone b).seq fun b => ret (f a b)) (f a b) 2 :=
  Clones.seq' (f := fun a => (clone b).seq fun b => ret (f a b)) (fun n => hA a n)
    (Clones.seq' (f := fun b => ret (f a b)) (fun n => hB b n) (Clones.ret' _) rfl) rfl
theorem Clones.args3 [RClone Nat A] [RClone Nat B] [RClone Nat C] (hA : CountsClones A) (hB : CountsClones B)
    (hC : CountsClones C) (f : A → B → C → D) (a : A) (b : B) (c : C) :
    Spec.Clones ((clone a).seq fun a => (clone b).seq fun b => (clone c).seq fun c => ret (f a b c)) (f a b c) 3 :=
  Clones.seq' (f := fun a => (clone b).seq fun b => (clone c).seq fun c => ret (f a b c)) (fun n => hA a n)
    (Clones.args2 hB hC (f a) b c) rfl

/-- `Choice::apply_owned`, `lift2_owned` and `lift3_owned` clone the arguments of every call. -/
theorem c92_choice_owned_counts [RClone Nat (A → Act Nat B)] [RClone Nat A] [RClone Nat B] [RClone Nat C]
    [RClone Nat D] (hA : CountsClones A) (hB : CountsClones B) (hC : CountsClones C) (fs : Choice (A → B))
    (g : A → B → C) (g3 : A → B → C → D) (a : Choice A) (b : Choice B) (c : Choice C) :
    Spec.Clones (applyOwnedC (⟨fs.values.map fun f a => (ret (f a) : Act Nat B)⟩ : Choice _) a)
      (RApplicative.applyOwned fs a) (a.values.length * fs.values.length) ∧
    Spec.Clones (lift2OwnedC (fun a b => (ret (g a b) : Act Nat C)) a b) (RApplicative.lift2Owned g a b)
      (2 * (a.values.length * b.values.length)) ∧
    Spec.Clones (lift3OwnedC (fun a b c => (ret (g3 a b c) : Act Nat D)) a b c) (RApplicative.lift3Owned g3 a b c)
      (3 * (a.values.length * (b.values.length * c.values.length))) := by
  have len : ∀ {X Y : Type} (xs : List X) (h : X → List Y) (k : Nat), (∀ x, (h x).length = k) →
      (xs.flatMap h).length = xs.length * k := fun xs h k hk => by
    simp [List.length_flatMap, hk, sum_const]
  refine ⟨?_, ?_, ?_⟩
  · rw [c92_choice_owned (C := A) (D := A).1]
    show Spec.Clones (Choice.applyOwnedE' _ _) (Choice.applyOwned fs a) _
    rw [applyOwnedE_eq]
    have e : (a.values.flatMap fun x => ((fs.values.map fun f a => (ret (f a) : Act Nat B)).map
        fun f a => (clone a).seq f).map fun f => (f, x)) =
        (a.values.flatMap fun x => fs.values.map fun f => (f, x)).map
          fun p => ((fun a => (clone a).seq fun a => (ret (p.1 a) : Act Nat B)), p.2) := by
      simp [List.map_flatMap, Function.comp_def]
    rw [e, Act.mapList_map]
    refine Clones.seq' (Clones.mapConst (g := fun p : (A → B) × A => p.1 p.2) (k := 1)
      (fun p => Clones.seq' (fun n => hA p.2 n) (Clones.ret' _) rfl) _ rfl) (Clones.of_eq (Clones.ret' _) ?_ rfl) ?_
    · apply Choice.ext'
      rw [Choice.applyOwned_eq, Choice.apply_values]
      simp [List.map_flatMap, Function.comp_def]
    · rw [len _ _ fs.values.length (by simp)]; omega
  · rw [c92_choice_owned (D := A).2.1]
    show Spec.Clones (Choice.lift2E' _ _ _) (Choice.lift2 g a b) _
    rw [lift2E_eq]
    refine Clones.seq' (Clones.mapConst (g := fun p : A × B => g p.1 p.2) (k := 2)
      (fun p => Clones.args2 hA hB g p.1 p.2) _ rfl)
      (Clones.of_eq (Clones.ret' _) ?_ rfl) ?_
    · apply Choice.ext'
      rw [Choice.lift2_values]
      simp [List.map_flatMap, Function.comp_def]
    · rw [len _ _ b.values.length (by simp)]; omega
  · rw [c92_choice_owned.2.2]
    show Spec.Clones (Choice.lift3E' _ _ _ _) (Choice.lift3 g3 a b c) _
    rw [lift3E_eq]
    refine Clones.seq' (Clones.mapConst (g := fun p : A × B × C => g3 p.1 p.2.1 p.2.2) (k := 3)
      (fun p => Clones.args3 hA hB hC g3 p.1 p.2.1 p.2.2) _ rfl)
      (Clones.of_eq (Clones.ret' _) ?_ rfl) ?_
    · apply Choice.ext'
      rw [Choice.lift3_values]
      simp [List.map_flatMap, Function.comp_def]
    · rw [len _ _ (b.values.length * c.values.length) (fun _ => len _ _ c.values.length (by simp))]; omega
/-- Two functions and two values: four clones. -/
example : letI : RClone Nat Nat := counting; letI : RClone Nat (Nat → Act Nat Nat) := counting
    applyOwnedC (⟨[fun a => (ret (a + 1) : Act Nat Nat), fun a => ret (a * 2)]⟩ : Choice _) ⟨[3, 4]⟩ 0 =
      (.ok ⟨[4, 6, 5, 8]⟩, 4) := rfl

/-- `bind` and `join_owned` clone every value of the result, `join` twice, `bind_owned` those of the first answer. -/
theorem c92_choice_bind_counts [RClone Nat A] [RClone Nat B] (hB : CountsClones B) (c : Choice A) (f : A → Choice B)
    (d : Choice (Choice B)) :
    Spec.Clones (bindC c fun a => (ret (f a) : Act Nat (Choice B))) (RMonad.bind c f) (RMonad.bind c f).values.length ∧
    Spec.Clones (bindOwnedC c fun a => (ret (f a) : Act Nat (Choice B))) (RMonad.bindOwned c f)
      (match c.values with | [] => 0 | v :: _ => (f v).values.length) ∧
    Spec.Clones (joinC (fun a => (ret a : Act Nat (Choice B))) d) (RMonad.join id d)
      (2 * (RMonad.join id d).values.length) ∧
    Spec.Clones (joinOwnedC (fun a => (ret a : Act Nat (Choice B))) d) (RMonad.joinOwned id d)
      (RMonad.joinOwned id d).values.length := by
  have clone' : ∀ x : Choice B, Spec.Clones (clone x) x x.values.length := fun x =>
    (c92_clone_counts (B := B) hB x.values).2.1
  have bind' : ∀ {X : Type} (c : Choice X) (g : X → Choice B) (h : X → Act Nat (Choice B)) (k : X → Nat),
      (∀ x, Spec.Clones (h x) (g x) (k x)) → Spec.Clones (bindE c h) (Choice.bind c g)
        (match c.values with
          | [] => 0
          | v :: vs => if (g v).values = [] then k v else k v + (vs.map k).sum) := by
    intro X c g h k hk
    rcases c with ⟨_ | ⟨v, vs⟩⟩
    · exact Clones.ret' _
    · simp only [bindE, Choice.bind]
      refine Clones.seq' (hk v) (k := if (g v).values = [] then 0 else (vs.map k).sum) ?_ (by split <;> simp)
      rcases g v with ⟨_ | ⟨y, ys⟩⟩
      · exact Clones.ret' _
      · simp only [reduceCtorEq, if_false]
        refine Clones.seq' (Clones.fold' (g := fun alternatives alt => alternatives ++ (g alt).values)
          (fun u x => Clones.seq' (hk x) (Clones.ret' _) rfl) vs ys) (Clones.ret' _) rfl
  have count : ∀ {X : Type} (c : Choice X) (g : X → Choice B), (Choice.bind c g).values.length =
      (match c.values with
          | [] => 0
          | v :: vs => if (g v).values = [] then 0 else (g v).values.length +
            (vs.map fun v => (g v).values.length).sum) := by
    intro X c g
    rw [Choice.bind_values]
    rcases c with ⟨_ | ⟨v, vs⟩⟩
    · rfl
    · simp only
      split <;> simp [List.length_flatMap]
  refine ⟨?_, ?_, ?_, ?_⟩
  · rw [(c92_choice_bind c _).1]
    refine Clones.of_eq (bind' c f _ (fun a => (f a).values.length) fun a => clone' (f a)) rfl ?_
    rw [show RMonad.bind c f = Choice.bind c f from rfl, count]
    rcases c with ⟨_ | ⟨v, vs⟩⟩
    · rfl
    · simp only
      split <;> simp_all
  · rcases c with ⟨_ | ⟨v, vs⟩⟩
    · exact Clones.ret' _
    · rw [(c92_choice_bind_owned _ v vs).2, Act.ret_seq]
      refine Clones.seq' (clone' (f v)) (k := 0) ?_ rfl
      show Spec.Clones _ (Choice.bind ⟨v :: vs⟩ f) 0
      by_cases h : (f v).values = []
      · rw [if_pos h]
        refine Clones.of_eq (Clones.ret' _) (Choice.ext' ?_) rfl
        rw [Choice.bind_values]; simp [h]
      · rw [if_neg h]
        refine Clones.seq' (Clones.mapConst (k := 0) (g := f) (fun a => Clones.ret' _) vs rfl)
          (Clones.of_eq (Clones.ret' _) (Choice.ext' ?_) rfl) rfl
        rw [Choice.bind_values]; simp [h, List.flatMap_map]
  · rw [(c92_choice_bind d _).2.1]
    refine Clones.of_eq (bind' d id _ (fun a => 2 * a.values.length) fun a =>
      Clones.seq' (clone' a) (clone' a) (by omega)) ?_ ?_
    · exact (Choice.join_eq id d).symm
    · rw [show RMonad.join id d = Choice.bind d id from Choice.join_eq id d, count]
      rcases d with ⟨_ | ⟨v, vs⟩⟩
      · rfl
      · have : ∀ vs : List (Choice B), (vs.map fun a => 2 * a.values.length).sum =
            2 * (vs.map fun a => a.values.length).sum := fun vs => by
          induction vs with
          | nil => rfl
          | cons v vs ih => simp [ih]; omega
        simp only [id, this]
        split
        · simp_all
        · omega
  · rw [(c92_choice_bind d _).2.2]
    refine Clones.of_eq (bind' d id _ (fun a => a.values.length) fun a => clone' a) ?_ ?_
    · exact (Choice.joinOwned_eq id d).symm
    · rw [show RMonad.joinOwned id d = Choice.bind d id from Choice.joinOwned_eq id d, count]
      rcases d with ⟨_ | ⟨v, vs⟩⟩
      · rfl
      · simp only [id]
        split <;> simp_all
/-- Five values: `join` clones each twice, `join_owned` once, and `bind_owned` clones the first two. -/
example : letI : RClone Nat Nat := counting
    (joinC (fun a => (ret a : Act Nat (Choice Nat))) ⟨[⟨[1, 2]⟩, ⟨[]⟩, ⟨[3, 4, 5]⟩]⟩ 0).2 = 10 ∧
    (joinOwnedC (fun a => (ret a : Act Nat (Choice Nat))) ⟨[⟨[1, 2]⟩, ⟨[]⟩, ⟨[3, 4, 5]⟩]⟩ 0).2 = 5 ∧
    (bindOwnedC (⟨[⟨[1, 2]⟩, ⟨[]⟩, ⟨[3, 4, 5]⟩]⟩ : Choice (Choice Nat)) (fun a => ret a) 0).2 = 2 := ⟨rfl, rfl, rfl⟩

/-- The claim is false for the owned methods of `Choice`. -/
theorem c92_choice_owned_false : ¬ OwnedApplicative Nat Choice ∧ ¬ OwnedMonad Nat Choice := by
  letI : RClone Nat Nat := counting
  letI : RClone Nat (Nat → Act Nat Nat) := counting
  constructor <;> intro h
  · exact absurd (congrArg Prod.snd (congrFun (h.lift2Owned (fun a b => (ret (a + b) : Act Nat Nat)) ⟨[1]⟩ ⟨[2]⟩) 0))
      (by decide)
  · exact absurd (congrArg Prod.snd (congrFun (h.bindOwned (⟨[1]⟩ : Choice Nat)
      (fun a => (ret ⟨[a]⟩ : Act Nat (Choice Nat)))) 0)) (by decide)

/-- `sequence` clones the values up to the first `None`; `Vec::from` clones every value of the choice it takes;
iterating does not clone. -/
theorem c92_choice_into [RClone Nat A] (h : CountsClones A) (c : Choice A) (d : Choice (Option A)) :
    Spec.Clones (Choice.intoVecC c) c.values c.values.length ∧
    Spec.Clones (Choice.intoIterC c) c.values 0 ∧
    Spec.Clones (Choice.sequenceC d) (Choice.sequence d) (d.values.takeWhile Option.isSome).length := by
  refine ⟨Clones.list h c.values, Clones.ret' _, ?_⟩
  have key : ∀ xs : List (Option A), Spec.Clones (Choice.sequenceLoopC xs) (Choice.sequence.collectOptions xs)
      (xs.takeWhile Option.isSome).length := by
    intro xs
    induction xs with
    | nil => exact Clones.ret' _
    | cons x xs ih =>
      rw [Choice.sequenceLoopC]
      rcases x with _ | a
      · exact Clones.ret' _
      · refine Clones.seq' (j := 1) (a := some a) (fun n => ?_) (Clones.seq' ih (Clones.ret' _) rfl) ?_
        · simp [clone, Act.seq, h a n, Act.ret]
        · simp [List.takeWhile]; omega
  exact Clones.seq' (key d.values) (Clones.ret' _) rfl
example : letI : RClone Nat Nat := counting
    Choice.sequenceC ⟨[some 1, some 2, none, some 3]⟩ 0 = (.ok none, 2) ∧
    Choice.sequenceC ⟨[some 1, some 2]⟩ 0 = (.ok (some ⟨[1, 2]⟩), 2) := ⟨rfl, rfl⟩

end Clones
end Rustica
