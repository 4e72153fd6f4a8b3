import Verif.Spec.Clones
import Verif.Theorems.Calls
import Verif.Theorems.ChoiceLemmas
import Verif.Traits.Helpers
import Verif.Error.Convert

/-!
# C92: which values are cloned
-/

namespace Rustica
open Act (ret mapList foldList)
open Spec

namespace Clones
variable {σ A B C D E L W : Type}

/-! ## Examples of `Clone` used below -/

/-- Counts. -/
abbrev counting : RClone Nat A := ⟨fun a n => (.ok a, n + 1)⟩
/-- Panics. -/
abbrev panicking : RClone σ A := ⟨fun _ w => (.error (.str "clone"), w)⟩

/-! ## Taking ownership -/

/-- `fmap_owned` clones nothing; `Result` is missing, see `c92_result_fmap_owned`. -/
theorem c92_owned_functor :
    OwnedFunctor σ Option ∧ OwnedFunctor σ List ∧ OwnedFunctor σ Maybe ∧ OwnedFunctor σ RId ∧
    OwnedFunctor σ Choice ∧ (∀ [RClone σ L], OwnedFunctor σ (Either L)) ∧
    (∀ [RClone σ E], OwnedFunctor σ (Validated E)) ∧
    (∀ [RClone σ W] [RSemigroupC σ W], OwnedFunctor σ (Writer W)) := by
  refine ⟨⟨fun _ _ => rfl⟩, ⟨fun _ _ => rfl⟩, ⟨fun _ _ => rfl⟩, ⟨fun _ _ => rfl⟩, ⟨fun _ _ => rfl⟩,
    ⟨fun _ _ => rfl⟩, ⟨fun _ _ => rfl⟩, ⟨fun _ _ => rfl⟩⟩

/-- `apply_owned`, `lift2_owned`, `lift3_owned` clone nothing; `Vec` and `Choice` are missing, see `c92_vec_owned`,
`c92_choice_owned`. -/
theorem c92_owned_applicative :
    OwnedApplicative σ Option ∧ OwnedApplicative σ Maybe ∧ OwnedApplicative σ RId ∧
    (∀ [RClone σ E], OwnedApplicative σ (Except E)) ∧ (∀ [RClone σ L], OwnedApplicative σ (Either L)) ∧
    (∀ [RClone σ E], OwnedApplicative σ (Validated E)) := by
  refine ⟨⟨fun _ _ => rfl, fun _ _ _ => rfl, fun _ _ _ _ => rfl⟩,
    ⟨fun _ _ => rfl, fun _ _ _ => rfl, fun _ _ _ _ => rfl⟩,
    ⟨fun _ _ => rfl, fun _ _ _ => rfl, fun _ _ _ _ => rfl⟩,
    ⟨fun f x => ?_, fun _ _ _ => rfl, fun _ _ _ _ => rfl⟩,
    ⟨fun f x => ?_, fun _ _ _ => rfl, fun _ _ _ _ => rfl⟩,
    ⟨fun f x => ?_, fun _ a b => ?_, fun _ a b c => ?_⟩⟩
  · cases f <;> cases x <;> rfl
  · cases f <;> cases x <;> rfl
  · cases f <;> cases x <;> rfl
  · cases a <;> cases b <;> rfl
  · cases a <;> cases b <;> cases c <;> rfl

/-- `bind_owned`, `join_owned` clone nothing; `Choice` is missing, see `c92_choice_bind`. -/
theorem c92_owned_monad :
    OwnedMonad σ Option ∧ OwnedMonad σ Maybe ∧ OwnedMonad σ RId ∧
    (∀ [RClone σ E], OwnedMonad σ (Except E)) ∧ (∀ [RClone σ L], OwnedMonad σ (Either L)) ∧
    (∀ [RClone σ E], OwnedMonad σ (Validated E)) := by
  refine ⟨⟨fun _ _ => rfl, fun _ _ => rfl⟩, ⟨fun _ _ => rfl, fun _ _ => rfl⟩, ⟨fun _ _ => rfl, fun _ _ => rfl⟩,
    ⟨fun _ _ => rfl, fun _ _ => rfl⟩, ⟨fun _ _ => rfl, fun _ _ => rfl⟩, ⟨fun _ _ => rfl, fun _ _ => rfl⟩⟩

theorem choice_combine [RClone σ A] (x y : Choice A) : x.combineC' y = (clone (combine x y) : Act σ (Choice A)) := by
  obtain ⟨xs⟩ := x; obtain ⟨ys⟩ := y
  cases xs with
  | nil => rfl
  | cons v vs =>
    cases ys with
    | nil => rfl
    | cons u us =>
      show _ = (mapList clone (v :: (vs ++ u :: us))).seq fun vs => ret (Choice.mk vs)
      simp [mapList, Choice.combineC', Act.seq_assoc, Choice.new]
theorem choice_combineOwned [RClone σ A] (x y : Choice A) :
    x.combineOwnedC' y = (ret (combineOwned x y) : Act σ (Choice A)) := by
  obtain ⟨xs⟩ := x; obtain ⟨ys⟩ := y
  cases xs <;> cases ys <;> rfl

/-- `mplus_owned` clones nothing, `mplus` clones its result. -/
theorem c92_plus [RClone σ A] :
    PlusClones σ Option A ∧ PlusClones σ Maybe A ∧ PlusClones σ Choice A ∧
    (∀ [RClone σ E] [Inhabited E], PlusClones σ (Except E) A) ∧
    (∀ [RClone σ L] [Inhabited L], PlusClones σ (Either L) A) ∧
    (∀ [RClone σ E] [Inhabited E], PlusClones σ (Validated E) A) := by
  refine ⟨⟨?_, ?_⟩, ⟨?_, ?_⟩, ⟨?_, ?_⟩, ⟨?_, ?_⟩, ⟨?_, ?_⟩, ⟨?_, ?_⟩⟩
  · intro x y; cases x <;> rfl
  · intro x y; cases x <;> rfl
  · intro x y; cases x <;> rfl
  · intro x y; cases x <;> cases y <;> rfl
  · rintro ⟨xs⟩ ⟨ys⟩; cases xs <;> cases ys <;> rfl
  · rintro ⟨xs⟩ ⟨ys⟩
    cases xs with
    | nil => rfl
    | cons v vs =>
      cases ys with
      | nil => rfl
      | cons u us => exact choice_combine _ _
  · intro x y; cases x <;> rfl
  · intro x y; cases x <;> rfl
  · intro x y; cases x <;> cases y <;> rfl
  · intro x y; cases x <;> cases y <;> rfl
  · intro x y; cases x <;> cases y <;> rfl
  · intro x y; cases x <;> cases y <;> rfl

/-- `combine_owned` clones nothing, `combine` clones its result. -/
theorem c92_combine [RClone σ A] :
    CombineClones σ (List A) ∧ CombineClones σ (Choice A) ∧ CombineClones σ (First A) ∧
    CombineClones σ (Last A) ∧ (∀ [ROrd A], CombineClones σ (Min A)) ∧ (∀ [ROrd A], CombineClones σ (Max A)) ∧
    (∀ [RClone σ E], CombineClones σ (Validated E A)) := by
  refine ⟨⟨fun _ _ => rfl, ?_⟩, ⟨choice_combineOwned, choice_combine⟩, ⟨?_, ?_⟩, ⟨?_, ?_⟩, ⟨?_, ?_⟩, ⟨?_, ?_⟩,
    ⟨?_, ?_⟩⟩
  · intro x y; exact (Act.mapList_append _ _ _).symm
  · rintro ⟨x⟩ ⟨y⟩; cases x <;> rfl
  · rintro ⟨x⟩ ⟨y⟩; cases x <;> rfl
  · rintro ⟨x⟩ ⟨y⟩; cases y <;> rfl
  · rintro ⟨x⟩ ⟨y⟩; cases y <;> rfl
  · intro x y
    show (match ROrd.cmp x.val y.val with | .lt | .eq => ret x | .gt => ret y) =
      ret (match ROrd.cmp x.val y.val with | .lt | .eq => x | .gt => y)
    cases ROrd.cmp x.val y.val <;> rfl
  · intro x y
    show (match ROrd.cmp x.val y.val with | .lt | .eq => _ | .gt => _) =
      clone (match ROrd.cmp x.val y.val with | .lt | .eq => (⟨x.val⟩ : Min A) | .gt => ⟨y.val⟩)
    cases ROrd.cmp x.val y.val <;> rfl
  · intro x y
    show (match ROrd.cmp x.val y.val with | .gt | .eq => ret x | .lt => ret y) =
      ret (match ROrd.cmp x.val y.val with | .gt | .eq => x | .lt => y)
    cases ROrd.cmp x.val y.val <;> rfl
  · intro x y
    show (match ROrd.cmp x.val y.val with | .gt | .eq => _ | .lt => _) =
      clone (match ROrd.cmp x.val y.val with | .gt | .eq => (⟨x.val⟩ : Max A) | .lt => ⟨y.val⟩)
    cases ROrd.cmp x.val y.val <;> rfl
  · intro x y; cases x <;> cases y <;> rfl
  · intro x y; cases x <;> cases y <;> rfl

/-- `fmap` clones what it keeps of the borrowed container and nothing else. -/
theorem c92_borrowed_functor :
    BorrowedFunctor σ Option ∧ BorrowedFunctor σ List ∧ BorrowedFunctor σ Maybe ∧ BorrowedFunctor σ RId ∧
    BorrowedFunctor σ Choice ∧ (∀ [RClone σ E], BorrowedFunctor σ (Except E)) ∧
    (∀ [RClone σ L], BorrowedFunctor σ (Either L)) ∧ (∀ [RClone σ E], BorrowedFunctor σ (Validated E)) ∧
    (∀ [RClone σ W] [RSemigroupC σ W], BorrowedFunctor σ (Writer W)) := by
  refine ⟨⟨fun _ _ => rfl⟩, ⟨fun _ _ => rfl⟩, ⟨fun _ _ => rfl⟩, ⟨fun _ _ => rfl⟩, ⟨fun _ _ => rfl⟩,
    ⟨fun f x => ?_⟩, ⟨fun f x => ?_⟩, ⟨fun f x => ?_⟩, ⟨fun f x => ?_⟩⟩
  all_goals cases x <;> simp [fmapC, fmapE, kept, clone, Act.seq_assoc]

/-- `apply`, `lift2`, `lift3` clone what they keep and nothing else. -/
theorem c92_borrowed_applicative :
    UnclonedApplicative σ Option ∧ UnclonedApplicative σ List ∧ UnclonedApplicative σ Maybe ∧
    UnclonedApplicative σ RId ∧ UnclonedApplicative σ Choice ∧ (∀ [RClone σ E], BorrowedApplicative σ (Except E)) ∧
    (∀ [RClone σ L], BorrowedApplicative σ (Either L)) ∧ (∀ [RClone σ E], BorrowedApplicative σ (Validated E)) := by
  refine ⟨⟨fun _ _ => rfl, fun _ _ _ => rfl, fun _ _ _ _ => rfl⟩,
    ⟨fun _ _ => rfl, fun _ _ _ => rfl, fun _ _ _ _ => rfl⟩,
    ⟨fun _ _ => rfl, fun _ _ _ => rfl, fun _ _ _ _ => rfl⟩,
    ⟨fun _ _ => rfl, fun _ _ _ => rfl, fun _ _ _ _ => rfl⟩,
    ⟨fun _ _ => rfl, fun _ _ _ => rfl, fun _ _ _ _ => rfl⟩,
    ⟨fun f x => ?_, fun _ a b => ?_, fun _ a b c => ?_⟩, ⟨fun f x => ?_, fun _ a b => ?_, fun _ a b c => ?_⟩,
    ⟨fun f x => ?_, fun _ a b => ?_, fun _ a b c => ?_⟩⟩
  · cases f <;> cases x <;> simp [applyC, kept, RApplicative.lift2, fmapE, Act.seq_assoc]
  · cases a <;> cases b <;> simp [lift2C, kept, RApplicative.lift2, fmapE, Act.seq_assoc]
  · cases a <;> cases b <;> cases c <;>
      simp [lift3C, kept, RApplicative.lift3, fmapE, Act.seq_assoc]
  · cases f <;> cases x <;> simp [applyC, kept, RApplicative.lift2, fmapE, Act.seq_assoc]
  · cases a <;> cases b <;> simp [lift2C, kept, RApplicative.lift2, fmapE, Act.seq_assoc]
  · cases a <;> cases b <;> cases c <;>
      simp [lift3C, kept, RApplicative.lift3, fmapE, Act.seq_assoc]
  · cases f <;> cases x <;> simp [applyC, kept, RApplicative.lift2, Validated.addErrors, Act.seq_assoc, fmapE, clone,
      Act.mapList_append]
  · cases a <;> cases b <;> simp [lift2C, kept, RApplicative.lift2, Validated.addErrors, Validated.addClonedC,
      Act.seq_assoc, fmapE, Act.mapList_append]
  · cases a <;> cases b <;> cases c <;> simp [lift3C, kept, RApplicative.lift3, Validated.addErrors, Validated.addClonedC,
      Act.seq_assoc, fmapE, Act.mapList_append]

/-- `bind` clones what it keeps; `join` clones the container. -/
theorem c92_borrowed_monad [RClone σ A] :
    BorrowedMonad σ Option A ∧ BorrowedMonad σ Maybe A ∧ BorrowedMonad σ RId A ∧
    (∀ [RClone σ E], BorrowedMonad σ (Except E) A) ∧ (∀ [RClone σ L], BorrowedMonad σ (Either L) A) ∧
    (∀ [RClone σ E], BorrowedMonad σ (Validated E) A) := by
  refine ⟨⟨fun x _ => rfl, fun _ x => ?_⟩, ⟨fun x _ => rfl, fun _ x => ?_⟩, ⟨fun x _ => rfl, fun _ x => ?_⟩,
    ⟨fun x _ => ?_, fun _ x => ?_⟩, ⟨fun x _ => ?_, fun _ x => ?_⟩, ⟨fun x _ => ?_, fun _ x => ?_⟩⟩
  all_goals cases x <;> simp [bindC, bindE, joinC, bindOwnedE, kept, clone, Act.seq_assoc]

/-- `pure` clones its argument once, `pure_owned` does not clone; `Maybe`, `Either` and `Id` are missing, see
`c92_pure_owned_clones`. -/
theorem c92_pure :
    PureClones σ Option ∧ PureClones σ List ∧ PureClones σ Choice ∧ (∀ [RClone σ E], PureClones σ (Except E)) ∧
    PureClones σ (Validated E) ∧ (∀ [RClone σ W] [RSemigroupC σ W] [RMonoid W], PureClones σ (Writer W)) :=
  ⟨⟨fun _ => rfl, fun _ => rfl⟩, ⟨fun _ => rfl, fun _ => rfl⟩, ⟨fun _ => rfl, fun _ => rfl⟩,
    ⟨fun _ => rfl, fun _ => rfl⟩, ⟨fun _ => rfl, fun _ => rfl⟩, ⟨fun _ => rfl, fun _ => rfl⟩⟩

/-- `pure_owned` of `Maybe`, `Either` and `Id` is `pure`: it clones the value it was given. -/
theorem c92_pure_owned_clones [RClone σ A] (a : A) :
    (pureOwnedC a : Act σ (Maybe A)) = (clone a).seq (fun a' => ret (.Just a')) ∧
    (pureOwnedC a : Act σ (Either L A)) = (clone a).seq (fun a' => ret (.Right a')) ∧
    (pureOwnedC a : Act σ (RId A)) = (clone a).seq (fun a' => ret ⟨a'⟩) := ⟨rfl, rfl, rfl⟩
/-- The claim is false for `pure_owned` of `Maybe`, `Either` and `Id`. -/
theorem c92_pure_owned_false : ¬ PureClones Nat Maybe ∧ ¬ PureClones Nat (Either L) ∧ ¬ PureClones Nat RId := by
  refine ⟨fun h => ?_, fun h => ?_, fun h => ?_⟩ <;>
    · have := congrFun (@PureClones.owned _ _ _ _ h Nat counting 0) 0
      have := congrArg Prod.snd this
      exact absurd this (by decide : ¬ ((1 : Nat) = 0))

/-- `Result::fmap_owned` clones the error it owns, and only that. -/
theorem c92_result_fmap_owned [RClone σ E] [RClone σ A] [RClone σ B] (f : A → Act σ B) (x : Except E A) :
    fmapOwnedC f x = (kept x).seq (fmapOwnedE f) := by
  cases x <;> simp [fmapOwnedC, fmapOwnedE, kept, Act.seq_assoc]
/-- The claim is false for `Result::fmap_owned`. -/
theorem c92_result_fmap_owned_false [RClone Nat E] (hE : CountsClones E) (e : E) : ¬ OwnedFunctor Nat (Except E) := by
  intro h
  have := congrFun (@OwnedFunctor.fmapOwned _ _ _ _ h Nat Nat counting counting ret (.error e)) 0
  have := congrArg Prod.snd this
  simp [fmapOwnedC, fmapOwnedE, Act.seq, hE e, ret] at this
example : letI : RClone Nat String := counting; ¬ OwnedFunctor Nat (Except String) :=
  @c92_result_fmap_owned_false String counting (fun _ _ => rfl) "e"

/-- `replace_owned` clones its value once per held value, as `replace` does, and it borrows the container. -/
theorem c92_replace_owned {F : Type → Type} [RFunctorC σ F] [RFunctorE F] [CloneKept σ F] (h : BorrowedFunctor σ F)
    [RClone σ A] [RClone σ B] (x : F A) (b : B) :
    replaceOwnedC x b = ((kept x : Act σ (F A)).seq (fmapE fun _ => clone b) : Act σ (F B)) ∧
    replaceOwnedC x b = (replaceC x b : Act σ (F B)) :=
  ⟨h.fmap _ _, rfl⟩
/-- Three clones for three values. -/
example : @replaceOwnedC Nat List Nat String _ counting counting [1, 2, 3] "x" 0 = (.ok ["x", "x", "x"], 3) := rfl

/-- The wrappers clone nothing in `fmap` and `fmap_owned`. -/
theorem c92_wrapper_functor [RClone σ A] [RClone σ B] (f : A → Act σ B) :
    (OwnedFunctor σ First ∧ OwnedFunctor σ Last ∧ OwnedFunctor σ Min ∧ OwnedFunctor σ Max ∧ OwnedFunctor σ Sum ∧
      OwnedFunctor σ Product) ∧
    (∀ x : First A, fmapC f x = fmapE f x) ∧ (∀ x : Last A, fmapC f x = fmapE f x) ∧
    (∀ x : Min A, fmapC f x = fmapE f x) ∧ (∀ x : Max A, fmapC f x = fmapE f x) ∧
    (∀ x : Sum A, fmapC f x = fmapE f x) ∧ (∀ x : Product A, fmapC f x = fmapE f x) :=
  ⟨⟨⟨fun _ _ => rfl⟩, ⟨fun _ _ => rfl⟩, ⟨fun _ _ => rfl⟩, ⟨fun _ _ => rfl⟩, ⟨fun _ _ => rfl⟩, ⟨fun _ _ => rfl⟩⟩,
    fun _ => rfl, fun _ => rfl, fun _ => rfl, fun _ => rfl, fun _ => rfl, fun _ => rfl⟩

/-- `void_owned` does not clone. -/
theorem c92_void_owned {F : Type → Type} [RFunctorC σ F] [RFunctorE F] (h : OwnedFunctor σ F) [RClone σ A]
    [RClone σ Unit] (x : F A) : voidOwnedC x = (fmapOwnedE (fun _ => ret ()) x : Act σ (F Unit)) := h.fmapOwned _ _
/-- A vector of strings whose `clone` panics. -/
example : letI : RClone Unit String := panicking; letI : RClone Unit Unit := panicking
    voidOwnedC ["a", "b"] () = ((.ok [(), ()] : Except Panic (List Unit)), ()) := rfl

/-- `sequence_right_owned` and `sequence_left_owned` do not clone where `lift2_owned` does not. -/
theorem c92_sequence_owned {F : Type → Type} [RApplicativeC σ F] [RApplicativeE F] (h : OwnedApplicative σ F)
    [RClone σ A] [RClone σ B] (a : F A) (b : F B) :
    sequenceRightOwnedC a b = (lift2OwnedE (fun _ b => ret b) a b : Act σ (F B)) ∧
    sequenceLeftOwnedC a b = (lift2OwnedE (fun a _ => ret a) a b : Act σ (F A)) := ⟨h.lift2Owned _ _ _, h.lift2Owned _ _ _⟩
/-- Two options. -/
example : letI : RClone Unit String := panicking
    sequenceRightOwnedC (some "a") (some "b") () = ((.ok (some "b") : Except Panic (Option String)), ()) := rfl

/-- `sequence_right` and `sequence_left` clone every value of the side they keep, and nothing else but what `lift2`
clones. -/
theorem c92_sequence {F : Type → Type} [RApplicativeC σ F] [RApplicativeE F] (h : UnclonedApplicative σ F)
    [RClone σ A] [RClone σ B] (a : F A) (b : F B) :
    sequenceRightC a b = (lift2E (fun _ b => clone b) a b : Act σ (F B)) ∧
    sequenceLeftC a b = (lift2E (fun a _ => clone a) a b : Act σ (F A)) := ⟨h.lift2 _ _ _, h.lift2 _ _ _⟩
/-- Two values on the left, two on the right: four clones. -/
example : letI : RClone Nat Nat := counting
    sequenceRightC [1, 2] [3, 4] 0 = ((.ok [3, 4, 3, 4] : Except Panic (List Nat)), 4) := rfl

/-! ## `Writer` -/

/-- The owned methods of `Writer` clone only what `combine_owned` of the log clones. -/
theorem c92_writer_owned [RClone σ W] [RSemigroupC σ W] [RMonoid W]
    (h : ∀ x y : W, combineOwnedC x y = (ret (combineOwned x y) : Act σ W)) :
    OwnedApplicative σ (Writer W) ∧ OwnedMonad σ (Writer W) := by
  refine ⟨⟨fun f x => ?_, fun _ a b => ?_, fun _ a b c => ?_⟩, ⟨fun x f => ?_, fun f x => ?_⟩⟩
  · simp [applyOwnedC, applyOwnedE, h]
  · simp [lift2OwnedC, lift2OwnedE, h]
  · simp [lift3OwnedC, lift3OwnedE, h]
  · simp [bindOwnedC, bindOwnedE, h]
  · simp [joinOwnedC, bindOwnedE, h]
/-- A log of strings whose `clone` panics. -/
example : letI : RClone Unit String := panicking; OwnedMonad Unit (Writer (List String)) :=
  letI : RClone Unit String := panicking
  (c92_writer_owned fun _ _ => rfl).2

/-- `apply` and `lift2` clone the combined log before they call the closure; `bind` calls the closure and then clones
the combined log; `join` clones the inner writer first. -/
theorem c92_writer_borrowed [RClone σ W] [RSemigroupC σ W] [RMonoid W]
    (h : ∀ x y : W, combineC x y = (clone (combine x y) : Act σ W)) [RClone σ (A → Act σ B)] [RClone σ A] [RClone σ B]
    [RClone σ C] :
    (∀ (f : Writer W (A → Act σ B)) (x : Writer W A),
      applyC f x = (kept (RApplicative.lift2 Prod.mk f x)).seq (fmapE fun p => p.1 p.2)) ∧
    (∀ (f : A → B → Act σ C) (a : Writer W A) (b : Writer W B),
      lift2C f a b = (kept (RApplicative.lift2 Prod.mk a b)).seq (fmapE fun p => f p.1 p.2)) ∧
    (∀ (x : Writer W A) (f : A → Act σ (Writer W B)), bindC x f = (bindE x f).seq kept) ∧
    (∀ (into : A → Act σ (Writer W B)) (x : Writer W A),
      joinC into x = (clone x.value).seq fun v => (bindE ⟨x.log, v⟩ into).seq kept) := by
  refine ⟨fun f x => ?_, fun _ a b => ?_, fun x f => ?_, fun f x => ?_⟩
  · simp [applyC, h, kept, RApplicative.lift2, fmapE, Act.seq_assoc]
  · simp [lift2C, h, kept, RApplicative.lift2, fmapE, Act.seq_assoc]
  · simp [bindC, h, kept, bindE, Act.seq_assoc]
  · simp [joinC, h, kept, bindE, Act.seq_assoc]
/-- Three log entries, three clones. -/
example : letI : RClone Nat String := counting; letI : RClone Nat Nat := counting
    lift2C (fun a b => (ret (a + b) : Act Nat Nat)) (⟨["a", "b"], 1⟩ : Writer (List String) Nat) ⟨["c"], 2⟩ 0 =
      (.ok ⟨["a", "b", "c"], 3⟩, 3) := rfl

/-! ## Counting -/

theorem Clones.ret' (a : A) : Spec.Clones (ret a) a 0 := fun _ => rfl
theorem Clones.seq' {m : Act Nat A} {f : A → Act Nat B} {a : A} {b : B} {j k l : Nat} (hm : Spec.Clones m a j)
    (hf : Spec.Clones (f a) b k) (hl : l = j + k) : Spec.Clones (m.seq f) b l := fun n => by
  simp only [Act.seq, hm n, hf (n + j), Nat.add_assoc, hl]
theorem sum_const (xs : List A) (k : Nat) : (xs.map fun _ => k).sum = xs.length * k := by
  induction xs with
  | nil => simp
  | cons x xs ih => simp [ih, Nat.succ_mul, Nat.add_comm]
theorem Clones.map' {f : A → Act Nat B} {g : A → B} {k : A → Nat} (h : ∀ a, Spec.Clones (f a) (g a) (k a)) :
    ∀ xs : List A, Spec.Clones (mapList f xs) (xs.map g) (xs.map k).sum
  | [] => Clones.ret' []
  | x :: xs => by
    rw [mapList]
    refine Clones.seq' (h x) (Clones.seq' (Clones.map' h xs) (Clones.ret' _) rfl) ?_
    simp
theorem Clones.fold' {U : Type} {f : U → A → Act Nat U} {g : U → A → U} {k : A → Nat}
    (h : ∀ u a, Spec.Clones (f u a) (g u a) (k a)) :
    ∀ (xs : List A) (u : U), Spec.Clones (foldList f xs u) (xs.foldl g u) (xs.map k).sum
  | [], u => Clones.ret' u
  | x :: xs, u => by
    rw [foldList]
    exact Clones.seq' (h u x) (Clones.fold' h xs (g u x)) (by simp)
theorem Clones.foldConst {U : Type} {f : U → A → Act Nat U} {g : U → A → U} {k l : Nat}
    (h : ∀ u a, Spec.Clones (f u a) (g u a) k) (xs : List A) (u : U) (hl : l = xs.length * k) :
    Spec.Clones (foldList f xs u) (xs.foldl g u) l := by
  rw [hl, ← sum_const xs k]
  exact Clones.fold' h xs u
theorem Clones.list [RClone Nat A] (h : CountsClones A) (xs : List A) : Spec.Clones (clone xs) xs xs.length := by
  have := Clones.map' (f := clone) (g := id) (k := fun _ => 1) (fun a n => h a n) xs
  rw [sum_const, List.map_id, Nat.mul_one] at this
  exact this

/-- Cloning a vector, a choice or the errors of a `Validated` clones each element. -/
theorem c92_clone_counts [RClone Nat A] (h : CountsClones A) [RClone Nat B] (xs : List A) :
    Spec.Clones (clone xs) xs xs.length ∧ Spec.Clones (clone (Choice.mk xs)) ⟨xs⟩ xs.length ∧
    Spec.Clones (clone (Validated.Invalid xs : Validated A B)) (.Invalid xs) xs.length :=
  ⟨Clones.list h xs,
    Clones.seq' (f := fun v => ret (Choice.mk v)) (Clones.list h xs) (Clones.ret' _) rfl,
    Clones.seq' (f := fun v => ret (Validated.Invalid v : Validated A B)) (Clones.list h xs) (Clones.ret' _) rfl⟩
/-- A dictionary that counts. -/
example : @CountsClones String counting := fun _ _ => rfl

/-- `Vec::apply_owned` clones every value once per function, `lift2_owned` and `lift3_owned` clone even more. -/
theorem c92_vec_owned [RClone Nat (A → Act Nat B)] [RClone Nat A] [RClone Nat B] [RClone Nat C] [RClone Nat D]
    (hA : CountsClones A) (hB : CountsClones B) (hC : CountsClones C) (fs : List (A → B)) (g : A → B → C)
    (g3 : A → B → C → D) (xs : List A) (ys : List B) (zs : List C) :
    Spec.Clones (applyOwnedC (fs.map fun f a => (ret (f a) : Act Nat B)) xs) (RApplicative.applyOwned fs xs)
      (fs.length * xs.length) ∧
    Spec.Clones (lift2OwnedC (fun a b => (ret (g a b) : Act Nat C)) xs ys) (RApplicative.lift2Owned g xs ys)
      (xs.length * (2 * ys.length)) ∧
    Spec.Clones (lift3OwnedC (fun a b c => (ret (g3 a b c) : Act Nat D)) xs ys zs)
      (RApplicative.lift3Owned g3 xs ys zs) (xs.length * (ys.length + ys.length * (4 * zs.length))) := by
  refine ⟨?_, ?_, ?_⟩
  · have : ∀ (fs : List (A → B)) (r : List B), Spec.Clones (foldList (fun result (func : A → Act Nat B) =>
        (clone xs).seq fun vals =>
          foldList (fun result val => (func val).seq fun b => ret (result ++ [b])) vals result)
        (fs.map fun f a => (ret (f a) : Act Nat B)) r)
        (fs.foldl (fun r f => xs.foldl (fun r a => r ++ [f a]) r) r) (fs.length * xs.length) := by
      intro fs
      induction fs with
      | nil => intro r; exact fun n => by simp [foldList, Act.ret]
      | cons f fs ih =>
        intro r
        rw [List.map_cons, foldList]
        refine Clones.seq' (Clones.seq' (Clones.list hA xs) (Clones.foldConst (k := 0) (g := fun r a => r ++ [f a])
          (fun u a => Clones.ret' _) xs r rfl) rfl) (ih _) ?_
        simp [Nat.succ_mul]; omega
    exact this fs []
  · refine Clones.foldConst (k := 2 * ys.length) (g := fun r a => ys.foldl (fun r b => r ++ [g a b]) r) (fun r a => ?_)
      xs [] rfl
    refine Clones.seq' (Clones.list hB ys) (Clones.foldConst (k := 1) (g := fun r b => r ++ [g a b]) (fun u b => ?_)
      ys r rfl) (by omega)
    exact Clones.seq' (fun n => hA a n) (Clones.ret' _) rfl
  · refine Clones.foldConst (k := ys.length + ys.length * (4 * zs.length))
      (g := fun r a => ys.foldl (fun r b => zs.foldl (fun r c => r ++ [g3 a b c]) r) r) (fun r a => ?_) xs [] rfl
    refine Clones.seq' (Clones.list hB ys) (Clones.foldConst (k := 4 * zs.length)
      (g := fun r b => zs.foldl (fun r c => r ++ [g3 a b c]) r) (fun u b => ?_) ys r rfl) rfl
    refine Clones.seq' (Clones.list hC zs) (Clones.foldConst (k := 3) (g := fun r c => r ++ [g3 a b c]) (fun u c => ?_)
      zs u rfl) (by omega)
    exact Clones.seq' (fun n => hA a n) (Clones.seq' (fun n => hB b n) (Clones.seq' (fun n => hC c n)
      (Clones.ret' _) rfl) rfl) rfl
/-- Two functions and three values: six clones.  `apply` makes none. -/
example : letI : RClone Nat Nat := counting; letI : RClone Nat (Nat → Act Nat Nat) := counting
    (applyOwnedC [fun a => (ret (a + 1) : Act Nat Nat), fun a => ret (a * 2)] [1, 2, 3] 0).2 = 6 ∧
    (applyC [fun a => (ret (a + 1) : Act Nat Nat), fun a => ret (a * 2)] [1, 2, 3] 0).2 = 0 := ⟨rfl, rfl⟩

end Clones
end Rustica
