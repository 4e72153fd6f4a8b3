import Verif.Data.Maybe
import Verif.Data.Either
import Verif.Theorems.ChoiceLemmas

/-!
# C23: functor laws

`State`, `Reader`, `Cont`, `IO` and `AsyncM` are treated in their own files.
-/

namespace Rustica

theorem c23_option : FunctorLaws Option where
  id_law := by intro A x; cases x <;> rfl
  comp_law := by intro A B C f g x; cases x <;> rfl
  owned := fun _ _ => rfl
  replace_eq := fun _ _ => ⟨rfl, rfl⟩
  void_eq := fun _ => ⟨rfl, rfl⟩

theorem c23_result {E : Type} : FunctorLaws (Except E) where
  id_law := by intro A x; cases x <;> rfl
  comp_law := by intro A B C f g x; cases x <;> rfl
  owned := by intro A B f x; cases x <;> rfl
  replace_eq := fun _ _ => ⟨rfl, rfl⟩
  void_eq := by intro A x; cases x <;> exact ⟨rfl, rfl⟩

theorem c23_vec : FunctorLaws List where
  id_law := by intro A x; exact List.map_id' x
  comp_law := by intro A B C f g x; exact List.map_map
  owned := fun _ _ => rfl
  replace_eq := fun _ _ => ⟨rfl, rfl⟩
  void_eq := fun _ => ⟨rfl, rfl⟩

theorem c23_maybe : FunctorLaws Maybe where
  id_law := by intro A x; cases x <;> rfl
  comp_law := by intro A B C f g x; cases x <;> rfl
  owned := by intro A B f x; cases x <;> rfl
  replace_eq := fun _ _ => ⟨rfl, rfl⟩
  void_eq := by intro A x; cases x <;> exact ⟨rfl, rfl⟩

theorem c23_either {L : Type} : FunctorLaws (Either L) where
  id_law := by intro A x; cases x <;> rfl
  comp_law := by intro A B C f g x; cases x <;> rfl
  owned := by intro A B f x; cases x <;> rfl
  replace_eq := fun _ _ => ⟨rfl, rfl⟩
  void_eq := by intro A x; cases x <;> exact ⟨rfl, rfl⟩

theorem c23_id : FunctorLaws RId where
  id_law := fun _ => rfl
  comp_law := fun _ _ _ => rfl
  owned := fun _ _ => rfl
  replace_eq := fun _ _ => ⟨rfl, rfl⟩
  void_eq := fun _ => ⟨rfl, rfl⟩

theorem c23_validated {E : Type} : FunctorLaws (Validated E) where
  id_law := by intro A x; cases x <;> rfl
  comp_law := by intro A B C f g x; cases x <;> rfl
  owned := by intro A B f x; cases x <;> rfl
  replace_eq := fun _ _ => ⟨rfl, rfl⟩
  void_eq := by intro A x; cases x <;> exact ⟨rfl, rfl⟩

theorem c23_choice : FunctorLaws Choice where
  id_law := by
    intro A x
    apply Choice.ext'
    exact (Choice.fmap_values _ x).trans (List.map_id' _)
  comp_law := by
    intro A B C f g x
    apply Choice.ext'
    show (Choice.fmap g (Choice.fmap f x)).values = (Choice.fmap _ x).values
    simp only [Choice.fmap_values, List.map_map]
    rfl
  owned := fun _ _ => rfl
  replace_eq := fun _ _ => ⟨rfl, rfl⟩
  void_eq := fun _ => ⟨rfl, rfl⟩

theorem c23_writer {W : Type} [RMonoid W] : FunctorLaws (Writer W) where
  id_law := fun _ => rfl
  comp_law := fun _ _ _ => rfl
  owned := fun _ _ => rfl
  replace_eq := fun _ _ => ⟨rfl, rfl⟩
  void_eq := fun _ => ⟨rfl, rfl⟩

theorem c23_first : FunctorLaws First where
  id_law := by rintro A ⟨_ | x⟩ <;> rfl
  comp_law := by rintro A B C f g ⟨_ | x⟩ <;> rfl
  owned := fun _ _ => rfl
  replace_eq := fun _ _ => ⟨rfl, rfl⟩
  void_eq := fun _ => ⟨rfl, rfl⟩

theorem c23_last : FunctorLaws Last where
  id_law := by rintro A ⟨_ | x⟩ <;> rfl
  comp_law := by rintro A B C f g ⟨_ | x⟩ <;> rfl
  owned := fun _ _ => rfl
  replace_eq := fun _ _ => ⟨rfl, rfl⟩
  void_eq := fun _ => ⟨rfl, rfl⟩

theorem c23_min : FunctorLaws Min where
  id_law := fun _ => rfl
  comp_law := fun _ _ _ => rfl
  owned := fun _ _ => rfl
  replace_eq := fun _ _ => ⟨rfl, rfl⟩
  void_eq := fun _ => ⟨rfl, rfl⟩

theorem c23_max : FunctorLaws Max where
  id_law := fun _ => rfl
  comp_law := fun _ _ _ => rfl
  owned := fun _ _ => rfl
  replace_eq := fun _ _ => ⟨rfl, rfl⟩
  void_eq := fun _ => ⟨rfl, rfl⟩

theorem c23_sum : FunctorLaws Sum where
  id_law := fun _ => rfl
  comp_law := fun _ _ _ => rfl
  owned := fun _ _ => rfl
  replace_eq := fun _ _ => ⟨rfl, rfl⟩
  void_eq := fun _ => ⟨rfl, rfl⟩

theorem c23_product : FunctorLaws Product where
  id_law := fun _ => rfl
  comp_law := fun _ _ _ => rfl
  owned := fun _ _ => rfl
  replace_eq := fun _ _ => ⟨rfl, rfl⟩
  void_eq := fun _ => ⟨rfl, rfl⟩

/-- The `FunctorExt` overrides of `Vec`, `Option` and `Result` agree with the default bodies. -/
theorem c23_functor_ext {A B E E2 : Type} (f : A → Except E2 B) (d : B) (h : E2 → B) :
    (∀ x : List A, Vec.tryMapOr x d f = tryMapOr x d f ∧ Vec.tryMapOrElse x h f = tryMapOrElse x h f) ∧
    (∀ x : Option A, Opt.tryMapOr x d f = tryMapOr x d f ∧ Opt.tryMapOrElse x h f = tryMapOrElse x h f) ∧
    (∀ x : Except E A, Res.tryMapOr x d f = tryMapOr x d f ∧ Res.tryMapOrElse x h f = tryMapOrElse x h f) := by
  refine ⟨fun x => ⟨rfl, rfl⟩, fun x => ?_, fun x => ?_⟩
  · rcases x with _ | x
    · exact ⟨rfl, rfl⟩
    · constructor <;>
        simp only [Opt.tryMapOr, tryMapOr, Opt.tryMapOrElse, tryMapOrElse, RFunctor.fmap, Option.map] <;>
        rcases f x with _ | _ <;> rfl
  · rcases x with _ | x
    · exact ⟨rfl, rfl⟩
    · constructor <;>
        simp only [Res.tryMapOr, tryMapOr, Res.tryMapOrElse, tryMapOrElse, RFunctor.fmap] <;>
        rcases f x with _ | _ <;> rfl

example : RFunctor.fmap (fun n : Nat => n + 1) (Choice.new 1 [2, 3]) = Choice.new 2 [3, 4] := by decide
example : RFunctor.fmap (fun n : Nat => n + 1) (Validated.Invalid ["e"] : Validated String Nat)
    = .Invalid ["e"] := rfl

end Rustica
