import Verif.Optics.Category

/-!
# C51
-/

namespace Rustica
open FunctionCategory

section
variable {σ A B C D E F G : Type}

/-- A morphism without effect. -/
def arr (f : A → B) : FMor σ A B := fun a => Eff.ret (f a)

/-- The category laws, also for functions with effects. -/
theorem c51_category (f : FMor σ A B) (g : FMor σ B C) (h : FMor σ C D) :
    compose h (compose g f) = compose (compose h g) f ∧ compose f identity = f ∧ compose identity f = f :=
  ⟨rfl, rfl, rfl⟩

/-- Composition applies `f`, then `g`. -/
theorem c51_compose_apply (f : A → B) (g : B → C) (a : A) (w : σ) :
    compose (arr g) (arr f) a w = (g (f a), w) ∧ (identity a : Eff σ A) w = (a, w) ∧
    arrow (arr f) a w = (f a, w) := ⟨rfl, rfl, rfl⟩

/-- The arrow laws. -/
theorem c51_arrow (f : FMor σ A B) (g : FMor σ B C) (h : D → E) :
    (arrow (arr fun a : A => a) : FMor σ A A) = identity ∧
    (∀ (p : A → B) (q : B → C), (arrow (arr fun a => q (p a)) : FMor σ A C) = compose (arrow (arr q)) (arrow (arr p))) ∧
    (∀ p : A → B, (first (arrow (arr p)) : FMor σ (A × D) (B × D)) = arrow (arr fun x => (p x.1, x.2))) ∧
    (first (compose g f) : FMor σ (A × D) (C × D)) = compose (first g) (first f) ∧
    compose (arrow (arr fun x : B × D => x.1)) (first f) = compose f (arrow (arr fun x : A × D => x.1)) ∧
    compose (arrow (arr fun x : B × D => (x.1, h x.2))) (first f) =
      compose (first f) (arrow (arr fun x : A × D => (x.1, h x.2))) ∧
    compose (arrow (arr fun x : (B × D) × E => (x.1.1, (x.1.2, x.2)))) (first (first f)) =
      compose (first f) (arrow (arr fun x : (A × D) × E => (x.1.1, (x.1.2, x.2)))) :=
  ⟨rfl, fun _ _ => rfl, fun _ => rfl, rfl, rfl, rfl, rfl⟩

/-- `second` is `first` with the pair swapped; `combine` is `first` then `second` (in this order of effects);
`split` duplicates and combines, and is the default of the trait. -/
theorem c51_second_combine_split (f : FMor σ A B) (g : FMor σ C D) (k : FMor σ A D) :
    (second f : FMor σ (E × A) (E × B)) =
      compose (arrow (arr fun x : B × E => (x.2, x.1))) (compose (first f) (arrow (arr fun x : E × A => (x.2, x.1)))) ∧
    combine f g = compose (second g) (first f) ∧
    split f k = compose (combine f k) (arrow (arr fun a : A => (a, a))) ∧
    split f k = splitDefault f k := ⟨rfl, rfl, rfl, rfl⟩

/-- For functions without effect `combine` is also `second` then `first`, and the projections of `split` are the
two functions. -/
theorem c51_pure (f : A → B) (g : C → D) (k : A → D) :
    (combine (arr f) (arr g) : FMor σ _ _) = compose (first (arr f)) (second (arr g)) ∧
    (combine (arr f) (arr g) : FMor σ _ _) = arr (fun x => (f x.1, g x.2)) ∧
    (split (arr f) (arr k) : FMor σ _ _) = arr (fun a => (f a, k a)) ∧
    compose (arr fun x : B × D => x.1) (split (arr f) (arr k) : FMor σ _ _) = arr f ∧
    compose (arr fun x : B × D => x.2) (split (arr f) (arr k) : FMor σ _ _) = arr k := ⟨rfl, rfl, rfl, rfl, rfl⟩

/-- Specification of a chain of functions without effect. -/
def FnChain.spec : {A B : Type} → FnChain σ A B → FMor σ A B
  | _, _, .one f => f
  | _, _, .cons f rest => fun a => (f a).seq rest.spec

/-- The chain of `compose!` obtained by reversing the arguments of `pipe!`, behind `acc`. -/
def FnChain.rev : {A B C : Type} → FnChain σ B C → FnChainR σ A B → FnChainR σ A C
  | _, _, _, .one f, acc => .cons f acc
  | _, _, _, .cons f rest, acc => rest.rev (.cons f acc)

/-- Reverse the arguments. -/
def FnChain.reverse : {A B : Type} → FnChain σ A B → FnChainR σ A B
  | _, _, .one f => .one f
  | _, _, .cons f rest => rest.rev (.one f)

theorem pipe_spec : {A B : Type} → (c : FnChain σ A B) → c.pipe = c.spec
  | _, _, .one _ => rfl
  | _, _, .cons f rest => by
    show compose rest.pipe f = _
    rw [pipe_spec rest]
    rfl

theorem rev_compose : {A B C : Type} → (c : FnChain σ B C) → (acc : FnChainR σ A B) →
    (c.rev acc).compose = compose c.spec acc.compose
  | _, _, _, .one _, _ => by
    simp only [FnChain.rev, FnChainR.compose, FnChain.spec, arrow]
  | _, _, _, .cons f rest, acc => by
    simp only [FnChain.rev, FnChain.spec]
    rw [rev_compose rest]
    simp only [FnChainR.compose, arrow]
    rfl

/-- `pipe!` runs its functions left to right; `compose!` of the reversed arguments is the same function. -/
theorem c51_pipe_compose (c : FnChain σ A B) : c.pipe = c.spec ∧ c.reverse.compose = c.pipe := by
  refine ⟨pipe_spec c, ?_⟩
  cases c with
  | one f => simp only [FnChain.reverse, FnChainR.compose, FnChain.pipe]
  | cons f rest =>
    rw [pipe_spec]
    simp only [FnChain.reverse, FnChain.spec]
    rw [rev_compose]
    simp only [FnChainR.compose, arrow]
    rfl

/-- Specification: apply functions one after the other. -/
def applyAll : List (A → A) → A → A
  | [], a => a
  | f :: fs, a => applyAll fs (f a)

theorem sequence_from (fs : List (FMor σ A A)) (m : Eff σ A) :
    fs.foldl (fun acc f => acc.seq f) m = m.seq (sequence fs) := by
  induction fs generalizing m with
  | nil => rfl
  | cons f fs ih =>
    show fs.foldl (fun acc f => acc.seq f) (m.seq f) = m.seq fun a => fs.foldl (fun acc f => acc.seq f) (f a)
    rw [ih]
    funext w
    show _ = fs.foldl (fun acc f => acc.seq f) (f (m w).1) (m w).2
    rw [ih]
    rfl

/-- The helpers: `both`, `when`, `then_if`, `sequence`. -/
theorem c51_helpers (f : A → B) (t u : A → A) (p : A → Bool) (fs : List (A → A)) (a a' : A) (w : σ) :
    both (arr f) (a, a') w = ((f a, f a'), w) ∧
    (both (arr f) : FMor σ _ _) = combine (arr f) (arr f) ∧
    when (arr p) (arr t) a w = ((if p a then t a else a), w) ∧
    thenIf (arr t) (arr u) (arr p) a w = ((if p (t a) then u (t a) else t a), w) ∧
    sequence (fs.map arr) a w = (applyAll fs a, w) := by
  refine ⟨rfl, rfl, ?_, ?_, ?_⟩
  · show (if p a then (arr t) a else Eff.ret a) w = _
    cases p a <;> rfl
  · show (if p (t a) then (arr u) (t a) else Eff.ret (t a)) w = _
    cases p (t a) <;> rfl
  · induction fs generalizing a with
    | nil => rfl
    | cons g fs ih => exact ih (g a)

/-- `sequence` with effects: the empty list is the identity, and a list is the first function followed by the
rest. -/
theorem c51_sequence (f : FMor σ A A) (fs gs : List (FMor σ A A)) :
    (sequence [] : FMor σ A A) = identity ∧ sequence (f :: fs) = compose (sequence fs) f ∧
    sequence (fs ++ gs) = compose (sequence gs) (sequence fs) := by
  refine ⟨rfl, ?_, ?_⟩
  · funext a
    show fs.foldl (fun acc f => acc.seq f) (f a) = (f a).seq (sequence fs)
    exact sequence_from fs (f a)
  · funext a
    show (fs ++ gs).foldl (fun acc f => acc.seq f) (Eff.ret a) = _
    rw [List.foldl_append, sequence_from gs]
    rfl

/-- `first f` and `second g` do not commute when both have effects. -/
theorem c51_effects_order :
    let f : FMor (List Nat) Nat Nat := fun n w => (n, w ++ [1])
    let g : FMor (List Nat) Nat Nat := fun n w => (n, w ++ [2])
    combine f g (0, 0) [] = ((0, 0), [1, 2]) ∧ compose (first f) (second g) (0, 0) [] = ((0, 0), [2, 1]) := by
  intro f g
  exact ⟨rfl, rfl⟩

example : (FnChain.cons (arr (· + 1)) (.one (arr (· * 2))) : FnChain Unit Nat Nat).pipe 3 () = (8, ()) := rfl

end

end Rustica
