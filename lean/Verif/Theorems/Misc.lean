import Verif.Theorems.Monad

/-!
# C41 (`Writer`), C52 (`Predicate`), C53 (`Comonad`), C54 (`Bifunctor`)
-/

namespace Rustica

/-! ## C41: the log of a writer program -/

/-- A program built from the writer operations; `A` is the type of values it handles. -/
inductive WProg (W A : Type) : Type where
  | ret : A → WProg W A
  | tell : W → A → WProg W A
  | map : (A → A) → WProg W A → WProg W A
  | bind : WProg W A → (A → WProg W A) → WProg W A
  | lift2 : (A → A → A) → WProg W A → WProg W A → WProg W A
  | lift3 : (A → A → A → A) → WProg W A → WProg W A → WProg W A → WProg W A
  | apply : (A → A → A) → WProg W A → WProg W A → WProg W A

namespace WProg
variable {W A : Type}

/-- Running a program with the operations of `Writer`: `tell w` followed by a value is
`tell(w).bind(|_| pure(a))`; `apply` uses `fmap` then `apply`. -/
def run [RMonoid W] : WProg W A → Writer W A
  | ret a => RPure.pure a
  | tell w a => RMonad.bind (Writer.tell w) (fun _ => RPure.pure a)
  | map f p => RFunctor.fmap f p.run
  | bind p k => RMonad.bind p.run (fun a => (k a).run)
  | lift2 f p q => RApplicative.lift2 f p.run q.run
  | lift3 f p q r => RApplicative.lift3 f p.run q.run r.run
  | apply f p q => RApplicative.apply (RFunctor.fmap f p.run) q.run

/-- The value a program computes, ignoring logs. -/
def value : WProg W A → A
  | ret a => a
  | tell _ a => a
  | map f p => f p.value
  | bind p k => (k p.value).value
  | lift2 f p q => f p.value q.value
  | lift3 f p q r => f p.value q.value r.value
  | apply f p q => f p.value q.value

/-- The messages told, in program order. -/
def told : WProg W A → List W
  | ret _ => []
  | tell w _ => [w]
  | map _ p => p.told
  | bind p k => p.told ++ (k p.value).told
  | lift2 _ p q => p.told ++ q.told
  | lift3 _ p q r => p.told ++ q.told ++ r.told
  | apply _ p q => p.told ++ q.told
end WProg

/-- The combination of a list of messages. -/
def mergeAll {W : Type} [RMonoid W] (ws : List W) : W := ws.foldr combine RMonoid.empty

theorem mergeAll_append {W : Type} [RMonoid W] (hs : SemigroupLaw W) (hm : MonoidLaw W) (xs ys : List W) :
    mergeAll (xs ++ ys) = combine (mergeAll xs) (mergeAll ys) := by
  induction xs with
  | nil => exact (hm _).1.symm
  | cons x xs ih => show combine x (mergeAll (xs ++ ys)) = combine (combine x (mergeAll xs)) _; rw [ih, hs]

/-- C41: for every program, the final value is the program's value and the final log is the combination of
the messages told, in program order. -/
theorem c41_log {W A : Type} [RMonoid W] (hs : SemigroupLaw W) (hm : MonoidLaw W) (p : WProg W A) :
    p.run.value = p.value ∧ p.run.log = mergeAll p.told := by
  induction p with
  | ret a => exact ⟨rfl, rfl⟩
  | tell w a =>
    refine ⟨rfl, ?_⟩
    show combine w RMonoid.empty = combine w RMonoid.empty
    rfl
  | map f p ih => exact ⟨congrArg f ih.1, ih.2⟩
  | bind p k ihp ihk =>
    constructor
    · show (k p.run.value).run.value = (k p.value).value
      rw [ihp.1]; exact (ihk _).1
    · show combine p.run.log (k p.run.value).run.log = mergeAll (p.told ++ (k p.value).told)
      rw [mergeAll_append hs hm, ihp.2, (ihk _).2, ihp.1]
  | lift2 f p q ihp ihq =>
    constructor
    · show f _ _ = f _ _
      rw [ihp.1, ihq.1]
    · show combine p.run.log q.run.log = mergeAll (p.told ++ q.told)
      rw [mergeAll_append hs hm, ihp.2, ihq.2]
  | lift3 f p q r ihp ihq ihr =>
    constructor
    · show f _ _ _ = f _ _ _
      rw [ihp.1, ihq.1, ihr.1]
    · show combine (combine p.run.log q.run.log) r.run.log = mergeAll (p.told ++ q.told ++ r.told)
      rw [mergeAll_append hs hm, mergeAll_append hs hm, ihp.2, ihq.2, ihr.2]
  | apply f p q ihp ihq =>
    constructor
    · show f _ _ = f _ _
      rw [ihp.1, ihq.1]
    · show combine p.run.log q.run.log = mergeAll (p.told ++ q.told)
      rw [mergeAll_append hs hm, ihp.2, ihq.2]

example : (WProg.bind (.tell ["a"] 1) (fun n => .lift2 (· + ·) (.tell ["b"] n) (.tell ["c"] 5)) : WProg (List String) Nat).run.log
    = mergeAll [["a"], ["b"], ["c"]] := (c41_log c16_vec c17_vec _).2

/-- `tell` logs its message, `pure` and `pure_value` log nothing, `run` returns log and value. -/
theorem c41_primitives {W A : Type} [RMonoid W] (w : W) (a : A) :
    (Writer.tell w).run = (w, ()) ∧ (RPure.pure a : Writer W A).run = (RMonoid.empty, a) ∧
    (Writer.pureValue a : Writer W A) = RPure.pure a := ⟨rfl, rfl, rfl⟩

/-- The bracketing of binds is irrelevant (associative logs). -/
theorem c41_bracketing {W A B C : Type} [RMonoid W] (hs : SemigroupLaw W) (m : Writer W A)
    (f : A → Writer W B) (g : B → Writer W C) :
    RMonad.bind (RMonad.bind m f) g = RMonad.bind m (fun a => RMonad.bind (f a) g) := by
  simp [RMonad.bind, hs _ _ _]

example : (WProg.bind (.tell ["a"] 1) (fun n => .lift2 (· + ·) (.tell ["b"] n) (.tell ["c"] 5)) : WProg (List String) Nat).told
    = [["a"], ["b"], ["c"]] := by decide
example : (WProg.bind (.tell ["a"] 1) (fun n => .lift2 (· + ·) (.tell ["b"] n) (.tell ["c"] 5)) : WProg (List String) Nat).run
    = ⟨["a", "b", "c"], 6⟩ := by decide

/-! ## C52 -/

/-- The set a predicate decides. -/
def Predicate.set {A : Type} (p : Predicate A) : A → Prop := fun a => p.contains a = true

theorem Predicate.ext' {A : Type} {p q : Predicate A} (h : ∀ a, p.contains a = q.contains a) : p = q := by
  cases p; cases q; exact congrArg _ (funext h)

/-- Membership is decided as by the set operations. -/
theorem c52_membership {A : Type} (p q : Predicate A) (a : A) :
    ((p.union q).set a ↔ p.set a ∨ q.set a) ∧ ((p.intersection q).set a ↔ p.set a ∧ q.set a) ∧
    ((p.diff q).set a ↔ p.set a ∧ ¬ q.set a) ∧ (p.negate.set a ↔ ¬ p.set a) ∧
    ((combine p q).set a ↔ p.set a ∨ q.set a) ∧ ((combineOwned p q).set a ↔ p.set a ∨ q.set a) ∧
    ((RMonoid.empty : Predicate A).set a ↔ False) := by
  simp [Predicate.set, Predicate.contains, Predicate.union, Predicate.intersection, Predicate.diff,
    Predicate.negate, combine, combineOwned, RMonoid.empty]

/-- The Boolean algebra laws, as equalities of predicates. -/
theorem c52_laws {A : Type} (p q r : Predicate A) :
    (p.union q).negate = p.negate.intersection q.negate ∧
    (p.intersection q).negate = p.negate.union q.negate ∧
    p.intersection (q.union r) = (p.intersection q).union (p.intersection r) ∧
    p.union (q.intersection r) = (p.union q).intersection (p.union r) ∧
    p.union (p.intersection q) = p ∧ p.intersection (p.union q) = p ∧
    p.negate.negate = p ∧ p.diff q = p.intersection q.negate ∧
    p.union q = q.union p ∧ p.intersection q = q.intersection p ∧
    (p.union q).union r = p.union (q.union r) ∧
    (p.intersection q).intersection r = p.intersection (q.intersection r) ∧
    p.union RMonoid.empty = p ∧ p.intersection (RMonoid.empty : Predicate A).negate = p ∧
    p.intersection p.negate = RMonoid.empty ∧ p.union p.negate = (RMonoid.empty : Predicate A).negate := by
  refine ⟨?_, ?_, ?_, ?_, ?_, ?_, ?_, ?_, ?_, ?_, ?_, ?_, ?_, ?_, ?_, ?_⟩ <;> apply Predicate.ext' <;>
    intro a <;>
    simp only [Predicate.contains, Predicate.union, Predicate.intersection, Predicate.negate, Predicate.diff,
      RMonoid.empty] <;>
    cases p.func a <;> cases q.func a <;> cases r.func a <;> rfl

/-- The operators are the methods. -/
theorem c52_operators {A : Type} (p q : Predicate A) :
    p.bitor q = p.union q ∧ p.bitand q = p.intersection q ∧ p.sub q = p.diff q ∧ p.not = p.negate :=
  ⟨rfl, rfl, rfl, rfl⟩

example : ((Predicate.mk (fun n : Nat => decide (n < 5))).diff ⟨fun n => n % 2 == 0⟩).contains 3 = true ∧
    ((Predicate.mk (fun n : Nat => decide (n < 5))).diff ⟨fun n => n % 2 == 0⟩).contains 4 = false := by decide

/-! ## C53 -/

theorem c53_id {A B C : Type} (x : RId A) (f : RId A → B) (g : RId B → C) :
    x.extend RId.extract = x ∧ (x.extend f).extract = f x ∧
    (x.extend f).extend g = x.extend (fun y => g (y.extend f)) ∧
    x.duplicate = x ∧ (x.extend (fun y => y)).extract = x.duplicate := ⟨rfl, rfl, rfl, rfl, rfl⟩

example : (RId.mk 3).extend (fun y => y.extract + 1) = ⟨4⟩ := rfl

/-! ## C54 -/

theorem c54_either {L R R' R'' L' L'' : Type} (e : Either L R) (f : R → R') (f' : R' → R'') (g : L → L')
    (g' : L' → L'') :
    e.bimap (fun r => r) (fun l => l) = e ∧
    (e.bimap f g).bimap f' g' = e.bimap (fun r => f' (f r)) (fun l => g' (g l)) ∧
    e.first f = e.bimap f (fun l => l) ∧ e.second g = e.bimap (fun r => r) g ∧
    (e.first f).second g = e.bimap f g ∧ (e.second g).first f = e.bimap f g ∧
    e.mapSecond g = e.second g ∧ e.mapSecondOwned g = e.second g ∧ RFunctor.fmap f e = e.first f ∧
    e.fmapLeft g = e.second g ∧ e.fmapRight f = e.first f := by
  cases e <;> exact ⟨rfl, rfl, rfl, rfl, rfl, rfl, rfl, rfl, rfl, rfl, rfl⟩

/-- Handedness: the first function is applied only to `Right`, the second only to `Left`. -/
theorem c54_either_sides {L R R' L' : Type} (f : R → R') (g : L → L') (l : L) (r : R) :
    (Either.Right r : Either L R).bimap f g = .Right (f r) ∧
    (Either.Left l : Either L R).bimap f g = .Left (g l) := ⟨rfl, rfl⟩

theorem c54_validated {E A A' A'' E' E'' : Type} (v : Validated E A) (f : A → A') (f' : A' → A'')
    (g : E → E') (g' : E' → E'') :
    v.bimap (fun a => a) (fun e => e) = v ∧
    (v.bimap f g).bimap f' g' = v.bimap (fun a => f' (f a)) (fun e => g' (g e)) ∧
    v.first f = v.bimap f (fun e => e) ∧ v.second g = v.bimap (fun a => a) g ∧
    (v.first f).second g = v.bimap f g ∧ (v.second g).first f = v.bimap f g ∧
    v.mapSecond g = v.second g ∧ RFunctor.fmap f v = v.first f := by
  cases v <;> simp [Validated.bimap, Validated.first, Validated.second, Validated.mapSecond, RFunctor.fmap]

theorem c54_validated_sides {E A A' E' : Type} (f : A → A') (g : E → E') (a : A) (es : List E) :
    (Validated.Valid a : Validated E A).bimap f g = .Valid (f a) ∧
    (Validated.Invalid es : Validated E A).bimap f g = .Invalid (es.map g) := ⟨rfl, rfl⟩

example : (Either.Left 3 : Either Nat String).bimap (fun s => s ++ "!") (fun n => n + 1) = .Left 4 := rfl

end Rustica
