/-!
# Programs made of `AsyncM`

What a program gives does not depend on the model.  Nor does how many values are cloned, for the methods that borrow
(`owned = false`) and those that take what they are called on (`owned = true`).
-/

namespace Rustica.Spec

/-- A program: values, effects, and ways to put them together; `s` says in which order the two parts of a join move. -/
inductive AJob : Type → Type 1 where
  | pure {A : Type} (a : A) : AJob A
  | new {A : Type} (a : A) : AJob A
  | orDefault {A : Type} (r : Option A) (default : A) : AJob A
  | crash {A : Type} (default : A) : AJob A
  | fmap {A B : Type} (p : AJob A) (f : A → B) : AJob B
  | bind {A B : Type} (p : AJob A) (f : A → AJob B) : AJob B
  | apply {A B : Type} (s : List Bool) (p : AJob A) (q : AJob (A → B)) : AJob B
  | zipWith {A B C : Type} (s : List Bool) (p : AJob A) (q : AJob B) (f : A → B → C) : AJob C
  | recover {A : Type} (p : AJob A) (default : A) : AJob A

namespace AJob

/-- What it gives: a program that fails (`orDefault none`) or panics (`crash`) gives the default. -/
def value : {A : Type} → AJob A → A
  | _, pure a => a
  | _, new a => a
  | _, orDefault r d => r.getD d
  | _, crash d => d
  | _, fmap p f => f p.value
  | _, bind p f => (f p.value).value
  | _, apply _ p q => q.value p.value
  | _, zipWith _ p q f => f p.value q.value
  | _, recover p _ => p.value

/-- The value is known without running anything. -/
def known (owned : Bool) : {A : Type} → AJob A → Bool
  | _, pure _ => true
  | _, apply _ p q => !owned && (p.known owned && q.known owned)
  | _, zipWith _ p q _ => p.known owned && q.known owned
  | _, _ => false

/-- How many values are cloned when it is run, and when it is put together. -/
def clones (owned : Bool) : {A : Type} → AJob A → Nat × Nat
  | _, pure _ => (1, 0)
  | _, new _ => (0, 0)
  | _, orDefault r _ => (if r.isSome then 0 else 1, 0)
  | _, crash _ => (1, 0)
  | _, fmap p _ => p.clones owned
  | _, bind p f =>
    ((p.clones owned).1 + ((f p.value).clones owned).2 + ((f p.value).clones owned).1, (p.clones owned).2)
  | _, apply _ p q =>
    if !owned && (p.known owned && q.known owned) then (1, (p.clones owned).2 + (q.clones owned).2 + 2)
    else ((p.clones owned).1 + (q.clones owned).1, (p.clones owned).2 + (q.clones owned).2)
  | _, zipWith _ p q _ =>
    if p.known owned && q.known owned then (1, (p.clones owned).2 + (q.clones owned).2 + 2)
    else ((p.clones owned).1 + (q.clones owned).1, (p.clones owned).2 + (q.clones owned).2)
  | _, recover p _ => ((p.clones owned).1 + 1, (p.clones owned).2)

/-- No `apply` is among the parts that run. -/
def NoApply : {A : Type} → AJob A → Prop
  | _, fmap p _ => p.NoApply
  | _, bind p f => p.NoApply ∧ (f p.value).NoApply
  | _, apply _ _ _ => False
  | _, zipWith _ p q _ => p.NoApply ∧ q.NoApply
  | _, recover p _ => p.NoApply
  | _, _ => True

end AJob
end Rustica.Spec
