/-!
# Programs that carry a state and may fail

What a program gives does not depend on the model.  Nor does how many states and values are cloned.
-/

namespace Rustica.Spec

/-- A program with states in `S` and values in `A`. -/
inductive TJob (S A : Type) : Type where
  | pure (a : A)
  | get (g : S → A)
  | put (s : S) (g : S → A)
  | modify (f : S → S) (a : A)
  | fail
  | lift (m : Option (S × A))
  | fmap (p : TJob S A) (f : A → A)
  | bind (p : TJob S A) (f : A → TJob S A)
  | combine (p q : TJob S A) (f : A → A → A)
  | apply (p q : TJob S A) (f : A → A → A)

namespace TJob
variable {S A : Type}

/-- What it gives: `put` gives the state there was; the two parts of `combine` and `apply` start from the same state, and the
state of the second is kept. -/
def value : TJob S A → S → Option (S × A)
  | pure a, s => some (s, a)
  | get g, s => some (s, g s)
  | put s' g, s => some (s', g s)
  | modify f a, s => some (f s, a)
  | fail, _ => none
  | lift m, _ => m
  | fmap p f, s => (p.value s).map fun r => (r.1, f r.2)
  | bind p f, s => match p.value s with
    | some r => (f r.2).value r.1
    | none => none
  | combine p q f, s => match p.value s, q.value s with
    | some r, some t => some (t.1, f r.2 t.2)
    | _, _ => none
  | apply p q f, s => match p.value s, q.value s with
    | some r, some t => some (t.1, f r.2 t.2)
    | _, _ => none

/-- How many states and values are cloned in a run: both of what was lifted; and both parts of `combine` and `apply` run, also when
the first fails. -/
def clones : TJob S A → S → Nat
  | pure _, _ => 1
  | get _, _ => 1
  | put _ _, _ => 1
  | modify _ _, _ => 0
  | fail, _ => 0
  | lift m, _ => if m.isSome then 2 else 0
  | fmap p _, s => p.clones s
  | bind p f, s => p.clones s + match p.value s with
    | some r => (f r.2).clones r.1
    | none => 0
  | combine p q _, s => p.clones s + q.clones s + 1
  | apply p q _, s => p.clones s + q.clones s + 1

/-- `n` times: `p`, and then `f`. -/
def times (p : TJob S A) (f : A → TJob S A) : Nat → TJob S A
  | 0 => p
  | n + 1 => bind (times p f n) f

end TJob
end Rustica.Spec
