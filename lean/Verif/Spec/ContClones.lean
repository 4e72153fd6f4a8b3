/-!
# Programs made of continuations

What a program gives does not depend on the model.  Nor does how many values are cloned: one for each value given to `pure` and
each value it escapes with, and those only where they are reached.
-/

namespace Rustica.Spec

/-- A program.  `callCC p g after` runs `p`; where `g` gives `.ok a` it goes on with `after a`, where `g` gives `.error a` it escapes
with `a`, and `after` does not run. -/
inductive KJob : Type → Type 1 where
  | pure {A : Type} (a : A) : KJob A
  | fmap {A B : Type} (p : KJob A) (f : A → B) : KJob B
  | bind {A B : Type} (p : KJob A) (f : A → KJob B) : KJob B
  | apply {A B : Type} (p : KJob A) (q : KJob (A → B)) : KJob B
  | callCC {A C : Type} (p : KJob C) (g : C → Except A A) (after : A → KJob A) : KJob A

namespace KJob

/-- What it gives: after an escape `after` does not run. -/
def value : {A : Type} → KJob A → A
  | _, pure a => a
  | _, fmap p f => f p.value
  | _, bind p f => (f p.value).value
  | _, apply p q => q.value p.value
  | _, callCC p g after => match g p.value with
    | .ok a => (after a).value
    | .error a => a

/-- How many values are cloned in a run. -/
def clones : {A : Type} → KJob A → Nat
  | _, pure _ => 1
  | _, fmap p _ => p.clones
  | _, bind p f => p.clones + (f p.value).clones
  | _, apply p q => p.clones + q.clones
  | _, callCC p g after => match g p.value with
    | .ok a => p.clones + (after a).clones
    | .error _ => p.clones + 1

end KJob
end Rustica.Spec
