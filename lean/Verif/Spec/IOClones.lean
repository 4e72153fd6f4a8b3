/-!
# Programs made of `IO`

What a program gives does not depend on the model.  Nor does how many values are cloned: a value known when the program is put
together (`known`) is cloned when it is used, one that an effect gives is not.
-/

namespace Rustica.Spec

/-- A program: values, effects, and ways to put them together. -/
inductive Job : Type → Type 1 where
  | pure {A : Type} (a : A) : Job A
  | new {A : Type} (a : A) : Job A
  | fmap {A B : Type} (p : Job A) (f : A → B) : Job B
  | bind {A B : Type} (p : Job A) (f : A → Job B) : Job B
  | apply {A B : Type} (p : Job A) (q : Job (A → B)) : Job B
  | combine {A B : Type} (p : Job A) (q : Job B) : Job (A × B)

namespace Job

/-- What it gives. -/
def value : {A : Type} → Job A → A
  | _, pure a => a
  | _, new a => a
  | _, fmap p f => f p.value
  | _, bind p f => (f p.value).value
  | _, apply p q => q.value p.value
  | _, combine p q => (p.value, q.value)

/-- The value is known without running an effect. -/
def known : {A : Type} → Job A → Bool
  | _, pure _ => true
  | _, new _ => false
  | _, fmap p _ => p.known
  | _, bind p f => p.known && (f p.value).known
  | _, apply p q => p.known && q.known
  | _, combine _ _ => false

/-- How many values are cloned when it is run, and when it is put together. -/
def clones : {A : Type} → Job A → Nat × Nat
  | _, pure _ => (1, 0)
  | _, new _ => (0, 0)
  | _, fmap p _ => (p.clones.1, p.clones.2 + if p.known then 1 else 0)
  | _, bind p f =>
    if p.known then ((f p.value).clones.1, p.clones.2 + 1 + (f p.value).clones.2)
    else (p.clones.1 + (f p.value).clones.2 + (f p.value).clones.1, p.clones.2)
  | _, apply p q =>
    (match p.known, q.known with
      | true, true => 1
      | true, false => q.clones.1 + 1
      | false, true => p.clones.1
      | false, false => p.clones.1 + q.clones.1,
    p.clones.2 + q.clones.2 + if p.known || q.known then 1 else 0)
  | _, combine p q =>
    (p.clones.1 + q.clones.1, p.clones.2 + q.clones.2 + (if p.known then 1 else 0) + if q.known then 1 else 0)

/-- No `pure` is among the parts that run. -/
def NoPure : {A : Type} → Job A → Prop
  | _, pure _ => False
  | _, new _ => True
  | _, fmap p _ => p.NoPure
  | _, bind p f => p.NoPure ∧ (f p.value).NoPure
  | _, apply p q => p.NoPure ∧ q.NoPure
  | _, combine p q => p.NoPure ∧ q.NoPure

/-- `fmap` with `f`, `n` times. -/
def mapTimes {A : Type} (p : Job A) (f : A → A) : Nat → Job A
  | 0 => p
  | n + 1 => fmap (mapTimes p f n) f

end Job
end Rustica.Spec
