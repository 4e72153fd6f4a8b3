/-!
# Programs that read an environment or carry a state

What a program gives, and how many of its parts run, does not depend on the model.
-/

namespace Rustica.Spec

/-- A program that reads an environment. -/
inductive Ask (E : Type) : Type → Type 1 where
  | use {A : Type} (f : E → A) : Ask E A
  | map {A B : Type} (p : Ask E A) (f : A → B) : Ask E B
  | andThen {A B : Type} (p : Ask E A) (f : A → Ask E B) : Ask E B
  | under {A : Type} (g : E → E) (p : Ask E A) : Ask E A
  | both {A B C : Type} (p : Ask E A) (q : Ask E B) (f : A → B → C) : Ask E C

namespace Ask
variable {E : Type}

/-- What it gives. -/
def value : {A : Type} → Ask E A → E → A
  | _, use f, e => f e
  | _, map p f, e => f (p.value e)
  | _, andThen p f, e => (f (p.value e)).value e
  | _, under g p, e => p.value (g e)
  | _, both p q f, e => f (p.value e) (q.value e)

/-- How many `andThen` and `both` run: how often the environment goes to two readers. -/
def splits : {A : Type} → Ask E A → E → Nat
  | _, use _, _ => 0
  | _, map p _, e => p.splits e
  | _, andThen p f, e => p.splits e + (f (p.value e)).splits e + 1
  | _, under g p, e => p.splits (g e)
  | _, both p q _, e => p.splits e + q.splits e + 1

/-- `n` times: `p`, and then `f`. -/
def times (p : Ask E Nat) (f : Nat → Ask E Nat) : Nat → Ask E Nat
  | 0 => p
  | n + 1 => andThen (times p f n) f

end Ask

/-- The same with one type of values, where a part may give an `M` in place of a value. -/
inductive AskM (E A M : Type) : Type where
  | use (f : E → M)
  | map (p : AskM E A M) (f : A → A)
  | andThen (p : AskM E A M) (f : A → AskM E A M)
  | under (g : E → E) (p : AskM E A M)
  | both (p q : AskM E A M) (f : A → A → A)

namespace AskM
variable {E A : Type}

/-- What it gives when every part gives a value. -/
def value : AskM E A A → E → A
  | use f, e => f e
  | map p f, e => f (p.value e)
  | andThen p f, e => (f (p.value e)).value e
  | under g p, e => p.value (g e)
  | both p q f, e => f (p.value e) (q.value e)
/-- How many `andThen` run. -/
def thens : AskM E A A → E → Nat
  | use _, _ => 0
  | map p _, e => p.thens e
  | andThen p f, e => p.thens e + (f (p.value e)).thens e + 1
  | under g p, e => p.thens (g e)
  | both p q _, e => p.thens e + q.thens e
/-- How many `both` run. -/
def boths : AskM E A A → E → Nat
  | use _, _ => 0
  | map p _, e => p.boths e
  | andThen p f, e => p.boths e + (f (p.value e)).boths e
  | under g p, e => p.boths (g e)
  | both p q _, e => p.boths e + q.boths e + 1
/-- How many `map` run. -/
def maps : AskM E A A → E → Nat
  | use _, _ => 0
  | map p _, e => p.maps e + 1
  | andThen p f, e => p.maps e + (f (p.value e)).maps e
  | under g p, e => p.maps (g e)
  | both p q _, e => p.maps e + q.maps e

/-- What it gives when a part may give nothing. -/
def valueO : AskM E A (Option A) → E → Option A
  | use f, e => f e
  | map p f, e => (p.valueO e).map f
  | andThen p f, e => match p.valueO e with
    | some a => (f a).valueO e
    | none => none
  | under g p, e => p.valueO (g e)
  | both p q f, e => match p.valueO e, q.valueO e with
    | some a, some b => some (f a b)
    | _, _ => none
/-- How many `andThen` and `both` run. -/
def splitsO : AskM E A (Option A) → E → Nat
  | use _, _ => 0
  | map p _, e => p.splitsO e
  | andThen p f, e => match p.valueO e with
    | some a => p.splitsO e + (f a).splitsO e + 1
    | none => p.splitsO e + 1
  | under g p, e => p.splitsO (g e)
  | both p q _, e => p.splitsO e + q.splitsO e + 1
/-- How many `andThen` run on to their second part. -/
def passed : AskM E A (Option A) → E → Nat
  | use _, _ => 0
  | map p _, e => p.passed e
  | andThen p f, e => match p.valueO e with
    | some a => p.passed e + (f a).passed e + 1
    | none => p.passed e
  | under g p, e => p.passed (g e)
  | both p q _, e => p.passed e + q.passed e
/-- How many values a `map`, an `andThen` or a `both` is given. -/
def taken : AskM E A (Option A) → E → Nat
  | use _, _ => 0
  | map p _, e => p.taken e + if (p.valueO e).isSome then 1 else 0
  | andThen p f, e => match p.valueO e with
    | some a => p.taken e + (f a).taken e + 1
    | none => p.taken e
  | under g p, e => p.taken (g e)
  | both p q _, e => p.taken e + q.taken e + if (p.valueO e).isSome ∧ (q.valueO e).isSome then 2 else 0

end AskM

/-- A program that carries a state. -/
inductive Carry (S : Type) : Type → Type 1 where
  | give {A : Type} (a : A) : Carry S A
  | use {A : Type} (f : S → A × S) : Carry S A
  | get : Carry S S
  | put (s : S) : Carry S Unit
  | modify (f : S → S) : Carry S Unit
  | map {A B : Type} (p : Carry S A) (f : A → B) : Carry S B
  | andThen {A B : Type} (p : Carry S A) (f : A → Carry S B) : Carry S B
  | both {A B C : Type} (f : A → B → C) (p : Carry S A) (q : Carry S B) : Carry S C

namespace Carry
variable {S : Type}

/-- What it gives, and the state after it. -/
def value : {A : Type} → Carry S A → S → A × S
  | _, give a, s => (a, s)
  | _, use f, s => f s
  | _, get, s => (s, s)
  | _, put s', _ => ((), s')
  | _, modify f, s => ((), f s)
  | _, map p f, s => (f (p.value s).1, (p.value s).2)
  | _, andThen p f, s => (f (p.value s).1).value (p.value s).2
  | _, both f p q, s => (f (p.value s).1 (q.value (p.value s).2).1, (q.value (p.value s).2).2)

/-- How many `get` and `put` run. -/
def accesses : {A : Type} → Carry S A → S → Nat
  | _, give _, _ => 0
  | _, use _, _ => 0
  | _, get, _ => 1
  | _, put _, _ => 1
  | _, modify _, _ => 0
  | _, map p _, s => p.accesses s
  | _, andThen p f, s => p.accesses s + (f (p.value s).1).accesses (p.value s).2
  | _, both _ p q, s => p.accesses s + q.accesses (p.value s).2

/-- How many `give` run. -/
def gives : {A : Type} → Carry S A → S → Nat
  | _, give _, _ => 1
  | _, use _, _ => 0
  | _, get, _ => 0
  | _, put _, _ => 0
  | _, modify _, _ => 0
  | _, map p _, s => p.gives s
  | _, andThen p f, s => p.gives s + (f (p.value s).1).gives (p.value s).2
  | _, both _ p q, s => p.gives s + q.gives (p.value s).2

end Carry
end Rustica.Spec
