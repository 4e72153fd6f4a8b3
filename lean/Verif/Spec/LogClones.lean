import Verif.Spec.Clones

/-!
# Programs that write a log

A program is put together from steps, two at a time.  What it is to write, and how many joins each entry is below, does not
depend on the model.
-/

namespace Rustica.Spec

/-- How a program is put together: a step that writes some entries, or one program and then another. -/
inductive Prog (E : Type) where
  | step (entries : List E)
  | both (first second : Prog E)

namespace Prog
variable {E : Type}

/-- All entries, in order. -/
def entries : Prog E → List E
  | step es => es
  | both p q => p.entries ++ q.entries

/-- For each entry, in order, below how many `both` it is. -/
def depths : Prog E → List Nat
  | step es => es.map fun _ => 0
  | both p q => (p.depths ++ q.depths).map (· + 1)

/-- The number of steps. -/
def steps : Prog E → Nat
  | step _ => 1
  | both p q => p.steps + q.steps

/-- Every step writes something. -/
def EachWrites : Prog E → Prop
  | step es => es ≠ []
  | both p q => p.EachWrites ∧ q.EachWrites

/-- One entry after the other, each added to all before it: `((a, b), c), …`. -/
def addEach (p : Prog E) (es : List E) : Prog E := es.foldl (fun p e => both p (step [e])) p

/-- One entry, and then all others: `a, (b, (c, …))`. -/
def nest (es : List E) (p : Prog E) : Prog E := es.foldr (fun e p => both (step [e]) p) p

/-- `2 ^ k` entries, halved again and again. -/
def halved (e : E) : Nat → Prog E
  | 0 => step [e]
  | k + 1 => both (halved e k) (halved e k)

end Prog
end Rustica.Spec
