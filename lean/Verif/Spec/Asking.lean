/-!
# Expressions of predicates

An expression is put together from parts, named by `ι`.  Which parts have to be asked, and in which order, is that of `||`, `&&` and
`!` from left to right, and does not depend on the model.
-/

namespace Rustica.Spec

/-- An expression: a part, or a way of putting expressions together. -/
inductive SetExp (ι : Type) where
  | part (i : ι)
  | none
  | union (p q : SetExp ι)
  | intersection (p q : SetExp ι)
  | diff (p q : SetExp ι)
  | negate (p : SetExp ι)

namespace SetExp
variable {ι : Type}

/-- The answer, when the parts answer `yes`. -/
def holds (yes : ι → Bool) : SetExp ι → Bool
  | part i => yes i
  | none => false
  | union p q => p.holds yes || q.holds yes
  | intersection p q => p.holds yes && q.holds yes
  | diff p q => p.holds yes && !q.holds yes
  | negate p => !p.holds yes

/-- The parts that are asked, in order. -/
def asked (yes : ι → Bool) : SetExp ι → List ι
  | part i => [i]
  | none => []
  | union p q => p.asked yes ++ if p.holds yes then [] else q.asked yes
  | intersection p q => p.asked yes ++ if p.holds yes then q.asked yes else []
  | diff p q => p.asked yes ++ if p.holds yes then q.asked yes else []
  | negate p => p.asked yes

/-- All parts, in the order in which they are written. -/
def parts : SetExp ι → List ι
  | part i => [i]
  | none => []
  | union p q => p.parts ++ q.parts
  | intersection p q => p.parts ++ q.parts
  | diff p q => p.parts ++ q.parts
  | negate p => p.parts

/-- The `union` of all, from left to right. -/
def unionAll : List ι → SetExp ι
  | [] => none
  | i :: is => union (part i) (unionAll is)

end SetExp
end Rustica.Spec
