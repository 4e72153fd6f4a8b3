/-!
# Effectful closures

A Rust closure of type `FnOnce`/`FnMut`/`Fn` may read and write state outside the program under study
(captured variables, I/O, counters …).  `Eff σ A` is the run of such a piece of code: it takes the state of
the world and returns its value with the new world.  `σ` is arbitrary in every theorem, so a theorem about
worlds determines which closures ran, how often and in which order.  Non-termination and panics of user
closures are outside this type.
-/

namespace Rustica

/-- A piece of code with an effect on a world of type `σ`. -/
abbrev Eff (σ A : Type) := σ → A × σ

namespace Eff
variable {σ A B : Type}

/-- Code without effect. -/
def ret (a : A) : Eff σ A := fun w => (a, w)
/-- Run one piece of code, then the next. -/
def seq (m : Eff σ A) (f : A → Eff σ B) : Eff σ B := fun w => f (m w).1 (m w).2

end Eff

end Rustica
