/-!
# Code that may panic

`Act σ A` is a piece of Rust code with an effect on a world `σ` that either returns a value or panics; the world
keeps the effects performed before the panic.  `σ` is arbitrary in every theorem, so that equal worlds mean equal
effects in equal order.  Non-termination and aborts are outside the model.
-/

namespace Rustica

/-- A panic payload: a `&str`, a `String`, or anything else (`io.rs` 926-932). -/
inductive Panic
  | str (s : String)
  | string (s : String)
  | other
deriving DecidableEq, Repr

/-- Code with an effect on `σ` that returns or panics. -/
abbrev Act (σ A : Type) := σ → Except Panic A × σ

namespace Act
variable {σ A B C : Type}

/-- Return without effect. -/
def ret (a : A) : Act σ A := fun w => (.ok a, w)
/-- Sequential execution; a panic skips the rest. -/
def seq (m : Act σ A) (f : A → Act σ B) : Act σ B := fun w =>
  match m w with
  | (.ok a, w') => f a w'
  | (.error p, w') => (.error p, w')
/-- `std::panic::catch_unwind(AssertUnwindSafe(m))`. -/
def catchUnwind (m : Act σ A) : Act σ (Except Panic A) := fun w => (.ok (m w).1, (m w).2)

@[simp] theorem seq_ret (m : Act σ A) : m.seq ret = m := by
  funext w
  simp only [seq, ret]
  rcases m w with ⟨r, w'⟩
  cases r <;> rfl

@[simp] theorem ret_seq (a : A) (f : A → Act σ B) : (ret a : Act σ A).seq f = f a := rfl

theorem seq_assoc (m : Act σ A) (f : A → Act σ B) (g : B → Act σ C) :
    (m.seq f).seq g = m.seq fun a => (f a).seq g := by
  funext w
  simp only [seq]
  rcases m w with ⟨r, w'⟩
  cases r <;> rfl

end Act

end Rustica
