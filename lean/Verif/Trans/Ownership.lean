/-!
# Ownership in `ReaderT::bind` (`src/transformers/reader_t.rs` 955-961)

A small model of drops.  A Rust value of the base monad's source type is its data together with the heap
resource it owns, if its type has drop glue (`String`, `Vec`, `Arc` …); a value of plain data owns nothing.
Cloning an owning value allocates a fresh resource; dropping it releases its resource, recorded in a log.
Unwinding is not modelled.
-/

namespace Rustica

/-- A value with the resource it owns (`none` for plain data). -/
structure OVal (A : Type) where
  data : A
  res : Option Nat
deriving DecidableEq, Repr

/-- The memory: the next free resource and the log of released resources. -/
structure OMem where
  next : Nat
  drops : List Nat
deriving DecidableEq, Repr

namespace OMem
/-- `Clone::clone`. -/
def clone {A : Type} (m : OMem) (v : OVal A) : OVal A × OMem :=
  match v.res with
  | some _ => (⟨v.data, some m.next⟩, ⟨m.next + 1, m.drops⟩)
  | none => (v, m)
/-- Drop at the end of a scope. -/
def drop {A : Type} (m : OMem) (v : OVal A) : OMem :=
  match v.res with
  | some r => ⟨m.next, m.drops ++ [r]⟩
  | none => m
/-- `std::mem::transmute_copy(&v)`: a bitwise copy, owning the same resource. -/
def transmuteCopy {A : Type} (v : OVal A) : OVal A := v
end OMem

/-- A continuation: takes its argument by value, may release resources, and returns a result that owns some
resources. -/
abbrev OCont (A : Type) := OVal A → OMem → List Nat × OMem

/-- The closure passed to `M::bind` (`reader_t.rs` 955-961): clone the source, copy the clone bitwise, give the
copy to the continuation, drop the clone at the end of the scope. -/
def bindClosure {A : Type} (f : OCont A) (source : OVal A) (m : OMem) : List Nat × OMem :=
  let (aOwned, m) := m.clone source
  let aValue := OMem.transmuteCopy aOwned
  let (result, m) := f aValue m
  (result, m.drop aOwned)

end Rustica
