import Verif.PVec.Core

/-!
# `dedup` of the vector with the element's own `==` (C90)
-/

namespace Rustica.PVec

variable {α : Type}

/-- core.rs:348-353, the loop of `dedup`: `last` is the last item kept; `last != Some(item)` compares the two elements
when there is a `last`. -/
def PV.dedupLoopBy (eq : α → α → Bool) : List α → (last : Option α) → List α
  | [], _ => []
  | item :: rest, none => item :: PV.dedupLoopBy eq rest (some item)
  | item :: rest, some l =>
    if eq l item then PV.dedupLoopBy eq rest (some l) else item :: PV.dedupLoopBy eq rest (some item)

/-- core.rs:341-356 `dedup`. -/
def PV.dedupBy (eq : α → α → Bool) (v : PV α) : PV α := fromIter (dedupLoopBy eq v.items none)

end Rustica.PVec
