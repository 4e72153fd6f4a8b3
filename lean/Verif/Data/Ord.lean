import Verif.Data.Wrappers
import Verif.Data.Maybe
import Verif.Data.Either
import Verif.Data.Validated
import Verif.Data.Writer
import Verif.Data.Choice
import Verif.Data.Id

/-!
# The derived `Ord` and `PartialOrd` of the data types

`#[derive(PartialOrd, Ord)]` compares variants by the order of their declaration and, within a variant, the fields from
the first to the last, stopping at the first that is not `Equal`.  `SmallVec` compares like a slice: element by element,
then the shorter one is smaller.  `Option` and `Result` of the standard library are derived too, from the declarations
`None, Some` and `Ok, Err`.

`ROrd.cmp` is `Ord::cmp`; `RPartialOrd.partialCmp` is `PartialOrd::partial_cmp`, with `none` for values that cannot be
compared (such as `NaN`).  `<`, `<=`, `>`, `>=` are defined from `partial_cmp` by the standard library and are not
repeated here.
-/

namespace Rustica

/-- `trait PartialOrd`: only `partial_cmp`. -/
class RPartialOrd (T : Type) where
  partialCmp : T → T → Option Ordering

instance : RPartialOrd Nat := ⟨fun a b => some (compare a b)⟩
instance : RPartialOrd Int := ⟨fun a b => some (compare a b)⟩

variable {T U : Type}

/-- What the derived `cmp` does after comparing one field: go on when it is `Equal`. -/
def cmpThen : Ordering → Ordering → Ordering
  | .eq, rest => rest
  | o, _ => o

/-- What the derived `partial_cmp` does after comparing one field: go on when it is `Some(Equal)`. -/
def partialThen : Option Ordering → Option Ordering → Option Ordering
  | some .eq, rest => rest
  | o, _ => o

/-- `cmp` of slices (standard library), used by `SmallVec`. -/
def sliceCmp (cmp : T → T → Ordering) : List T → List T → Ordering
  | [], [] => .eq
  | [], _ :: _ => .lt
  | _ :: _, [] => .gt
  | a :: as, b :: bs => cmpThen (cmp a b) (sliceCmp cmp as bs)

/-- `partial_cmp` of slices (standard library). -/
def slicePartialCmp (pc : T → T → Option Ordering) : List T → List T → Option Ordering
  | [], [] => some .eq
  | [], _ :: _ => some .lt
  | _ :: _, [] => some .gt
  | a :: as, b :: bs => partialThen (pc a b) (slicePartialCmp pc as bs)

instance [ROrd T] : ROrd (List T) := ⟨sliceCmp ROrd.cmp⟩
instance [RPartialOrd T] : RPartialOrd (List T) := ⟨slicePartialCmp RPartialOrd.partialCmp⟩

/-- `Option`: `None` is declared before `Some` (standard library). -/
instance [ROrd T] : ROrd (Option T) where
  cmp
    | none, none => .eq
    | none, some _ => .lt
    | some _, none => .gt
    | some a, some b => ROrd.cmp a b
instance [RPartialOrd T] : RPartialOrd (Option T) where
  partialCmp
    | none, none => some .eq
    | none, some _ => some .lt
    | some _, none => some .gt
    | some a, some b => RPartialOrd.partialCmp a b

/-- `Result`: `Ok` is declared before `Err` (standard library). -/
instance [ROrd T] [ROrd U] : ROrd (Except U T) where
  cmp
    | .ok a, .ok b => ROrd.cmp a b
    | .ok _, .error _ => .lt
    | .error _, .ok _ => .gt
    | .error a, .error b => ROrd.cmp a b

/-- `Maybe` (`maybe.rs` 233-240): `Just` is declared before `Nothing`. -/
instance [ROrd T] : ROrd (Maybe T) where
  cmp
    | .Just a, .Just b => ROrd.cmp a b
    | .Just _, .Nothing => .lt
    | .Nothing, .Just _ => .gt
    | .Nothing, .Nothing => .eq
instance [RPartialOrd T] : RPartialOrd (Maybe T) where
  partialCmp
    | .Just a, .Just b => RPartialOrd.partialCmp a b
    | .Just _, .Nothing => some .lt
    | .Nothing, .Just _ => some .gt
    | .Nothing, .Nothing => some .eq

/-- `Either` (`either.rs` 262-269): `Left` is declared before `Right`. -/
instance [ROrd T] [ROrd U] : ROrd (Either T U) where
  cmp
    | .Left a, .Left b => ROrd.cmp a b
    | .Left _, .Right _ => .lt
    | .Right _, .Left _ => .gt
    | .Right a, .Right b => ROrd.cmp a b
instance [RPartialOrd T] [RPartialOrd U] : RPartialOrd (Either T U) where
  partialCmp
    | .Left a, .Left b => RPartialOrd.partialCmp a b
    | .Left _, .Right _ => some .lt
    | .Right _, .Left _ => some .gt
    | .Right a, .Right b => RPartialOrd.partialCmp a b

/-- `Validated` (`validated/core.rs` 137-145): `Valid` is declared before `Invalid`. -/
instance [ROrd T] [ROrd U] : ROrd (Validated T U) where
  cmp
    | .Valid a, .Valid b => ROrd.cmp a b
    | .Valid _, .Invalid _ => .lt
    | .Invalid _, .Valid _ => .gt
    | .Invalid es, .Invalid fs => ROrd.cmp es fs
instance [RPartialOrd T] [RPartialOrd U] : RPartialOrd (Validated T U) where
  partialCmp
    | .Valid a, .Valid b => RPartialOrd.partialCmp a b
    | .Valid _, .Invalid _ => some .lt
    | .Invalid _, .Valid _ => some .gt
    | .Invalid es, .Invalid fs => RPartialOrd.partialCmp es fs

/-- `Writer` (`writer.rs` 196-203): `log` is declared before `value`. -/
instance [ROrd T] [ROrd U] : ROrd (Writer T U) where
  cmp a b := cmpThen (ROrd.cmp a.log b.log) (ROrd.cmp a.value b.value)
instance [RPartialOrd T] [RPartialOrd U] : RPartialOrd (Writer T U) where
  partialCmp a b :=
    partialThen (RPartialOrd.partialCmp a.log b.log) (RPartialOrd.partialCmp a.value b.value)

/-- `Choice` (`choice.rs` 196-199). -/
instance [ROrd T] : ROrd (Choice T) := ⟨fun a b => ROrd.cmp a.values b.values⟩
instance [RPartialOrd T] : RPartialOrd (Choice T) :=
  ⟨fun a b => RPartialOrd.partialCmp a.values b.values⟩

/-- `Id` (`id.rs` 246-252). -/
instance [ROrd T] : ROrd (RId T) := ⟨fun a b => ROrd.cmp a.value b.value⟩
instance [RPartialOrd T] : RPartialOrd (RId T) := ⟨fun a b => RPartialOrd.partialCmp a.value b.value⟩

/-- `First` (`first.rs` 173-176): an `Option`. -/
instance [ROrd T] : ROrd (First T) := ⟨fun a b => ROrd.cmp a.val b.val⟩
instance [RPartialOrd T] : RPartialOrd (First T) := ⟨fun a b => RPartialOrd.partialCmp a.val b.val⟩

/-- `Last` (`last.rs` 174-177): an `Option`. -/
instance [ROrd T] : ROrd (Last T) := ⟨fun a b => ROrd.cmp a.val b.val⟩
instance [RPartialOrd T] : RPartialOrd (Last T) := ⟨fun a b => RPartialOrd.partialCmp a.val b.val⟩

/-- `Min` (`min.rs` 145-148). -/
instance [ROrd T] : ROrd (Min T) := ⟨fun a b => ROrd.cmp a.val b.val⟩
instance [RPartialOrd T] : RPartialOrd (Min T) := ⟨fun a b => RPartialOrd.partialCmp a.val b.val⟩

/-- `Max` (`max.rs` 149-152). -/
instance [ROrd T] : ROrd (Max T) := ⟨fun a b => ROrd.cmp a.val b.val⟩
instance [RPartialOrd T] : RPartialOrd (Max T) := ⟨fun a b => RPartialOrd.partialCmp a.val b.val⟩

/-- `Sum` (`sum.rs` 191-194). -/
instance [ROrd T] : ROrd (Sum T) := ⟨fun a b => ROrd.cmp a.val b.val⟩
instance [RPartialOrd T] : RPartialOrd (Sum T) := ⟨fun a b => RPartialOrd.partialCmp a.val b.val⟩

/-- `Product` (`product.rs` 129-132). -/
instance [ROrd T] : ROrd (Product T) := ⟨fun a b => ROrd.cmp a.val b.val⟩
instance [RPartialOrd T] : RPartialOrd (Product T) := ⟨fun a b => RPartialOrd.partialCmp a.val b.val⟩

end Rustica
