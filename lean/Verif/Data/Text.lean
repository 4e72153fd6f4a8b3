import Verif.Data.Wrappers
import Verif.Data.Maybe
import Verif.Data.Choice
import Verif.Data.Id
import Verif.Data.Writer
import Verif.Effect.IO
import Verif.Error.Types
import Verif.PVec.Core
import Verif.Data.Access

/-!
# Printed text

The hand-written `Display` and `Debug` implementations of the crate, as functions to the text that `format!("{}", x)`
or `format!("{:?}", x)` gives.  The printer of the payload is a parameter (`T: Display` or `T: Debug`).

Simplifications.  The `Formatter` options (width, precision, alternate form `{:#?}`) are left out: the text is the one of
a plain `{}` or `{:?}`.  A writer that fails (`fmt::Error`) is left out.  `#[derive(Debug)]` code is generated by the
compiler and not modelled.  `Display` of `ComposableError` and of `AppError` is in `Error/Types.lean`.
-/

namespace Rustica
variable {T : Type}

/-- `[S]::join(sep)` of the standard library. -/
def joinText (sep : String) : List String → String
  | [] => ""
  | [x] => x
  | x :: y :: rest => x ++ sep ++ joinText sep (y :: rest)

/-- `Debug` of a slice of the standard library, plain form. -/
def debugSlice (dbg : T → String) (xs : List T) : String := "[" ++ joinText ", " (xs.map dbg) ++ "]"

/-- `Debug for Min` (`min.rs` 398-402) and `Display for Min` (404-408): the same text around the payload's. -/
def Min.text (d : T → String) (x : Min T) : String := "Min(" ++ d x.val ++ ")"
/-- `Debug for Max` (`max.rs` 389-393), `Display for Max` (395-399). -/
def Max.text (d : T → String) (x : Max T) : String := "Max(" ++ d x.val ++ ")"
/-- `Debug for Sum` (`sum.rs` 350-354), `Display for Sum` (356-360). -/
def Sum.text (d : T → String) (x : Sum T) : String := "Sum(" ++ d x.val ++ ")"
/-- `Debug for Product` (`product.rs` 288-292), `Display for Product` (294-298). -/
def Product.text (d : T → String) (x : Product T) : String := "Product(" ++ d x.val ++ ")"
/-- `Display for First` (`first.rs` 309-316). -/
def First.text (d : T → String) (x : First T) : String :=
  match x.val with
  | some value => "First(Some(" ++ d value ++ "))"
  | none => "First(None)"
/-- `Display for Last` (`last.rs` 322-329). -/
def Last.text (d : T → String) (x : Last T) : String :=
  match x.val with
  | some value => "Last(Some(" ++ d value ++ "))"
  | none => "Last(None)"

/-- `Display for IOError` (`io.rs` 473-480). -/
def IOError.text : IOError → String
  | .ValueNotSet => "Value not set"
  | .Other msg => "IO Error: " ++ msg

/-- `Display for MaybeError` (`maybe.rs` 251-258). -/
def MaybeError.text : MaybeError → String
  | .ValueNotPresent => "Attempted to access a value in a Nothing"
  | .Custom msg => msg

/-- `Display for ErrorContext` (`error/types.rs` 425-429). -/
def ErrorContext.text (c : ErrorContext) : String := c.message

/-- `Display for Choice` (`choice.rs` 1997-2015): nothing is written for an empty choice. -/
def Choice.text (d : T → String) (c : Choice T) : String :=
  match c.first with
  | some first =>
    let alternativesSlice := c.alternatives
    if alternativesSlice.isEmpty then d first
    else d first ++ (" | " ++ joinText ", " (alternativesSlice.map d))
  | none => ""

/-- `Display for PVecError` (`pvec/error.rs` 28-47). -/
def PVec.PVecError.text : PVec.PVecError → String
  | .indexOutOfBounds index len =>
    "Index " ++ toString index ++ " out of bounds for vector of length " ++ toString len
  | .invalidRange start stop =>
    "Invalid range: start " ++ toString start ++ " is greater than end " ++ toString stop

/-- `Debug for PersistentVector` (`pvec/core.rs` 1060-1080). -/
def PVec.PV.text (dbg : T → String) (v : PVec.PV T) : String :=
  match v.inner with
  | .inline elements =>
    "PersistentVector(Inline, len=" ++ toString v.len ++ ", elements=" ++ debugSlice dbg elements ++ ")"
  | .tree _ =>
    "PersistentVector(Tree, len=" ++ toString v.len ++ ", generation=" ++ toString v.generation ++ ")"

/-! ## The remaining accessors of `Id`, `Writer` and `AppError` -/

/-- `Id::new` (`id.rs` 277-279), `From<T>` (788-793), `from_ref` (386-388). -/
def RId.new (x : T) : RId T := ⟨x⟩
/-- `Id::into_inner` (`id.rs` 295-297), `unwrap` (311-313), `as_ref` (362-364). -/
def RId.intoInner (x : RId T) : T := x.value
/-- `Id::unwrap_or` (`id.rs` 328-330) ignores its argument. -/
def RId.unwrapOr (x : RId T) (_default : T) : T := x.value
/-- `let r = x.value_mut(); *r = f(r)` (`id.rs` 333-335). -/
def RId.valueMut (x : RId T) (f : T → T) : RId T := ⟨f x.value⟩
/-- `Default for Id` (`id.rs` 795-800). -/
def RId.default' [Inhabited T] : RId T := RId.new default
/-- `IntoIterator for Id` (`id.rs` 803-828): by value, by reference, by mutable reference. -/
def RId.intoIter (x : RId T) : OneShot T := ⟨some x.intoInner⟩
/-- `for r in &mut x { *r = f(r) }` (`id.rs` 821-828): a one-element slice of `value_mut`. -/
def RId.iterMutMap (x : RId T) (f : T → T) : RId T := x.valueMut f
/-- `Writer::unwrap` (`writer.rs` 383-388). -/
def Writer.unwrap {W A : Type} (w : Writer W A) : A := w.value
/-- `Writer::log` (`writer.rs` 438-440): consumes the writer, returns the log. -/
def Writer.takeLog {W A : Type} (w : Writer W A) : W := w.log
/-- `IntoIterator for Writer` (`writer.rs` 1194-1219): by value, by reference, by mutable reference. -/
def Writer.intoIter {W A : Type} (w : Writer W A) : OneShot A := ⟨some w.value⟩
/-- `for r in &mut w { *r = f(r) }` (`writer.rs` 1212-1219). -/
def Writer.iterMutMap {W A : Type} (w : Writer W A) (f : A → A) : Writer W A := ⟨w.log, f w.value⟩

end Rustica
