import Verif.Data.Wrappers

/-!
# `Sum` and `Product` of machine integers

`Data/Wrappers` takes `+` and `*` as total operations.  For Rust's integers they are not: in a build with overflow checks
(the default of `cargo build` and `cargo test`) they panic when the exact result does not fit, in a build without them
(`--release`) the result is reduced to the range of the type.  Here an integer type is its range; `none` is the panic.
-/

namespace Rustica.Numbers

/-- An integer type: the values from `lo` to `hi`, zero among them.  Every primitive integer type has this form. -/
structure Range where
  lo : Int
  hi : Int
  lo_le : lo ≤ 0
  le_hi : 0 ≤ hi

namespace Range

/-- The values of the type. -/
def Has (r : Range) (i : Int) : Prop := r.lo ≤ i ∧ i ≤ r.hi

instance (r : Range) (i : Int) : Decidable (r.Has i) := inferInstanceAs (Decidable (_ ∧ _))

/-- The exact result of an operation in a build with overflow checks. -/
def checked (r : Range) (i : Int) : Option Int := if r.Has i then some i else none

/-- The exact result of an operation in a build without them. -/
def wrapped (r : Range) (i : Int) : Int := r.lo + (i - r.lo) % (r.hi - r.lo + 1)

/-- `i8`. -/
def i8 : Range := ⟨-128, 127, by decide, by decide⟩
/-- `i32`. -/
def i32 : Range := ⟨-2147483648, 2147483647, by decide, by decide⟩
/-- `u8`. -/
def u8 : Range := ⟨0, 255, by decide, by decide⟩

end Range

variable (r : Range)

/-- `Sum::combine` (`sum.rs` 345-347) and `combine_owned` (287-289) with overflow checks. -/
def sumCombine (a b : Sum Int) : Option (Sum Int) := (r.checked (a.val + b.val)).map Sum.mk
/-- The same without overflow checks. -/
def sumCombineW (a b : Sum Int) : Sum Int := ⟨r.wrapped (a.val + b.val)⟩
/-- `Sum::empty` (`sum.rs` 432-434): `T::default()`, zero for the integers. -/
def sumEmpty : Sum Int := ⟨0⟩

/-- `Product::combine` (`product.rs` 283-285) and `combine_owned` (225-227) with overflow checks. -/
def productCombine (a b : Product Int) : Option (Product Int) := (r.checked (a.val * b.val)).map Product.mk
/-- The same without overflow checks. -/
def productCombineW (a b : Product Int) : Product Int := ⟨r.wrapped (a.val * b.val)⟩
/-- `Product::empty` (`product.rs` 370-372): `T::from(1u8)`. -/
def productEmpty : Product Int := ⟨1⟩

variable {M : Type}

/-- The left fold of `combine_all` (`monoid.rs` 194), `mconcat` (333-336) and of `combine_all`, `combine_all_owned`,
`combine_all_values`, `combine_values` in `semigroup.rs` (186, 209, 515, 552-554), with a `combine` that may panic. -/
def foldCombine (combine : M → M → Option M) : M → List M → Option M
  | acc, [] => some acc
  | acc, x :: xs => match combine acc x with
    | some y => foldCombine combine y xs
    | none => none

/-- `combine_all` (`monoid.rs` 187-197) and `mconcat` (325-338). -/
def combineAll (combine : M → M → Option M) (empty : M) : List M → Option M
  | [] => some empty
  | x :: xs => foldCombine combine x xs

/-- `repeat` (`monoid.rs` 267-285), `power` (378-387). -/
def repeat' (combine : M → M → Option M) (empty : M) (value : M) (n : Nat) : Option M :=
  if n = 0 then some empty
  else if n = 1 then some value
  else foldCombine combine value (List.replicate (n - 1) value)

/-- `combine_n` (`semigroup.rs` 214-226): for zero the value itself. -/
def combineN (combine : M → M → Option M) (value : M) (n : Nat) : Option M :=
  if n = 0 then some value else foldCombine combine value (List.replicate (n - 1) value)

/-- The loop of `combine_n_owned` (`semigroup.rs` 238-240): `acc.clone().combine_owned(acc)`. -/
def doubling (combine : M → M → Option M) : M → Nat → Option M
  | acc, 0 => some acc
  | acc, k + 1 => match combine acc acc with
    | some y => doubling combine y k
    | none => none

/-- `combine_n_owned` (`semigroup.rs` 230-242). -/
def combineNOwned (combine : M → M → Option M) (value : M) (n : Nat) : Option M :=
  if n = 0 then some value else doubling combine value (n - 1)

end Rustica.Numbers
