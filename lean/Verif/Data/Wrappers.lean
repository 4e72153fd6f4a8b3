import Verif.Traits.Classes

/-!
# The wrapper types of `src/datatypes/wrapper`

`First`, `Last`, `Min`, `Max`, `Sum`, `Product`, `Predicate`, `Thunk`.
`Ord::cmp` is a comparison function `cmp : T → T → Ordering`; the theorems state which laws of it they
use.  `Add`/`Mul` are total Lean operations (for machine integers this means: no overflow;
`Data/Numbers` has the versions that overflow).
Display/Debug are in `Data/Text`.  `Memoizer` has its own file.
-/

namespace Rustica

/-- `struct First<T>(pub Option<T>)` (`first.rs` 176). -/
structure First (T : Type) where
  val : Option T
deriving DecidableEq, Repr

/-- `struct Last<T>(pub Option<T>)` (`last.rs` 177). -/
structure Last (T : Type) where
  val : Option T
deriving DecidableEq, Repr

/-- `struct Min<T>(pub T)` (`min.rs` 148). -/
structure Min (T : Type) where
  val : T
deriving DecidableEq, Repr

/-- `struct Max<T>(pub T)` (`max.rs` 152). -/
structure Max (T : Type) where
  val : T
deriving DecidableEq, Repr

/-- `struct Sum<T>(pub T)` (`sum.rs` 194). -/
structure Sum (T : Type) where
  val : T
deriving DecidableEq, Repr

/-- `struct Product<T>(pub T)` (`product.rs` 132). -/
structure Product (T : Type) where
  val : T
deriving DecidableEq, Repr

/-- `struct Predicate<A> { func: Rc<dyn Fn(&A) -> bool> }` (`predicate.rs` 106-108). -/
structure Predicate (A : Type) where
  func : A → Bool

/-- `trait Ord`: only `cmp` is used by the wrappers. -/
class ROrd (T : Type) where
  cmp : T → T → Ordering

/-- The laws Rust documents for `Ord`: `cmp` is a total order whose `Equal` is equality. -/
structure ROrdLaws (T : Type) [ROrd T] : Prop where
  eq_iff : ∀ a b : T, ROrd.cmp a b = .eq ↔ a = b
  swap : ∀ a b : T, ROrd.cmp b a = (ROrd.cmp a b).swap
  trans : ∀ a b c : T, ROrd.cmp a b ≠ .gt → ROrd.cmp b c ≠ .gt → ROrd.cmp a c ≠ .gt

instance : ROrd Nat := ⟨compare⟩
instance : ROrd Int := ⟨compare⟩

variable {T : Type}

/-! ## Semigroups and monoids -/

/-- `Semigroup for First` (`first.rs` 225-307). -/
instance : RSemigroup (First T) where
  combine a b := match a.val with
    | some _ => ⟨a.val⟩
    | none => ⟨b.val⟩
  combineOwned a b := match a.val with
    | some _ => a
    | none => b

/-- `Monoid for First` (`first.rs` 366-368). -/
instance : RMonoid (First T) where
  empty := ⟨none⟩

/-- `Semigroup for Last` (`last.rs` 226-320). -/
instance : RSemigroup (Last T) where
  combine a b := match b.val with
    | some _ => ⟨b.val⟩
    | none => ⟨a.val⟩
  combineOwned a b := match b.val with
    | some _ => b
    | none => a

/-- `Monoid for Last` (`last.rs` 385-387). -/
instance : RMonoid (Last T) where
  empty := ⟨none⟩

/-- `Semigroup for Min` (`min.rs` 190-310). -/
instance [ROrd T] : RSemigroup (Min T) where
  combine a b := match ROrd.cmp a.val b.val with
    | .lt | .eq => ⟨a.val⟩
    | .gt => ⟨b.val⟩
  combineOwned a b := match ROrd.cmp a.val b.val with
    | .lt | .eq => a
    | .gt => b

/-- `Monoid for Min` (`min.rs` 393-395): `Min(T::default())`. -/
instance [ROrd T] [Inhabited T] : RMonoid (Min T) where
  empty := ⟨default⟩

/-- `Semigroup for Max` (`max.rs` 194-314). -/
instance [ROrd T] : RSemigroup (Max T) where
  combine a b := match ROrd.cmp a.val b.val with
    | .gt | .eq => ⟨a.val⟩
    | .lt => ⟨b.val⟩
  combineOwned a b := match ROrd.cmp a.val b.val with
    | .gt | .eq => a
    | .lt => b

/-- `Monoid for Max` (`max.rs` 384-386): `Max(T::default())`. -/
instance [ROrd T] [Inhabited T] : RMonoid (Max T) where
  empty := ⟨default⟩

/-- `Semigroup for Sum` (`sum.rs` 236-348). -/
instance [Add T] : RSemigroup (Sum T) where
  combine a b := ⟨a.val + b.val⟩
  combineOwned a b := ⟨a.val + b.val⟩

/-- `Monoid for Sum` (`sum.rs` 432-434): `Sum(T::default())`. -/
instance [Add T] [Inhabited T] : RMonoid (Sum T) where
  empty := ⟨default⟩

/-- `Semigroup for Product` (`product.rs` 174-286). -/
instance [Mul T] : RSemigroup (Product T) where
  combine a b := ⟨a.val * b.val⟩
  combineOwned a b := ⟨a.val * b.val⟩

/-- `T: From<u8>`; `Product::empty` uses only `T::from(1)`. -/
class RFromU8 (T : Type) where
  ofU8 : UInt8 → T

instance : RFromU8 Nat := ⟨fun n => n.toNat⟩
instance : RFromU8 Int := ⟨fun n => (n.toNat : Int)⟩

/-- `Monoid for Product` (`product.rs` 370-372): `Product(T::from(1))`. -/
instance [Mul T] [RFromU8 T] : RMonoid (Product T) where
  empty := ⟨RFromU8.ofU8 1⟩

/-! ## `Predicate` -/

namespace Predicate
variable {A : Type}

/-- `contains` (`predicate.rs` 168-170). -/
def contains (p : Predicate A) (a : A) : Bool := p.func a

/-- `union` (`predicate.rs` 206-215). -/
def union (p q : Predicate A) : Predicate A := ⟨fun a => p.func a || q.func a⟩

/-- `intersection` (`predicate.rs` 251-260). -/
def intersection (p q : Predicate A) : Predicate A := ⟨fun a => p.func a && q.func a⟩

/-- `diff` (`predicate.rs` 295-304). -/
def diff (p remove : Predicate A) : Predicate A := ⟨fun a => p.func a && !remove.func a⟩

/-- `negate` (`predicate.rs` 332-340). -/
def negate (p : Predicate A) : Predicate A := ⟨fun a => !p.func a⟩

/-- `BitOr` (`predicate.rs` 350-352). -/
def bitor (p rhs : Predicate A) : Predicate A := p.union rhs
/-- `BitAnd` (`predicate.rs` 361-363). -/
def bitand (p rhs : Predicate A) : Predicate A := p.intersection rhs
/-- `Sub` (`predicate.rs` 372-374). -/
def sub (p rhs : Predicate A) : Predicate A := p.diff rhs
/-- `Not` (`predicate.rs` 383-385). -/
def not (p : Predicate A) : Predicate A := p.negate

/-- `Semigroup for Predicate` (`predicate.rs` 388-491). -/
instance : RSemigroup (Predicate A) where
  combine p q := p.union q
  combineOwned p q := ⟨fun a => p.func a || q.func a⟩

/-- `Monoid for Predicate` (`predicate.rs` 581-583). -/
instance : RMonoid (Predicate A) where
  empty := ⟨fun _ => false⟩

end Predicate

/-! ## Functors -/

/-- `Functor for First` (`first.rs` 386-512). -/
instance : RFunctor First where
  fmap f x := match x.val with
    | some v => ⟨some (f v)⟩
    | none => ⟨none⟩
  fmapOwned f x := match x.val with
    | some v => ⟨some (f v)⟩
    | none => ⟨none⟩

/-- `Functor for Last` (`last.rs` 405-531). -/
instance : RFunctor Last where
  fmap f x := match x.val with
    | some v => ⟨some (f v)⟩
    | none => ⟨none⟩
  fmapOwned f x := match x.val with
    | some v => ⟨some (f v)⟩
    | none => ⟨none⟩

/-- `Functor for Min` (`min.rs` 425-546). -/
instance : RFunctor Min where
  fmap f x := ⟨f x.val⟩
  fmapOwned f x := ⟨f x.val⟩

/-- `Functor for Max` (`max.rs` 416-540). -/
instance : RFunctor Max where
  fmap f x := ⟨f x.val⟩
  fmapOwned f x := ⟨f x.val⟩

/-- `Functor for Sum` (`sum.rs` 452-623). -/
instance : RFunctor Sum where
  fmap f x := ⟨f x.val⟩
  fmapOwned f x := ⟨f x.val⟩

/-- `Functor for Product` (`product.rs` 390-560). -/
instance : RFunctor Product where
  fmap f x := ⟨f x.val⟩
  fmapOwned f x := ⟨f x.val⟩

/-! ## Accessors.  `none` stands for a panic. -/

/-- `First::unwrap` (`first.rs` 195-197), `as_ref` (218-222), `value`/`into_value` (377-383): panic on
`First(None)`. -/
def First.unwrap (x : First T) : Option T := x.val
/-- `First::unwrap_or` (`first.rs` 211-213). -/
def First.unwrapOr (x : First T) (d : T) : T := x.val.getD d
/-- `Last::unwrap` (`last.rs` 196-198), `as_ref` (219-223), `value`/`into_value` (396-402). -/
def Last.unwrap (x : Last T) : Option T := x.val
/-- `Last::unwrap_or` (`last.rs` 212-214). -/
def Last.unwrapOr (x : Last T) (d : T) : T := x.val.getD d
/-- `Min::unwrap_or` (`min.rs` 178-180) ignores its argument; so do `Max` (`max.rs` 182-184), `Sum`
(`sum.rs` 224-226) and `Product` (`product.rs` 162-164). -/
def Min.unwrapOr (x : Min T) (_d : T) : T := x.val

end Rustica
