import Verif.Traits.Classes

/-!
# Provided methods and free functions on semigroups, monoids and foldables
-/

namespace Rustica

/-! ## `SemigroupExt`, `semigroup.rs` -/

section
variable {T : Type} [RSemigroup T]

/-- `SemigroupExt::combine_all` (`semigroup.rs` 181-187); also `combine_values` (547-555) and the adapter
(251-256). -/
def combineAllFrom (x : T) (others : List T) : T := others.foldl (fun acc x => combineOwned acc x) x

/-- `SemigroupExt::combine_all_owned` (`semigroup.rs` 202-210); `none` is the panic of `expect`. -/
def combineAllOwned : List T → Option T
  | [] => none
  | first :: rest => some (rest.foldl (fun acc x => combineOwned acc x) first)

/-- `combine_all_values` (`semigroup.rs` 508-516). -/
def combineAllValues : List T → Option T
  | [] => none
  | first :: rest => some (rest.foldl (fun acc x => combineOwned acc x) first)

/-- `combine_values` (`semigroup.rs` 547-555). -/
def combineValues (initial : T) (values : List T) : T :=
  values.foldl (fun acc x => combineOwned acc x) initial

/-- `for _ in 1..n { acc = step(acc) }` -/
def loopFrom1 {S : Type} (n : Nat) (step : S → S) (acc : S) : S :=
  (List.range (n - 1)).foldl (fun acc _ => step acc) acc

/-- `combine_n` (`semigroup.rs` 214-226). -/
def combineN (x : T) (n : Nat) : T :=
  if n = 0 then x else loopFrom1 n (fun acc => combine acc x) x

/-- `combine_n_owned` (`semigroup.rs` 230-242): the accumulator is combined with *itself*. -/
def combineNOwned (x : T) (n : Nat) : T :=
  if n = 0 then x else loopFrom1 n (fun acc => combineOwned acc acc) x
end

/-! ## `monoid.rs` -/

section
variable {M : Type} [RMonoid M]

/-- `monoid::combine_all` (`monoid.rs` 187-197). -/
def combineAll : List M → M
  | first :: rest => rest.foldl (fun acc x => combineOwned acc x) first
  | [] => RMonoid.empty

/-- `is_empty_monoid` (`monoid.rs` 221-226). -/
def isEmptyMonoid [BEq M] (x : M) : Bool := x == RMonoid.empty

/-- `repeat` (`monoid.rs` 267-285). -/
def repeat' (value : M) (n : Nat) : M :=
  if n = 0 then RMonoid.empty
  else if n = 1 then value
  else loopFrom1 n (fun result => combineOwned result value) value

/-- `mconcat` (`monoid.rs` 325-338). -/
def mconcat : List M → M
  | [] => RMonoid.empty
  | v :: vs => vs.foldl (fun result value => combine result value) v

/-- `power` (`monoid.rs` 378-387). -/
def power (value : M) (exponent : Nat) : M :=
  match exponent with
  | 0 => RMonoid.empty
  | 1 => value
  | n => repeat' value n

/-- `fold_with` (`src/utils/categorical_utils.rs` 614-623), `W::from` as an argument. -/
def foldWith {T : Type} (from_ : T → M) : List T → M
  | first :: rest => rest.foldl (fun acc x => combine acc (from_ x)) (from_ first)
  | [] => RMonoid.empty
end

/-! ## `Foldable` and `FoldableExt` -/

section
variable {F : Type → Type} [RFoldable F] {A B M : Type}
open RFoldable (foldLeft)

/-- `fold_map` (`foldable.rs` 232-237). -/
def foldMap [RMonoid M] (x : F A) (f : A → M) : M :=
  foldLeft x (RMonoid.empty : M) (fun acc a => combine acc (f a))

/-- `fold_monoid` (`foldable.rs` 284-289), the `Into<M>` conversion as an argument. -/
def foldMonoid [RMonoid M] (x : F A) (into : A → M) : M :=
  foldLeft x (RMonoid.empty : M) (fun acc a => combine acc (into a))

/-- `length` (`foldable.rs` 300-302). -/
def flength (x : F A) : Nat := foldLeft x 0 (fun acc _ => acc + 1)

/-- `is_empty` (`foldable.rs` 306-308). -/
def fisEmpty (x : F A) : Bool := flength x == 0

/-- `find` (`foldable.rs` 339-353). -/
def ffind (x : F A) (pred : A → Bool) : Option A :=
  foldLeft x none (fun acc a => if acc.isSome then acc else if pred a then some a else none)

/-- `all` (`foldable.rs` 380-385). -/
def fall (x : F A) (pred : A → Bool) : Bool := foldLeft x true (fun acc a => acc && pred a)

/-- `any` (`foldable.rs` 412-417). -/
def fany (x : F A) (pred : A → Bool) : Bool := foldLeft x false (fun acc a => acc || pred a)

/-- `contains` (`foldable.rs` 439-444); `==` is decidable equality. -/
def fcontains [DecidableEq A] (x : F A) (value : A) : Bool := fany x (fun a => decide (a = value))

/-- `fold_option` (`foldable.rs` 463-472). -/
def foldOption [RMonoid B] (x : F A) (f : A → Option B) : Option B :=
  foldLeft x (some RMonoid.empty) (fun acc a => match acc, f a with
    | some u, some v => some (combine u v)
    | _, _ => none)

/-- `is_sorted` (`foldable.rs` 492-507); `p <= curr` is `le p curr`. -/
def fisSorted (le : A → A → Bool) (x : F A) : Bool :=
  (foldLeft x (true, (none : Option A)) (fun st curr =>
    if !st.1 then (false, some curr)
    else match st.2 with
      | none => (true, some curr)
      | some p => (le p curr, some curr))).1

/-- `to_vec` (`foldable.rs` 529-538). -/
def ftoVec (x : F A) : List A := foldLeft x [] (fun acc a => acc ++ [a])

/-- `sum_values` (`foldable.rs` 555-560); `zero` is `Source::default()`. -/
def sumValues [Add A] [Inhabited A] (x : F A) : A := foldLeft x default (fun acc a => acc + a)

/-- `product_values` (`foldable.rs` 577-582); `one` is `Source::from(1)`. -/
def productValues [Mul A] (one : A) (x : F A) : A := foldLeft x one (fun acc a => acc * a)

/-- `maximum` (`foldable.rs` 602-614); `x > current_max` is `lt current_max x`. -/
def fmaximum (lt : A → A → Bool) (x : F A) : Option A :=
  foldLeft x none (fun m a => match m with
    | none => some a
    | some c => some (if lt c a then a else c))

/-- `minimum` (`foldable.rs` 634-646). -/
def fminimum (lt : A → A → Bool) (x : F A) : Option A :=
  foldLeft x none (fun m a => match m with
    | none => some a
    | some c => some (if lt a c then a else c))

/-- `reduce` (`foldable.rs` 676-685). -/
def freduce (x : F A) (f : A → A → A) : Option A :=
  foldLeft x none (fun acc a => match acc with
    | none => some a
    | some u => some (f u a))
end

end Rustica
