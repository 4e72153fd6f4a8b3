import Verif.Calls.Clones
import Verif.Traits.Helpers

/-!
# Folds and the helpers built on them, with `Clone::clone` as a call

Continues `Calls/Clones`.  A fold clones its starting value; the helpers of `FoldableExt` get their accumulator by
reference and clone what they keep.  Closures have effects; comparisons, sums and conversions are functions.  `usize`
and `bool` are `Copy`: their clones are bytes copied, not calls.
-/

namespace Rustica
open Act (ret mapList foldList)
variable {σ : Type}

/-- `trait Foldable` (`foldable.rs` 108-187): `U: Clone`. -/
class RFoldableC (σ : Type) (F : Type → Type) where
  foldLeftC {A U : Type} [RClone σ U] : F A → U → (U → A → Act σ U) → Act σ U
  foldRightC {A U : Type} [RClone σ U] : F A → U → (A → U → Act σ U) → Act σ U

export RFoldableC (foldLeftC foldRightC)

/-- `Vec` (`foldable.rs` 692-716). -/
instance : RFoldableC σ List where
  foldLeftC xs init f := (clone init).seq fun acc => foldList f xs acc
  foldRightC xs init f := (clone init).seq fun acc => foldList (fun acc x => f x acc) xs.reverse acc
/-- `Option` (`foldable.rs` 719-741). -/
instance : RFoldableC σ Option where
  foldLeftC x init f := match x with
    | some a => f init a
    | none => clone init
  foldRightC x init f := match x with
    | some a => f a init
    | none => clone init
/-- `Result` (`foldable.rs` 744-766). -/
instance {E : Type} : RFoldableC σ (Except E) where
  foldLeftC x init f := match x with
    | .ok a => f init a
    | .error _ => clone init
  foldRightC x init f := match x with
    | .ok a => f a init
    | .error _ => clone init
/-- `Validated` (`traits.rs` 682-706). -/
instance {E : Type} : RFoldableC σ (Validated E) where
  foldLeftC x init f := match x with
    | .Valid a => f init a
    | .Invalid _ => clone init
  foldRightC x init f := match x with
    | .Valid a => f a init
    | .Invalid _ => clone init
/-- `Id` (`id.rs` 768-786). -/
instance : RFoldableC σ RId where
  foldLeftC x init f := f init x.value
  foldRightC x init f := f x.value init
/-- `Choice` (`choice.rs` 2017-2037). -/
instance : RFoldableC σ Choice where
  foldLeftC c init f := (clone init).seq fun acc => foldList f c.values acc
  foldRightC c init f := (clone init).seq fun acc => foldList (fun acc v => f v acc) c.values.reverse acc

namespace PVec.PV
/-- The loop of `fold_right` (`traits.rs` 80-84) for the indices `n-1, …, 0`. -/
def foldRightLoopC {A U : Type} (v : PV A) (f : A → U → Act σ U) : Nat → U → Act σ U
  | 0, acc => ret acc
  | i + 1, acc => match v.get i with
    | some item => (f item acc).seq fun acc => foldRightLoopC v f i acc
    | none => foldRightLoopC v f i acc
end PVec.PV

/-- `PersistentVector` (`src/pvec/traits.rs` 61-86). -/
instance : RFoldableC σ PVec.PV where
  foldLeftC v init f := (clone init).seq fun acc => foldList f v.items acc
  foldRightC v init f := (clone init).seq fun acc => v.foldRightLoopC f v.len acc

/-- `Clone` of a `Copy` type. -/
abbrev copied {A : Type} : RClone σ A := ⟨ret⟩

section
variable {F : Type → Type} [RFoldableC σ F] {A B M : Type}

/-- `Foldable::fold_map` (`foldable.rs` 232-237). -/
def foldMapC [RMonoid M] [RClone σ M] [RSemigroupC σ M] (x : F A) (f : A → Act σ M) : Act σ M :=
  foldLeftC x (RMonoid.empty : M) fun acc a => (f a).seq fun b => combineC acc b
/-- `Foldable::fold_monoid` (`foldable.rs` 284-289); `into` is the conversion. -/
def foldMonoidC [RClone σ A] [RMonoid M] [RClone σ M] [RSemigroupC σ M] (into : A → M) (x : F A) : Act σ M :=
  foldLeftC x (RMonoid.empty : M) fun acc a => (clone a).seq fun a' => combineC acc (into a')
/-- `Foldable::length` (`foldable.rs` 300-302). -/
def lengthC (x : F A) : Act σ Nat := letI : RClone σ Nat := copied; foldLeftC x (0 : Nat) fun acc _ => ret (acc + 1)
/-- `Foldable::is_empty` (`foldable.rs` 306-308). -/
def isEmptyC (x : F A) : Act σ Bool := (lengthC x).seq fun n => ret (n == 0)
/-- `FoldableExt::find` (`foldable.rs` 339-353). -/
def findC [RClone σ A] (x : F A) (pred : A → Act σ Bool) : Act σ (Option A) :=
  foldLeftC x (none : Option A) fun acc a =>
    if acc.isSome then clone acc
    else (pred a).seq fun b => if b then (clone a).seq fun a' => ret (some a') else ret none
/-- `FoldableExt::all` (`foldable.rs` 380-385). -/
def allC (x : F A) (pred : A → Act σ Bool) : Act σ Bool :=
  letI : RClone σ Bool := copied
  foldLeftC x true fun acc a => if acc then pred a else ret false
/-- `FoldableExt::any` (`foldable.rs` 412-417). -/
def anyC (x : F A) (pred : A → Act σ Bool) : Act σ Bool :=
  letI : RClone σ Bool := copied
  foldLeftC x false fun acc a => if acc then ret true else pred a
/-- `FoldableExt::contains` (`foldable.rs` 439-444); `eq` is `==`. -/
def containsC (eq : A → A → Bool) (x : F A) (value : A) : Act σ Bool := anyC x fun a => ret (eq a value)
/-- `FoldableExt::fold_option` (`foldable.rs` 463-472). -/
def foldOptionC [RMonoid B] [RClone σ B] [RSemigroupC σ B] (x : F A) (f : A → Act σ (Option B)) : Act σ (Option B) :=
  foldLeftC x (some (RMonoid.empty : B)) fun acc a => (f a).seq fun r => match acc, r with
    | some a, some b => (combineC a b).seq fun c => ret (some c)
    | _, _ => ret none
/-- `FoldableExt::is_sorted` (`foldable.rs` 492-507); `p <= curr` is `le p curr`. -/
def isSortedC [RClone σ A] (le : A → A → Bool) (x : F A) : Act σ Bool :=
  letI : RClone σ Bool := copied
  (foldLeftC x (true, (none : Option A)) fun st curr =>
    if !st.1 then (clone curr).seq fun c => ret (false, some c)
    else match st.2 with
      | none => (clone curr).seq fun c => ret (true, some c)
      | some p => (clone curr).seq fun c => ret (le p curr, some c)).seq fun st => ret st.1
/-- `FoldableExt::to_vec` (`foldable.rs` 529-538): a clone of the accumulator, extended by a clone of the element. -/
def toVecC [RClone σ A] (x : F A) : Act σ (List A) :=
  foldLeftC x ([] : List A) fun acc a => (clone acc).seq fun newAcc => (clone a).seq fun a' => ret (newAcc ++ [a'])
/-- `FoldableExt::sum_values` (`foldable.rs` 555-560), `zero` being `default()`, and `product_values` (577-582), `zero`
being `from(1)` and `add` the product. -/
def sumValuesC [RClone σ A] (add : A → A → A) (zero : A) (x : F A) : Act σ A :=
  foldLeftC x zero fun acc a => (clone acc).seq fun acc' => (clone a).seq fun a' => ret (add acc' a')
/-- `FoldableExt::maximum` (`foldable.rs` 602-614); `x > current_max` is `lt current_max x`. -/
def maximumC [RClone σ A] (lt : A → A → Bool) (x : F A) : Act σ (Option A) :=
  foldLeftC x (none : Option A) fun m a => match m with
    | none => (clone a).seq fun a' => ret (some a')
    | some c => (if lt c a then clone a else clone c).seq fun r => ret (some r)
/-- `FoldableExt::minimum` (`foldable.rs` 634-646). -/
def minimumC [RClone σ A] (lt : A → A → Bool) (x : F A) : Act σ (Option A) :=
  foldLeftC x (none : Option A) fun m a => match m with
    | none => (clone a).seq fun a' => ret (some a')
    | some c => (if lt a c then clone a else clone c).seq fun r => ret (some r)
/-- `FoldableExt::reduce` (`foldable.rs` 676-685). -/
def reduceC [RClone σ A] (x : F A) (f : A → A → Act σ A) : Act σ (Option A) :=
  foldLeftC x (none : Option A) fun acc a => match acc with
    | none => (clone a).seq fun a' => ret (some a')
    | some b => (f b a).seq fun c => ret (some c)
end

end Rustica
