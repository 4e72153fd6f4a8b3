import Verif.Traits.Classes

/-!
# `Id<T>` (`src/datatypes/id.rs`)
-/

namespace Rustica

/-- `struct Id<T> { value: T }` (`id.rs` 250-252). -/
structure RId (T : Type) where
  value : T
deriving DecidableEq, Repr

namespace RId

/-- `then` (`id.rs` 355-357). -/
def andThen {T U : Type} (_x : RId T) (next : RId U) : RId U := ⟨next.value⟩

/-- `Functor` (`id.rs` 412-428), `Pure` (430-435), `Applicative` (437-509), `Monad` (511-596). -/
instance instMonad : RMonad RId where
  fmap f x := ⟨f x.value⟩
  fmapOwned f x := ⟨f x.value⟩
  pure a := ⟨a⟩
  apply f x := ⟨f.value x.value⟩
  lift2 f a b := ⟨f a.value b.value⟩
  lift3 f a b c := ⟨f a.value b.value c.value⟩
  applyOwned f x := ⟨f.value x.value⟩
  lift2Owned f a b := ⟨f a.value b.value⟩
  lift3Owned f a b c := ⟨f a.value b.value c.value⟩
  bind m f := f m.value
  bindOwned m f := f m.value
  join into m := into m.value
  joinOwned into m := into m.value

/-- `Semigroup` (`id.rs` 680-740). -/
instance {T : Type} [RSemigroup T] : RSemigroup (RId T) where
  combine a b := ⟨combine a.value b.value⟩
  combineOwned a b := ⟨combineOwned a.value b.value⟩

/-- `Monoid` (`id.rs` 742-766). -/
instance {T : Type} [RMonoid T] : RMonoid (RId T) where
  empty := ⟨RMonoid.empty⟩

/-- `Foldable` (`id.rs` 768-786). -/
instance : RFoldable RId where
  foldLeft x init f := f init x.value
  foldRight x init f := f x.value init

/-- `Comonad::extract` (`id.rs` 615-617). -/
def extract {T : Type} (x : RId T) : T := x.value
/-- `Comonad::duplicate` (`id.rs` 637-639): returns `Self`, not `Id<Id<T>>`. -/
def duplicate {T : Type} (x : RId T) : RId T := x
/-- `Comonad::extend` (`id.rs` 672-677). -/
def extend {T U : Type} (x : RId T) (f : RId T → U) : RId U := ⟨f x⟩

end RId
end Rustica
