import Verif.Traits.Classes

/-!
# `Writer<W, A>` (`src/datatypes/writer.rs`)
-/

namespace Rustica

/-- `struct Writer<W, A> { log: W, value: A }` (`writer.rs` 198-203). -/
structure Writer (W A : Type) where
  log : W
  value : A
deriving DecidableEq, Repr

namespace Writer
variable {W A : Type} [RMonoid W]

/-- `tell` (`writer.rs` 294-296). -/
def tell (log : W) : Writer W Unit := ⟨log, ()⟩
omit [RMonoid W] in
/-- `run` (`writer.rs` 341-343). -/
def run (w : Writer W A) : W × A := (w.log, w.value)
/-- `pure_value` (`writer.rs` 395-397). -/
def pureValue (a : A) : Writer W A := ⟨RMonoid.empty, a⟩

/-- `Semigroup` (`writer.rs` 478-494). -/
instance [RMonoid A] : RSemigroup (Writer W A) where
  combine a b := ⟨combine a.log b.log, combine a.value b.value⟩
  combineOwned a b := ⟨combineOwned a.log b.log, combineOwned a.value b.value⟩

/-- `Monoid` (`writer.rs` 496-504). -/
instance [RMonoid A] : RMonoid (Writer W A) where
  empty := ⟨RMonoid.empty, RMonoid.empty⟩

/-- `Pure` (`writer.rs` 460-476), `Functor` (506-528), `Applicative` (530-944), `Monad` (946-1192). -/
instance instMonad : RMonad (Writer W) where
  fmap f x := ⟨x.log, f x.value⟩
  fmapOwned f x := ⟨x.log, f x.value⟩
  pure a := ⟨RMonoid.empty, a⟩
  pureOwned a := ⟨RMonoid.empty, a⟩
  apply f x := ⟨combine f.log x.log, f.value x.value⟩
  lift2 f a b := ⟨combine a.log b.log, f a.value b.value⟩
  lift3 f a b c := ⟨combine (combine a.log b.log) c.log, f a.value b.value c.value⟩
  applyOwned f x := ⟨combineOwned f.log x.log, f.value x.value⟩
  lift2Owned f a b := ⟨combineOwned a.log b.log, f a.value b.value⟩
  lift3Owned f a b c := ⟨combineOwned (combineOwned a.log b.log) c.log, f a.value b.value c.value⟩
  bind m f := ⟨combine m.log (f m.value).log, (f m.value).value⟩
  bindOwned m f := ⟨combineOwned m.log (f m.value).log, (f m.value).value⟩
  join into m := ⟨combine m.log (into m.value).log, (into m.value).value⟩
  joinOwned into m := ⟨combineOwned m.log (into m.value).log, (into m.value).value⟩

end Writer
end Rustica
