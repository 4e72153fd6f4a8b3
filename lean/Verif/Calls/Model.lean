import Verif.Effect.Act
import Verif.Data.Std
import Verif.Data.Maybe
import Verif.Data.Either
import Verif.Data.Validated
import Verif.Data.Choice
import Verif.Data.Id
import Verif.Data.Writer
import Verif.Data.Wrappers
import Verif.Optics.Optics
import Verif.PVec.Core

/-!
# The same functions, called with closures that have effects and may panic

The other model files give a closure `Fn(A) -> B` the type `A → B`.  Here it has the type `A → Act σ B`: it may read
and write a world `σ`, and it may panic.  Which calls a function makes, in which order, and which calls it does not
make, becomes part of its meaning.  One definition per function; `E` for effects.  `collect`ing an `Iterator::map` is
`Act.mapList`, a `for` loop with an accumulator is `Act.foldList`.  `clone`, `combine`, `PartialEq::eq` and `Into`
are pure.
-/

namespace Rustica

namespace Act
variable {σ A B U : Type}

/-- `xs.iter().map(f).collect()`. -/
def mapList (f : A → Act σ B) : List A → Act σ (List B)
  | [] => ret []
  | x :: xs => (f x).seq fun y => (mapList f xs).seq fun ys => ret (y :: ys)
/-- `xs.iter().filter_map(f).collect()`. -/
def filterMapList (f : A → Act σ (Option B)) : List A → Act σ (List B)
  | [] => ret []
  | x :: xs => (f x).seq fun r => match r with
    | some y => (filterMapList f xs).seq fun ys => ret (y :: ys)
    | none => filterMapList f xs
/-- `xs.iter().filter(f).cloned().collect()`. -/
def filterList (p : A → Act σ Bool) : List A → Act σ (List A)
  | [] => ret []
  | x :: xs => (p x).seq fun b =>
    if b then (filterList p xs).seq fun ys => ret (x :: ys) else filterList p xs
/-- `for x in xs { acc = f(acc, x) }`, `Iterator::fold`. -/
def foldList (f : U → A → Act σ U) : List A → U → Act σ U
  | [], acc => ret acc
  | x :: xs, acc => (f acc x).seq fun acc' => foldList f xs acc'
end Act

open Act (ret mapList foldList)

/-! ## The traits -/

/-- `trait Functor` (`functor.rs` 127-161). -/
class RFunctorE (F : Type → Type) where
  fmapE {σ A B : Type} : (A → Act σ B) → F A → Act σ (F B)
  fmapOwnedE {σ A B : Type} : (A → Act σ B) → F A → Act σ (F B)

/-- `trait Applicative` (`applicative.rs` 189-606). -/
class RApplicativeE (F : Type → Type) where
  applyE {σ A B : Type} : F (A → Act σ B) → F A → Act σ (F B)
  lift2E {σ A B C : Type} : (A → B → Act σ C) → F A → F B → Act σ (F C)
  lift3E {σ A B C D : Type} : (A → B → C → Act σ D) → F A → F B → F C → Act σ (F D)
  applyOwnedE {σ A B : Type} : F (A → Act σ B) → F A → Act σ (F B)
  lift2OwnedE {σ A B C : Type} : (A → B → Act σ C) → F A → F B → Act σ (F C)
  lift3OwnedE {σ A B C D : Type} : (A → B → C → Act σ D) → F A → F B → F C → Act σ (F D)

/-- `trait Monad` (`monad.rs` 143-208); `join` takes no closure. -/
class RMonadE (F : Type → Type) where
  bindE {σ A B : Type} : F A → (A → Act σ (F B)) → Act σ (F B)
  bindOwnedE {σ A B : Type} : F A → (A → Act σ (F B)) → Act σ (F B)

/-- `trait Foldable` (`foldable.rs` 108-187). -/
class RFoldableE (F : Type → Type) where
  foldLeftE {σ A U : Type} : F A → U → (U → A → Act σ U) → Act σ U
  foldRightE {σ A U : Type} : F A → U → (A → U → Act σ U) → Act σ U

export RFunctorE (fmapE fmapOwnedE)
export RApplicativeE (applyE lift2E lift3E applyOwnedE lift2OwnedE lift3OwnedE)
export RMonadE (bindE bindOwnedE)
export RFoldableE (foldLeftE foldRightE)

/-! ## `Functor` -/

/-- `Option` (`functor.rs` 592-610). -/
instance : RFunctorE Option where
  fmapE f x := match x with
    | some v => (f v).seq fun b => ret (some b)
    | none => ret none
  fmapOwnedE f x := match x with
    | some v => (f v).seq fun b => ret (some b)
    | none => ret none
/-- `Result` (`functor.rs` 612-636). -/
instance {E : Type} : RFunctorE (Except E) where
  fmapE f x := match x with
    | .ok v => (f v).seq fun b => ret (.ok b)
    | .error e => ret (.error e)
  fmapOwnedE f x := match x with
    | .ok v => (f v).seq fun b => ret (.ok b)
    | .error e => ret (.error e)
/-- `Vec` (`functor.rs` 446-463). -/
instance : RFunctorE List where
  fmapE f x := mapList f x
  fmapOwnedE f x := mapList f x
/-- `Maybe` (`maybe.rs` 772-822). -/
instance : RFunctorE Maybe where
  fmapE f x := match x with
    | .Just v => (f v).seq fun b => ret (.Just b)
    | .Nothing => ret .Nothing
  fmapOwnedE f x := match x with
    | .Just v => (f v).seq fun b => ret (.Just b)
    | .Nothing => ret .Nothing
/-- `Either` (`either.rs` 808-830). -/
instance {L : Type} : RFunctorE (Either L) where
  fmapE f x := match x with
    | .Left l => ret (.Left l)
    | .Right r => (f r).seq fun b => ret (.Right b)
  fmapOwnedE f x := match x with
    | .Left l => ret (.Left l)
    | .Right r => (f r).seq fun b => ret (.Right b)
/-- `Validated` (`traits.rs` 128-152). -/
instance {E : Type} : RFunctorE (Validated E) where
  fmapE f x := match x with
    | .Valid v => (f v).seq fun b => ret (.Valid b)
    | .Invalid e => ret (.Invalid e)
  fmapOwnedE f x := match x with
    | .Valid v => (f v).seq fun b => ret (.Valid b)
    | .Invalid e => ret (.Invalid e)
/-- `Choice` (`choice.rs` 1358-1387): the primary value first, then the alternatives. -/
instance : RFunctorE Choice where
  fmapE f c := match c.values with
    | [] => ret .newEmpty
    | v :: vs => (f v).seq fun primary => (mapList f vs).seq fun alternatives =>
        ret (.new primary alternatives)
  fmapOwnedE f c := match c.values with
    | [] => ret .newEmpty
    | v :: vs => (f v).seq fun primary => (mapList f vs).seq fun alternatives =>
        ret (.new primary alternatives)
/-- `Id` (`id.rs` 412-428). -/
instance : RFunctorE RId where
  fmapE f x := (f x.value).seq fun b => ret ⟨b⟩
  fmapOwnedE f x := (f x.value).seq fun b => ret ⟨b⟩
/-- `Writer` (`writer.rs` 506-528). -/
instance {W : Type} : RFunctorE (Writer W) where
  fmapE f x := (f x.value).seq fun b => ret ⟨x.log, b⟩
  fmapOwnedE f x := (f x.value).seq fun b => ret ⟨x.log, b⟩
/-- `First` (`first.rs` 463-511). -/
instance : RFunctorE First where
  fmapE f x := match x.val with
    | some v => (f v).seq fun b => ret ⟨some b⟩
    | none => ret ⟨none⟩
  fmapOwnedE f x := match x.val with
    | some v => (f v).seq fun b => ret ⟨some b⟩
    | none => ret ⟨none⟩
/-- `Last` (`last.rs` 405-531). -/
instance : RFunctorE Last where
  fmapE f x := match x.val with
    | some v => (f v).seq fun b => ret ⟨some b⟩
    | none => ret ⟨none⟩
  fmapOwnedE f x := match x.val with
    | some v => (f v).seq fun b => ret ⟨some b⟩
    | none => ret ⟨none⟩
/-- `Min` (`min.rs` 501-545). -/
instance : RFunctorE Min where
  fmapE f x := (f x.val).seq fun b => ret ⟨b⟩
  fmapOwnedE f x := (f x.val).seq fun b => ret ⟨b⟩
/-- `Max` (`max.rs` 416-540). -/
instance : RFunctorE Max where
  fmapE f x := (f x.val).seq fun b => ret ⟨b⟩
  fmapOwnedE f x := (f x.val).seq fun b => ret ⟨b⟩
/-- `Sum` (`sum.rs` 532-622). -/
instance : RFunctorE Sum where
  fmapE f x := (f x.val).seq fun b => ret ⟨b⟩
  fmapOwnedE f x := (f x.val).seq fun b => ret ⟨b⟩
/-- `Product` (`product.rs` 390-560). -/
instance : RFunctorE Product where
  fmapE f x := (f x.val).seq fun b => ret ⟨b⟩
  fmapOwnedE f x := (f x.val).seq fun b => ret ⟨b⟩

/-! ## `Applicative` -/

/-- `Option` (`applicative.rs` 690-781). -/
instance : RApplicativeE Option where
  applyE f a := match f, a with
    | some func, some a => (func a).seq fun b => ret (some b)
    | _, _ => ret none
  lift2E f fa fb := match fa, fb with
    | some a, some b => (f a b).seq fun c => ret (some c)
    | _, _ => ret none
  lift3E f fa fb fc := match fa, fb, fc with
    | some a, some b, some c => (f a b c).seq fun d => ret (some d)
    | _, _, _ => ret none
  applyOwnedE f a := match f, a with
    | some func, some a => (func a).seq fun b => ret (some b)
    | _, _ => ret none
  lift2OwnedE f fa fb := match fa, fb with
    | some a, some b => (f a b).seq fun c => ret (some c)
    | _, _ => ret none
  lift3OwnedE f fa fb fc := match fa, fb, fc with
    | some a, some b, some c => (f a b c).seq fun d => ret (some d)
    | _, _, _ => ret none
/-- `Result` (`applicative.rs` 784-883). -/
instance {E : Type} : RApplicativeE (Except E) where
  applyE f a := match f, a with
    | .ok func, .ok a => (func a).seq fun b => ret (.ok b)
    | .error e, _ => ret (.error e)
    | _, .error e => ret (.error e)
  lift2E f fa fb := match fa, fb with
    | .ok a, .ok b => (f a b).seq fun c => ret (.ok c)
    | .error e, _ => ret (.error e)
    | _, .error e => ret (.error e)
  lift3E f fa fb fc := match fa, fb, fc with
    | .ok a, .ok b, .ok c => (f a b c).seq fun d => ret (.ok d)
    | .error e, _, _ => ret (.error e)
    | _, .error e, _ => ret (.error e)
    | _, _, .error e => ret (.error e)
  applyOwnedE f a := match f, a with
    | .ok func, .ok a => (func a).seq fun b => ret (.ok b)
    | .error e, _ => ret (.error e)
    | _, .error e => ret (.error e)
  lift2OwnedE f fa fb := match fa, fb with
    | .ok a, .ok b => (f a b).seq fun c => ret (.ok c)
    | .error e, _ => ret (.error e)
    | _, .error e => ret (.error e)
  lift3OwnedE f fa fb fc := match fa, fb, fc with
    | .ok a, .ok b, .ok c => (f a b c).seq fun d => ret (.ok d)
    | .error e, _, _ => ret (.error e)
    | _, .error e, _ => ret (.error e)
    | _, _, .error e => ret (.error e)
/-- The nested push loops of `Vec` (`applicative.rs` 893-899, 911-917, 951-957, 969-975). -/
def vecLoopE {σ A B C : Type} (f : A → B → Act σ C) (xs : List A) (ys : List B) : Act σ (List C) :=
  foldList (fun result a => foldList (fun result b => (f a b).seq fun c => ret (result ++ [c])) ys result) xs []
/-- The triple loop of `Vec::lift3_owned` (`applicative.rs` 990-998). -/
def vecLoop3E {σ A B C D : Type} (f : A → B → C → Act σ D) (xs : List A) (ys : List B) (zs : List C) :
    Act σ (List D) :=
  foldList (fun result a => foldList (fun result b =>
    foldList (fun result c => (f a b c).seq fun d => ret (result ++ [d])) zs result) ys result) xs []
/-- `Vec` (`applicative.rs` 886-1000). -/
instance : RApplicativeE List where
  applyE fs xs := vecLoopE (fun f x => f x) fs xs
  lift2E f xs ys := vecLoopE f xs ys
  lift3E f xs ys zs :=
    foldList (fun result abc => (f abc.1.1 abc.1.2 abc.2).seq fun d => ret (result ++ [d]))
      (((xs.flatMap fun a => ys.map fun b => (a, b)).flatMap fun ab => zs.map fun c => (ab, c))) []
  applyOwnedE fs xs := vecLoopE (fun f x => f x) fs xs
  lift2OwnedE f xs ys := vecLoopE f xs ys
  lift3OwnedE f xs ys zs := vecLoop3E f xs ys zs
/-- `Maybe` (`maybe.rs` 824-963). -/
instance : RApplicativeE Maybe where
  applyE f a := match f, a with
    | .Just func, .Just a => (func a).seq fun b => ret (.Just b)
    | _, _ => ret .Nothing
  lift2E f fa fb := match fa, fb with
    | .Just a, .Just b => (f a b).seq fun c => ret (.Just c)
    | _, _ => ret .Nothing
  lift3E f fa fb fc := match fa, fb, fc with
    | .Just a, .Just b, .Just c => (f a b c).seq fun d => ret (.Just d)
    | _, _, _ => ret .Nothing
  applyOwnedE f a := match f, a with
    | .Just func, .Just a => (func a).seq fun b => ret (.Just b)
    | _, _ => ret .Nothing
  lift2OwnedE f fa fb := match fa, fb with
    | .Just a, .Just b => (f a b).seq fun c => ret (.Just c)
    | _, _ => ret .Nothing
  lift3OwnedE f fa fb fc := match fa, fb, fc with
    | .Just a, .Just b, .Just c => (f a b c).seq fun d => ret (.Just d)
    | _, _, _ => ret .Nothing
/-- `Either` (`either.rs` 839-931). -/
instance {L : Type} : RApplicativeE (Either L) where
  applyE f a := match f, a with
    | .Right func, .Right a => (func a).seq fun b => ret (.Right b)
    | .Left l, _ => ret (.Left l)
    | _, .Left l => ret (.Left l)
  lift2E f fa fb := match fa, fb with
    | .Right a, .Right b => (f a b).seq fun c => ret (.Right c)
    | .Left l, _ => ret (.Left l)
    | _, .Left l => ret (.Left l)
  lift3E f fa fb fc := match fa, fb, fc with
    | .Right a, .Right b, .Right c => (f a b c).seq fun d => ret (.Right d)
    | .Left l, _, _ => ret (.Left l)
    | _, .Left l, _ => ret (.Left l)
    | _, _, .Left l => ret (.Left l)
  applyOwnedE f a := match f, a with
    | .Right func, .Right a => (func a).seq fun b => ret (.Right b)
    | .Left l, _ => ret (.Left l)
    | _, .Left l => ret (.Left l)
  lift2OwnedE f fa fb := match fa, fb with
    | .Right a, .Right b => (f a b).seq fun c => ret (.Right c)
    | .Left l, _ => ret (.Left l)
    | _, .Left l => ret (.Left l)
  lift3OwnedE f fa fb fc := match fa, fb, fc with
    | .Right a, .Right b, .Right c => (f a b c).seq fun d => ret (.Right d)
    | .Left l, _, _ => ret (.Left l)
    | _, .Left l, _ => ret (.Left l)
    | _, _, .Left l => ret (.Left l)
/-- `Validated` (`traits.rs` 365-530); the errors are collected without calling anything. -/
instance {E : Type} : RApplicativeE (Validated E) where
  applyE f a := match f, a with
    | .Valid f, .Valid a => (f a).seq fun b => ret (.Valid b)
    | .Valid _, .Invalid e => ret (.Invalid e)
    | .Invalid e, .Valid _ => ret (.Invalid e)
    | .Invalid e1, .Invalid e2 => ret (.Invalid (e1 ++ e2))
  lift2E f fa fb := match fa, fb with
    | .Valid a, .Valid b => (f a b).seq fun c => ret (.Valid c)
    | fa, fb => ret (.Invalid (Validated.addErrors (Validated.addErrors [] fa) fb))
  lift3E f fa fb fc := match fa, fb, fc with
    | .Valid a, .Valid b, .Valid c => (f a b c).seq fun d => ret (.Valid d)
    | fa, fb, fc => ret (.Invalid (Validated.addErrors (Validated.addErrors (Validated.addErrors [] fa) fb) fc))
  applyOwnedE f a := match f, a with
    | .Valid f, .Valid a => (f a).seq fun b => ret (.Valid b)
    | a, b => ret (.Invalid (Validated.addErrors (Validated.addErrors [] a) b))
  lift2OwnedE f fa fb := match fa, fb with
    | .Valid a, .Valid b => (f a b).seq fun c => ret (.Valid c)
    | fa, fb => ret (.Invalid (Validated.addErrors (Validated.addErrors [] fa) fb))
  lift3OwnedE f fa fb fc := match fa, fb, fc with
    | .Valid a, .Valid b, .Valid c => (f a b c).seq fun d => ret (.Valid d)
    | .Invalid e1, .Invalid e2, .Invalid e3 => ret (.Invalid (e1 ++ e2 ++ e3))
    | fa, fb, fc => ret (.Invalid (Validated.addErrors (Validated.addErrors (Validated.addErrors [] fa) fb) fc))
/-- `Id` (`id.rs` 437-509). -/
instance : RApplicativeE RId where
  applyE f a := (f.value a.value).seq fun b => ret ⟨b⟩
  lift2E f a b := (f a.value b.value).seq fun c => ret ⟨c⟩
  lift3E f a b c := (f a.value b.value c.value).seq fun d => ret ⟨d⟩
  applyOwnedE f a := (f.value a.value).seq fun b => ret ⟨b⟩
  lift2OwnedE f a b := (f a.value b.value).seq fun c => ret ⟨c⟩
  lift3OwnedE f a b c := (f a.value b.value c.value).seq fun d => ret ⟨d⟩
/-- `Writer` (`writer.rs` 530-944). -/
instance {W : Type} [RMonoid W] : RApplicativeE (Writer W) where
  applyE f a := (f.value a.value).seq fun b => ret ⟨combine f.log a.log, b⟩
  lift2E f a b := (f a.value b.value).seq fun c => ret ⟨combine a.log b.log, c⟩
  lift3E f a b c := (f a.value b.value c.value).seq fun d => ret ⟨combine (combine a.log b.log) c.log, d⟩
  applyOwnedE f a := (f.value a.value).seq fun b => ret ⟨combineOwned f.log a.log, b⟩
  lift2OwnedE f a b := (f a.value b.value).seq fun c => ret ⟨combineOwned a.log b.log, c⟩
  lift3OwnedE f a b c := (f a.value b.value c.value).seq fun d =>
    ret ⟨combineOwned (combineOwned a.log b.log) c.log, d⟩

namespace Choice
variable {σ A B C D : Type}
/-- `generate_apply_alternatives` (`choice.rs` 1266-1286): `filter_map` inside `flat_map`, pulled by `collect`. -/
def generateApplyAlternativesE (fs : List (A → Act σ B)) (xs : List A) : Act σ (List B) :=
  (mapList (fun xi : A × Nat => Act.filterMapList (fun fj : (A → Act σ B) × Nat =>
    if xi.2 == 0 && fj.2 == 0 then ret none else (fj.1 xi.1).seq fun b => ret (some b)) fs.zipIdx)
    xs.zipIdx).seq fun bss => ret bss.flatten
/-- The double loop of `lift2` (`choice.rs` 1756-1763, 1786-1793). -/
def liftLoop2E (f : A → B → Act σ C) (as : List A) (bs : List B) : Act σ (List C) :=
  foldList (fun acc (ai : A × Nat) => foldList (fun acc (bj : B × Nat) =>
    if ai.2 == 0 && bj.2 == 0 then ret acc else (f ai.1 bj.1).seq fun c => ret (acc ++ [c]))
      bs.zipIdx acc) as.zipIdx []
/-- The triple loop of `lift3` (`choice.rs` 1824-1833, 1862-1871). -/
def liftLoop3E (f : A → B → C → Act σ D) (as : List A) (bs : List B) (cs : List C) : Act σ (List D) :=
  foldList (fun acc (ai : A × Nat) => foldList (fun acc (bj : B × Nat) => foldList (fun acc (ck : C × Nat) =>
    if ai.2 == 0 && bj.2 == 0 && ck.2 == 0 then ret acc
    else (f ai.1 bj.1 ck.1).seq fun d => ret (acc ++ [d])) cs.zipIdx acc) bs.zipIdx acc) as.zipIdx []
/-- `apply` (`choice.rs` 1689-1715). -/
def applyE' (fs : Choice (A → Act σ B)) (value : Choice A) : Act σ (Choice B) :=
  match fs.values, value.values with
  | f :: fs', x :: xs =>
    (f x).seq fun primary =>
    (mapList (fun fAlt => fAlt x) fs').seq fun firsts =>
    (mapList (fun valAlt => (f valAlt).seq fun b =>
      (mapList (fun fAlt => fAlt valAlt) fs').seq fun bs => ret (b :: bs)) xs).seq fun rests =>
    ret (new primary (firsts ++ rests.flatten))
  | _, _ => ret newEmpty
/-- `apply_owned` (`choice.rs` 1717-1733). -/
def applyOwnedE' (fs : Choice (A → Act σ B)) (value : Choice A) : Act σ (Choice B) :=
  match fs.values, value.values with
  | f :: fs', x :: xs =>
    (f x).seq fun primary =>
    (generateApplyAlternativesE (f :: fs') (x :: xs)).seq fun alternatives => ret (new primary alternatives)
  | _, _ => ret newEmpty
/-- `lift2` (`choice.rs` 1735-1766), `lift2_owned` (1768-1796). -/
def lift2E' (f : A → B → Act σ C) (fa : Choice A) (fb : Choice B) : Act σ (Choice C) :=
  match fa.values, fb.values with
  | a :: as, b :: bs =>
    (f a b).seq fun primary =>
    (liftLoop2E f (a :: as) (b :: bs)).seq fun alternatives => ret (new primary alternatives)
  | _, _ => ret newEmpty
/-- `lift3` (`choice.rs` 1798-1836), `lift3_owned` (1838-1874). -/
def lift3E' (f : A → B → C → Act σ D) (fa : Choice A) (fb : Choice B) (fc : Choice C) : Act σ (Choice D) :=
  match fa.values, fb.values, fc.values with
  | a :: as, b :: bs, c :: cs =>
    (f a b c).seq fun primary =>
    (liftLoop3E f (a :: as) (b :: bs) (c :: cs)).seq fun alternatives => ret (new primary alternatives)
  | _, _, _ => ret newEmpty
end Choice

/-- `Choice` (`choice.rs` 1630-1875). -/
instance : RApplicativeE Choice where
  applyE f a := Choice.applyE' f a
  lift2E f a b := Choice.lift2E' f a b
  lift3E f a b c := Choice.lift3E' f a b c
  applyOwnedE f a := Choice.applyOwnedE' f a
  lift2OwnedE f a b := Choice.lift2E' f a b
  lift3OwnedE f a b c := Choice.lift3E' f a b c

/-! ## `Monad` -/

/-- `Option` (`monad.rs` 315-350). -/
instance : RMonadE Option where
  bindE m f := match m with
    | some a => f a
    | none => ret none
  bindOwnedE m f := match m with
    | some a => f a
    | none => ret none
/-- `Result` (`monad.rs` 353-394). -/
instance {E : Type} : RMonadE (Except E) where
  bindE m f := match m with
    | .ok a => f a
    | .error e => ret (.error e)
  bindOwnedE m f := match m with
    | .ok a => f a
    | .error e => ret (.error e)
/-- `Maybe` (`maybe.rs` 1004-1064). -/
instance : RMonadE Maybe where
  bindE m f := match m with
    | .Just a => f a
    | .Nothing => ret .Nothing
  bindOwnedE m f := match m with
    | .Just a => f a
    | .Nothing => ret .Nothing
/-- `Either` (`either.rs` 933-979). -/
instance {L : Type} : RMonadE (Either L) where
  bindE m f := match m with
    | .Left l => ret (.Left l)
    | .Right r => f r
  bindOwnedE m f := match m with
    | .Left l => ret (.Left l)
    | .Right r => f r
/-- `Validated` (`traits.rs` 588-636). -/
instance {E : Type} : RMonadE (Validated E) where
  bindE m f := match m with
    | .Valid a => f a
    | .Invalid e => ret (.Invalid e)
  bindOwnedE m f := match m with
    | .Valid a => f a
    | .Invalid e => ret (.Invalid e)
/-- `Id` (`id.rs` 511-596). -/
instance : RMonadE RId where
  bindE m f := f m.value
  bindOwnedE m f := f m.value
/-- `Writer` (`writer.rs` 1003-1071). -/
instance {W : Type} [RMonoid W] : RMonadE (Writer W) where
  bindE m f := (f m.value).seq fun r => ret ⟨combine m.log r.log, r.value⟩
  bindOwnedE m f := (f m.value).seq fun r => ret ⟨combineOwned m.log r.log, r.value⟩
/-- `Choice` (`choice.rs` 1444-1509): after an empty result for the primary value nothing else is called. -/
instance : RMonadE Choice where
  bindE c f := match c.values with
    | [] => ret .newEmpty
    | v :: vs => (f v).seq fun firstChoice =>
      match firstChoice.values with
      | [] => ret .newEmpty
      | first :: rest =>
        (foldList (fun alternatives alt => (f alt).seq fun c => ret (alternatives ++ c.values)) vs rest).seq
          fun alternatives => ret (.new first alternatives)
  bindOwnedE c f := match c.values with
    | [] => ret .newEmpty
    | v :: vs => (f v).seq fun firstChoice =>
      match firstChoice.values with
      | [] => ret .newEmpty
      | first :: rest =>
        (foldList (fun alternatives alt => (f alt).seq fun c => ret (alternatives ++ c.values)) vs rest).seq
          fun alternatives => ret (.new first alternatives)

/-! ## `Foldable` -/

/-- `Vec` (`foldable.rs` 692-716). -/
instance : RFoldableE List where
  foldLeftE xs init f := foldList f xs init
  foldRightE xs init f := foldList (fun acc x => f x acc) xs.reverse init
/-- `Option` (`foldable.rs` 719-741). -/
instance : RFoldableE Option where
  foldLeftE x init f := match x with
    | some a => f init a
    | none => ret init
  foldRightE x init f := match x with
    | some a => f a init
    | none => ret init
/-- `Result` (`foldable.rs` 744-766). -/
instance {E : Type} : RFoldableE (Except E) where
  foldLeftE x init f := match x with
    | .ok a => f init a
    | .error _ => ret init
  foldRightE x init f := match x with
    | .ok a => f a init
    | .error _ => ret init
/-- `Validated` (`traits.rs` 682-706). -/
instance {E : Type} : RFoldableE (Validated E) where
  foldLeftE x init f := match x with
    | .Valid a => f init a
    | .Invalid _ => ret init
  foldRightE x init f := match x with
    | .Valid a => f a init
    | .Invalid _ => ret init
/-- `Id` (`id.rs` 768-786). -/
instance : RFoldableE RId where
  foldLeftE x init f := f init x.value
  foldRightE x init f := f x.value init
/-- `Choice` (`choice.rs` 2017-2037). -/
instance : RFoldableE Choice where
  foldLeftE c init f := foldList f c.values init
  foldRightE c init f := foldList (fun acc v => f v acc) c.values.reverse init

section FoldableExt
variable {F : Type → Type} [RFoldableE F] {σ A B : Type}

/-- `Foldable::fold_map` (`foldable.rs` 232-237). -/
def foldMapE [RMonoid B] (x : F A) (f : A → Act σ B) : Act σ B :=
  foldLeftE x (RMonoid.empty : B) fun acc a => (f a).seq fun b => ret (combine acc b)
/-- `FoldableExt::find` (`foldable.rs` 339-353). -/
def findE (x : F A) (pred : A → Act σ Bool) : Act σ (Option A) :=
  foldLeftE x (none : Option A) fun acc a => match acc with
    | some r => ret (some r)
    | none => (pred a).seq fun b => if b then ret (some a) else ret none
/-- `FoldableExt::all` (`foldable.rs` 380-385): `*acc && pred(x)`. -/
def allE (x : F A) (pred : A → Act σ Bool) : Act σ Bool :=
  foldLeftE x true fun acc a => if acc then pred a else ret false
/-- `FoldableExt::any` (`foldable.rs` 412-417): `*acc || pred(x)`. -/
def anyE (x : F A) (pred : A → Act σ Bool) : Act σ Bool :=
  foldLeftE x false fun acc a => if acc then ret true else pred a
/-- `FoldableExt::fold_option` (`foldable.rs` 463-472): the scrutinee `(acc, f(x))` calls `f` in every round. -/
def foldOptionE [RMonoid B] (x : F A) (f : A → Act σ (Option B)) : Act σ (Option B) :=
  foldLeftE x (some (RMonoid.empty : B)) fun acc a => (f a).seq fun r => match acc, r with
    | some a, some b => ret (some (combine a b))
    | _, _ => ret none
/-- `FoldableExt::reduce` (`foldable.rs` 676-685). -/
def reduceE (x : F A) (f : A → A → Act σ A) : Act σ (Option A) :=
  foldLeftE x (none : Option A) fun acc a => match acc with
    | none => ret (some a)
    | some b => (f b a).seq fun c => ret (some c)
end FoldableExt

/-! ## `Validated`: closures over errors -/

namespace Validated
variable {σ E A B C D G : Type}
/-- The loop of `recover_all` (`core.rs` 233-243). -/
def recoverLoopE (recovery : E → Act σ (Validated E A)) : List E → List E → Act σ (Validated E A)
  | [], acc => ret (Invalid acc)
  | e :: es, acc => (recovery e).seq fun r => match r with
    | Valid v => ret (Valid v)
    | Invalid more => recoverLoopE recovery es (acc ++ more)
/-- `recover_all` (`core.rs` 224-248). -/
def recoverAllE (v : Validated E A) (recovery : E → Act σ (Validated E A)) : Act σ (Validated E A) :=
  match v with
  | Valid v => ret (Valid v)
  | Invalid errors => recoverLoopE recovery errors []
/-- `recover_all_at_once` (`core.rs` 283-291). -/
def recoverAllAtOnceE (v : Validated E A) (recovery : List E → Act σ (Validated E A)) : Act σ (Validated E A) :=
  match v with
  | Valid v => ret (Valid v)
  | Invalid errors => recovery errors
/-- `fmap_invalid` (`core.rs` 815-827), `fmap_invalid_owned` (853-865), `second` (`traits.rs` 243-255),
`map_second` (158-172), `map_second_owned` (174-186). -/
def fmapInvalidE (v : Validated E A) (f : E → Act σ G) : Act σ (Validated G A) :=
  match v with
  | Valid x => ret (Valid x)
  | Invalid es => (mapList f es).seq fun gs => ret (Invalid gs)
/-- `bimap` (`traits.rs` 216-230). -/
def bimapE (v : Validated E A) (f : A → Act σ C) (g : E → Act σ D) : Act σ (Validated D C) :=
  match v with
  | Valid x => (f x).seq fun c => ret (Valid c)
  | Invalid es => (mapList g es).seq fun ds => ret (Invalid ds)
/-- `from_option_with` (`core.rs` 1179-1187), `from_option_with_owned` (1213-1221). -/
def fromOptionWithE (o : Option A) (ef : Unit → Act σ E) : Act σ (Validated E A) :=
  match o with
  | some v => ret (Valid v)
  | none => (ef ()).seq fun e => ret (Invalid [e])
/-- `sequence` (`core.rs` 1386-1417). -/
def sequenceE (values : List (Validated E A)) (f : List A → Act σ B) : Act σ (Validated E B) :=
  if values.isEmpty then (f []).seq fun b => ret (Valid b)
  else if values.all isValid then (f (validOnly values)).seq fun b => ret (Valid b)
  else ret (Invalid (values.foldl (fun acc v => match v with
    | Invalid es => extendCloned acc es
    | Valid _ => acc) []))
end Validated

/-! ## `Predicate` -/

/-- `Predicate<A>` (`predicate.rs` 106-108) whose closure has effects. -/
structure PredicateE (σ A : Type) where
  func : A → Act σ Bool

namespace PredicateE
variable {σ A : Type}
/-- `x || y`: `y` is evaluated only if `x` is false. -/
def orElse (x y : Act σ Bool) : Act σ Bool := x.seq fun b => if b then ret true else y
/-- `x && y`: `y` is evaluated only if `x` is true. -/
def andAlso (x y : Act σ Bool) : Act σ Bool := x.seq fun b => if b then y else ret false
/-- `contains` (`predicate.rs` 168-170). -/
def contains (p : PredicateE σ A) (a : A) : Act σ Bool := p.func a
/-- `union` (`predicate.rs` 206-215), `bitor` (350-352), `combine` (450-452). -/
def union (p q : PredicateE σ A) : PredicateE σ A := ⟨fun a => orElse (p.func a) (q.func a)⟩
/-- `combine_owned` (`predicate.rs` 484-490). -/
def combineOwned (p q : PredicateE σ A) : PredicateE σ A := ⟨fun a => orElse (p.func a) (q.func a)⟩
/-- `intersection` (`predicate.rs` 251-260), `bitand` (361-363). -/
def intersection (p q : PredicateE σ A) : PredicateE σ A := ⟨fun a => andAlso (p.func a) (q.func a)⟩
/-- `diff` (`predicate.rs` 295-304), `sub` (372-374). -/
def diff (p remove : PredicateE σ A) : PredicateE σ A :=
  ⟨fun a => andAlso (p.func a) ((remove.func a).seq fun b => ret (!b))⟩
/-- `negate` (`predicate.rs` 332-340), `not` (383-385). -/
def negate (p : PredicateE σ A) : PredicateE σ A := ⟨fun a => (p.func a).seq fun b => ret (!b)⟩
/-- `empty` (`predicate.rs` 581-583). -/
def empty : PredicateE σ A := ⟨fun _ => ret false⟩
end PredicateE

/-! ## Optics -/

/-- `Lens` (`lens.rs` 272-280) with effectful functions. -/
structure LensE (σ S A : Type) where
  getFn : S → Act σ A
  setFn : S → A → Act σ S

namespace LensE
variable {σ S A : Type}
/-- `get` (`lens.rs` 383-385). -/
def get (l : LensE σ S A) (source : S) : Act σ A := l.getFn source
/-- `set_always` (`lens.rs` 504-506). -/
def setAlways (l : LensE σ S A) (source : S) (value : A) : Act σ S := l.setFn source value
/-- `set` (`lens.rs` 443-452). -/
def set [DecidableEq A] (l : LensE σ S A) (source : S) (value : A) : Act σ S :=
  (l.get source).seq fun cur => if cur = value then ret source else l.setAlways source value
/-- `modify` (`lens.rs` 563-571): reads the focus, and `set` reads it again. -/
def modify [DecidableEq A] (l : LensE σ S A) (source : S) (f : A → Act σ A) : Act σ S :=
  (l.get source).seq fun current => (f current).seq fun newValue => l.set source newValue
/-- `modify_always` (`lens.rs` 634-641). -/
def modifyAlways (l : LensE σ S A) (source : S) (f : A → Act σ A) : Act σ S :=
  (l.get source).seq fun current => (f current).seq fun newValue => l.setAlways source newValue
end LensE

/-- `Prism` (`prism.rs` 436-446) with effectful functions. -/
structure PrismE (σ S A : Type) where
  previewFn : S → Act σ (Option A)
  reviewFn : A → Act σ S

namespace PrismE
variable {σ S A : Type}
/-- `preview` (`prism.rs` 562-564). -/
def preview (p : PrismE σ S A) (s : S) : Act σ (Option A) := p.previewFn s
/-- `review` (`prism.rs` 612-614). -/
def review (p : PrismE σ S A) (a : A) : Act σ S := p.reviewFn a
/-- `modify` (`prism.rs` 743-759). -/
def modify [DecidableEq A] (p : PrismE σ S A) (source : S) (f : A → Act σ A) : Act σ S :=
  (p.preview source).seq fun r => match r with
    | some currentValue => (f currentValue).seq fun newValue =>
        if newValue = currentValue then ret source else p.review newValue
    | none => ret source
/-- `set_if_different` (`prism.rs` 817-831). -/
def setIfDifferent [DecidableEq A] (p : PrismE σ S A) (source : S) (newValue : A) : Act σ S :=
  (p.preview source).seq fun r => match r with
    | some currentValue => if newValue = currentValue then ret source else p.review newValue
    | none => p.review newValue
end PrismE

/-! ## `PersistentVector` -/

namespace PVec.PV
variable {σ α β : Type}
/-- `map` (`core.rs` 183-189), `Functor::fmap` (`traits.rs` 42-48), `fmap_owned` (51-58). -/
def mapE (v : PV α) (f : α → Act σ β) : Act σ (PV β) := (mapList f v.items).seq fun ys => ret (fromIter ys)
/-- `filter` (`core.rs` 226-231). -/
def filterE (v : PV α) (p : α → Act σ Bool) : Act σ (PV α) :=
  (Act.filterList p v.items).seq fun ys => ret (fromIter ys)
/-- `filter_map` (`core.rs` 304-309). -/
def filterMapE (v : PV α) (f : α → Act σ (Option β)) : Act σ (PV β) :=
  (Act.filterMapList f v.items).seq fun ys => ret (fromIter ys)
/-- `flat_map` (`core.rs` 322-328); the iterators returned by the closure are effect-free. -/
def flatMapE (v : PV α) (f : α → Act σ (List β)) : Act σ (PV β) :=
  (mapList f v.items).seq fun yss => ret (fromIter yss.flatten)
/-- `fold` (`core.rs` 389-394), `Foldable::fold_left` (`traits.rs` 63-72). -/
def foldE (v : PV α) (init : β) (f : β → α → Act σ β) : Act σ β := foldList f v.items init
/-- `Foldable::fold_right` (`traits.rs` 75-86), the loop. -/
def foldRightLoopE (v : PV α) (f : α → β → Act σ β) : Nat → β → Act σ β
  | 0, acc => ret acc
  | i + 1, acc => (match v.get i with
      | some item => f item acc
      | none => ret acc).seq fun acc' => foldRightLoopE v f i acc'
/-- `Foldable::fold_right` (`traits.rs` 75-86). -/
def foldRightE (v : PV α) (init : β) (f : α → β → Act σ β) : Act σ β := foldRightLoopE v f v.len init
/-- The loop of `partition` (`core.rs` 443-449). -/
def partitionLoopE (p : α → Act σ Bool) : List α → List α → List α → Act σ (List α × List α)
  | [], ts, fs => ret (ts, fs)
  | item :: rest, ts, fs => (p item).seq fun b =>
    if b then partitionLoopE p rest (ts ++ [item]) fs else partitionLoopE p rest ts (fs ++ [item])
/-- `partition` (`core.rs` 436-452). -/
def partitionE (v : PV α) (p : α → Act σ Bool) : Act σ (PV α × PV α) :=
  (partitionLoopE p v.items [] []).seq fun r => ret (fromIter r.1, fromIter r.2)
end PVec.PV

end Rustica
