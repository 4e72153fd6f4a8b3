import Verif.Data.Maybe
import Verif.Data.Either
import Verif.Data.Id
import Verif.Data.Writer
import Verif.Data.Wrappers
import Verif.Data.Choice
import Verif.Data.Validated
import Verif.Data.Std
import Verif.PVec.Core
import Verif.Utils.Eff
import Verif.Effect.Async

/-!
# Reading values out of the data types

The deprecated `Identity` trait (`src/traits/identity.rs`) with all its instances, the accessors of the wrapper
types, `Maybe::tap`, the one-shot iterators of `Maybe`, `Either` and `Validated`, in-place mutation through their
`iter_mut`, the extension trait `PureExt`, and the asynchronous maps of `Validated`.

A panic is `Except.error` with its message (the message of `Result::expect` also shows the error with `Debug`, which
is left out).
-/

namespace Rustica

/-- `trait Identity: HKT` (`traits/identity.rs` 95-205).  The two `try_` methods have default bodies (141-143,
190-195) that call the panicking method. -/
class RIdentity (F : Type → Type) where
  value {A : Type} : F A → Except String A
  intoValue {A : Type} : F A → Except String A
  tryValue {A : Type} : F A → Except String (Option A) := fun x => (value x).map some
  tryIntoValue {A : Type} : F A → Except String (Option A) := fun x => (intoValue x).map some

/-- `Option::expect`. -/
def expect {A : Type} (o : Option A) (msg : String) : Except String A :=
  match o with
  | some a => .ok a
  | none => .error msg

/-- The message of `Option::unwrap`. -/
def unwrapNone : String := "called `Option::unwrap()` on a `None` value"

/-- `Identity for Option` (`identity.rs` 209-229). -/
instance : RIdentity Option where
  value o := expect o "Option is None"
  intoValue o := expect o "Option is None"
  tryValue o := .ok o
  tryIntoValue o := .ok o

/-- `Result::ok`. -/
def resultOk {E A : Type} : Except E A → Option A
  | .ok a => some a
  | .error _ => none

/-- `Identity for Result` (`identity.rs` 231-251). -/
instance {E : Type} : RIdentity (Except E) where
  value r := expect (resultOk r) "Result is Err"
  intoValue r := expect (resultOk r) "Result is Err"
  tryValue r := .ok (resultOk r)
  tryIntoValue r := .ok (resultOk r)

/-- `Identity for First` (`first.rs` 376-384). -/
instance : RIdentity First where
  value x := expect x.val unwrapNone
  intoValue x := expect x.val unwrapNone

/-- `Identity for Last` (`last.rs` 395-403). -/
instance : RIdentity Last where
  value x := expect x.val unwrapNone
  intoValue x := expect x.val unwrapNone

/-- `Identity for Min` (`min.rs` 415-423). -/
instance : RIdentity Min where
  value x := .ok x.val
  intoValue x := .ok x.val

/-- `Identity for Max` (`max.rs` 406-414). -/
instance : RIdentity Max where
  value x := .ok x.val
  intoValue x := .ok x.val

/-- `Identity for Sum` (`sum.rs` 442-450). -/
instance : RIdentity Sum where
  value x := .ok x.val
  intoValue x := .ok x.val

/-- `Identity for Product` (`product.rs` 380-388). -/
instance : RIdentity Product where
  value x := .ok x.val
  intoValue x := .ok x.val

/-- `Identity for Id` (`id.rs` 400-410). -/
instance : RIdentity RId where
  value x := .ok x.value
  intoValue x := .ok x.value

/-- `Identity for Writer` (`writer.rs` 448-458). -/
instance {W : Type} : RIdentity (Writer W) where
  value x := .ok x.value
  intoValue x := .ok x.value

/-- `Identity for Validated` (`validated/traits.rs` 638-654). -/
instance {E : Type} : RIdentity (Validated E) where
  value
    | .Valid a => .ok a
    | _ => .error "Cannot extract value from invalid Validated"
  intoValue
    | .Valid a => .ok a
    | _ => .error "Cannot extract value from invalid Validated"

/-- `Identity for Choice` (`choice.rs` 1304-1317). -/
instance : RIdentity Choice where
  value c := expect c.first "Cannot get value from an empty Choice"
  intoValue c := expect c.values.head? "Cannot get value from an empty Choice"

/-- `Identity for Maybe` (`maybe.rs` 1395-1423). -/
instance : RIdentity Maybe where
  value
    | .Just v => .ok v
    | .Nothing => .error "Called `Identity::value()` on a `Nothing` value"
  intoValue m := expect m.unwrap "called `Maybe::unwrap()` on a `Nothing` value"

/-- `Identity for Either` (`either.rs` 1054-1085). -/
instance {L : Type} : RIdentity (Either L) where
  value
    | .Left _ => .error "Cannot get value from Left variant"
    | .Right r => .ok r
  intoValue
    | .Left _ => .error "Called into_value on an Either::Left"
    | .Right r => .ok r

/-- `Identity for PersistentVector` (`pvec/traits.rs` 18-38). -/
instance : RIdentity PVec.PV where
  value v := expect v.first "PersistentVector is empty"
  tryValue v := .ok v.first
  intoValue v := expect v.iter.next.1 "PersistentVector is empty"
  tryIntoValue v := .ok v.iter.next.1

/-! ## Accessors and conversions of the wrappers -/

variable {T A B E G : Type}

/-- `Max::unwrap_or` (`max.rs` 182-184) ignores its argument. -/
def Max.unwrapOr (x : Max T) (_d : T) : T := x.val
/-- `Sum::unwrap_or` (`sum.rs` 224-226) ignores its argument. -/
def Sum.unwrapOr (x : Sum T) (_d : T) : T := x.val
/-- `Product::unwrap_or` (`product.rs` 162-164) ignores its argument. -/
def Product.unwrapOr (x : Product T) (_d : T) : T := x.val
/-- `Min::unwrap` (`min.rs` 161-163), `as_ref` (185-187). -/
def Min.unwrap (x : Min T) : T := x.val
/-- `Max::unwrap` (`max.rs` 165-167), `as_ref` (189-191). -/
def Max.unwrap (x : Max T) : T := x.val
/-- `Sum::unwrap` (`sum.rs` 207-209), `as_ref` (231-233). -/
def Sum.unwrap (x : Sum T) : T := x.val
/-- `Product::unwrap` (`product.rs` 145-147), `as_ref` (169-171). -/
def Product.unwrap (x : Product T) : T := x.val
/-- `From<T> for First` (`first.rs` 514-519). -/
def First.from' (t : T) : First T := ⟨some t⟩
/-- `From<T> for Last` (`last.rs` 533-538). -/
def Last.from' (t : T) : Last T := ⟨some t⟩
/-- `From<T> for Min` (`min.rs` 548-553). -/
def Min.from' (t : T) : Min T := ⟨t⟩
/-- `From<T> for Max` (`max.rs` 542-546). -/
def Max.from' (t : T) : Max T := ⟨t⟩
/-- `From<T> for Sum` (`sum.rs` 625-630). -/
def Sum.from' (t : T) : Sum T := ⟨t⟩
/-- `From<T> for Product` (`product.rs` 562-567). -/
def Product.from' (t : T) : Product T := ⟨t⟩

/-! ## Closures run for their effect -/

/-- `Maybe::tap` (`maybe.rs` 679-687): calls the closure on the value, returns `self`. -/
def Maybe.tap {σ : Type} (m : Maybe T) (f : T → Eff σ Unit) : Eff σ (Maybe T) := fun w =>
  match m with
  | .Just v => (m, (f v w).2)
  | .Nothing => (m, w)

/-! ## One-shot iterators

`EitherIter`, `EitherIterRef`, `EitherIterMut`, `EitherLeftIter`, `EitherLeftIterRef`, `EitherLeftIterMut`
(`either.rs`) and `Iter`, `IterMut`, `IntoIter` (`validated/iter.rs`) all hold an `Option` and `take()` it. -/

/-- The iterator state. -/
structure OneShot (A : Type) where
  inner : Option A

/-- `next` (`either.rs` 770-806, 1275-1345; `validated/iter.rs` 11-13, 24-26, 82-84): `self.inner.take()`. -/
def OneShot.next (it : OneShot A) : Option A × OneShot A := (it.inner, ⟨none⟩)

/-- `Either::into_iter`, by value, by reference and by mutable reference (`either.rs` 1263-1350). -/
def Either.intoIter {L R : Type} : Either L R → OneShot R
  | .Right r => ⟨some r⟩
  | .Left _ => ⟨none⟩

/-- `left_iter` (`either.rs` 713-718), `left_iter_ref` (721-726), `left_iter_mut` (729-734). -/
def Either.leftIter' {L R : Type} : Either L R → OneShot L
  | .Left l => ⟨some l⟩
  | .Right _ => ⟨none⟩

/-- `Validated::into_iter` (`iter.rs` 67-72), `iter` (107-112), `iter_mut` (115-120). -/
def Validated.intoIter : Validated E A → OneShot A
  | .Valid a => ⟨some a⟩
  | _ => ⟨none⟩

/-- `Maybe::into_iter` (`maybe.rs` 1455-1460; by reference 1467-1472, by mutable reference 1479-1484, `iter_mut`
723-728): the one-element or empty iterator of the standard library. -/
def Maybe.intoIter : Maybe T → OneShot T
  | .Just v => ⟨some v⟩
  | .Nothing => ⟨none⟩

/-- `enum ErrorsIter` / `ErrorsIterMut` (`validated/iter.rs` 30-61): a slice iterator is the list still to come. -/
inductive ErrorsIter (E : Type) where
  | Empty
  | Multi (rest : List E)

/-- `next` (`validated/iter.rs` 38-43, 55-60). -/
def ErrorsIter.next : ErrorsIter E → Option E × ErrorsIter E
  | .Empty => (none, .Empty)
  | .Multi [] => (none, .Multi [])
  | .Multi (e :: es) => (some e, .Multi es)

/-- `iter_errors_mut` (`validated/iter.rs` 123-128). -/
def Validated.errorsIter : Validated E A → ErrorsIter E
  | .Invalid es => .Multi es
  | _ => .Empty

/-- `for x in m.iter_mut() { *x = f(x) }` on a `Maybe` (`maybe.rs` 723-728). -/
def Maybe.iterMutMap (m : Maybe T) (f : T → T) : Maybe T :=
  match m with
  | .Just x => .Just (f x)
  | .Nothing => .Nothing

/-- `for x in &mut e { *x = f(x) }` on an `Either` (`either.rs` 1340-1350). -/
def Either.iterMutMap {L R : Type} (e : Either L R) (f : R → R) : Either L R :=
  match e with
  | .Right r => .Right (f r)
  | .Left l => .Left l

/-- `for x in e.left_iter_mut() { *x = f(x) }` (`either.rs` 729-734). -/
def Either.leftIterMutMap {L R : Type} (e : Either L R) (f : L → L) : Either L R :=
  match e with
  | .Left l => .Left (f l)
  | .Right r => .Right r

/-- `let x = e.left_mut(); *x = f(x)` (`either.rs` 760-764). -/
def Either.leftMut {L R : Type} (e : Either L R) (f : L → L) : Except String (Either L R) :=
  match e with
  | .Left l => .ok (.Left (f l))
  | .Right _ => .error "Called left_mut() on a Right value"

/-- `for x in v.iter_mut() { *x = f(x) }` on a `Validated` (`iter.rs` 100-102, 115-120). -/
def Validated.iterMutMap (v : Validated E A) (f : A → A) : Validated E A :=
  match v with
  | .Valid a => .Valid (f a)
  | .Invalid es => .Invalid es

/-- `for x in v.iter_errors_mut() { *x = f(x) }` (`iter.rs` 123-128). -/
def Validated.iterErrorsMutMap (v : Validated E A) (f : E → E) : Validated E A :=
  match v with
  | .Valid a => .Valid a
  | .Invalid es => .Invalid (es.map f)

/-- `if let Some(es) = v.error_buffer_mut() { *es = f(es) }` (`core.rs` 387-392). -/
def Validated.errorBufferMut (v : Validated E A) (f : List E → List E) : Validated E A :=
  match v with
  | .Valid a => .Valid a
  | .Invalid es => .Invalid (f es)

/-- `Default for Maybe` (`maybe.rs` 1425-1430). -/
def Maybe.default' : Maybe T := .Nothing
/-- `Default for Choice` (`choice.rs` 2093-2097). -/
def Choice.default' : Choice T := Choice.newEmpty
/-- `Choice::to_map_with_key` (`choice.rs` 509-520): the hash map as an association list in insertion order;
`entry(k).or_insert_with(v)` adds only absent keys. -/
def Choice.toMapWithKey {K : Type} [DecidableEq K] (c : Choice T) (f : T → K) : List (K × T) :=
  c.values.foldl (fun map value =>
    if map.any (fun p => p.1 = f value) then map else map ++ [(f value, value)]) []

/-! ## `PureExt` and `PureType` (`traits/pure.rs` 275-643) -/

section PureExt
variable {P : Type → Type} [RPure P] {U V : Type}

/-- `to_pure` (`pure.rs` 307-313), `PureType::lift` (583-585). -/
def toPure (x : T) : P T := RPure.pure x
/-- `to_pure_owned` (`pure.rs` 339-345), `PureType::lift_owned` (616-618). -/
def toPureOwned (x : T) : P T := RPure.pureOwned x
/-- `pair_with` (`pure.rs` 384-392). -/
def pairWith (x : T) (other : U) : P (T × U) := RPure.pure (x, other)
/-- `lift_other` (`pure.rs` 426-432). -/
def liftOther (_x : T) (other : U) : P U := RPure.pure other
/-- `combine_with` (`pure.rs` 469-478). -/
def combineWith (x : T) (other : U) (f : T → U → V) : P V := RPure.pure (f x other)
end PureExt

/-! ## Asynchronous maps of `Validated` (`validated/core.rs` 1649-1760, feature `async`) -/

section ValidatedAsync
variable {σ : Type}

/-- `futures::future::join_all` (trusted external): polls the futures concurrently and returns the results in the
order of the futures.  The interleaving of the segments is given by one binary schedule per future (`Fut.join`); every
interleaving of n futures is such a nesting. -/
def joinAll : List (Fut σ A) → List (List Bool) → Fut σ (List A)
  | [], _ => .ret []
  | x :: xs, ss => (x.join (joinAll xs ss.tail) (ss.headD [])).bind fun p => .ret (p.1 :: p.2)

/-- `fmap_valid_async` (`core.rs` 1649-1663). -/
def Validated.fmapValidAsync (v : Validated E A) (f : A → Fut σ B) : Fut σ (Validated E B) :=
  match v with
  | .Valid x => (f x).bind fun result => .ret (.Valid result)
  | .Invalid e => .ret (.Invalid e)

/-- `fmap_invalid_async` (`core.rs` 1692-1710). -/
def Validated.fmapInvalidAsync (ss : List (List Bool)) (v : Validated E A) (f : E → Fut σ G) :
    Fut σ (Validated G A) :=
  match v with
  | .Valid x => .ret (.Valid x)
  | .Invalid es => (joinAll (es.map f) ss).bind fun results => .ret (.Invalid results)

/-- `and_then_async` (`core.rs` 1746-1757). -/
def Validated.andThenAsync (v : Validated E A) (f : A → Fut σ (Validated E B)) : Fut σ (Validated E B) :=
  match v with
  | .Valid x => f x
  | .Invalid e => .ret (.Invalid e)
end ValidatedAsync

end Rustica
