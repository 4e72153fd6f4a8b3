import Verif.Data.Choice
import Verif.Data.Validated
import Verif.Utils.Utils

/-!
# Size hints and the room asked of the allocator

The constructors that consume an iterator first read its `size_hint` and reserve room for as many items
(`validated/core.rs` 697-738 and 774-789, `choice.rs` 242-262, `hkt_utils.rs` 59-79, `categorical_utils.rs` 461-480).
The other files of the model drop this and take the list of items.  Here an iterator is its items *with* its hints, and
asking for more room than there is fails, as `SmallVec::with_capacity` and `Vec::with_capacity` do
("capacity overflow", or the abort on a failed allocation).

Room is counted in elements: `limit` is the largest capacity the allocator grants for this element type (at most
`isize::MAX / size_of::<T>()`).  Element types of size zero, for which nothing is allocated, are not covered.
`SmallVec` and `Vec` are not part of `/repo`; what is used of them is written out below and is part of the trusted base.
-/

namespace Rustica.Alloc

variable {T U E A B : Type}

/-- An iterator: the items it will yield, and what `size_hint` answers after `k` of them were taken
(`Iterator::size_hint`, standard library). -/
structure Hinted (T : Type) where
  items : List T
  hint : Nat → Nat × Option Nat

/-- A buffer: its contents and its capacity. -/
structure Buf (T : Type) where
  items : List T
  cap : Nat

/-- `usize::next_power_of_two` (standard library): the least power of two that is not smaller. -/
def nextPow2 (n : Nat) : Nat := if n ≤ 1 then 1 else 2 ^ (Nat.log2 (n - 1) + 1)

/-- `SmallVec::<[T; 8]>::with_capacity`: up to 8 elements are stored inline; `.error n` is the failure to get room for
`n` elements. -/
def smallWithCapacity (limit n : Nat) : Except Nat (Buf T) :=
  if n ≤ 8 then .ok ⟨[], 8⟩ else if n ≤ limit then .ok ⟨[], n⟩ else .error n

/-- `SmallVec::try_grow` to a capacity above the inline one. -/
def smallGrow (limit : Nat) (b : Buf T) (cap : Nat) : Except Nat (Buf T) :=
  if cap ≤ limit then .ok ⟨b.items, cap⟩ else .error cap

/-- `SmallVec::reserve`: grows to a power of two when the free room is too small. -/
def smallReserve (limit : Nat) (b : Buf T) (additional : Nat) : Except Nat (Buf T) :=
  if b.cap - b.items.length ≥ additional then .ok b
  else smallGrow limit b (nextPow2 (b.items.length + additional))

/-- `SmallVec::push`. -/
def smallPush (limit : Nat) (b : Buf T) (x : T) : Except Nat (Buf T) :=
  if b.items.length = b.cap then
    match smallGrow limit b (nextPow2 (b.items.length + 1)) with
    | .ok b' => .ok ⟨b'.items ++ [x], b'.cap⟩
    | .error e => .error e
  else .ok ⟨b.items ++ [x], b.cap⟩

/-- Pushing the items one after the other. -/
def smallPushAll (limit : Nat) : Buf T → List T → Except Nat (Buf T)
  | b, [] => .ok b
  | b, x :: xs =>
    match smallPush limit b x with
    | .ok b' => smallPushAll limit b' xs
    | .error e => .error e

/-- `SmallVec::extend`: reserve the lower bound of the hint, then write the items. -/
def smallExtend (limit : Nat) (b : Buf T) (lower : Nat) (xs : List T) : Except Nat (Buf T) :=
  match smallReserve limit b lower with
  | .ok b' => smallPushAll limit b' xs
  | .error e => .error e

/-- `iter.collect::<SmallVec<_>>()`: extend an empty one. -/
def smallCollect (limit : Nat) (it : Hinted T) : Except Nat (Buf T) :=
  smallExtend limit ⟨[], 8⟩ (it.hint 0).1 it.items

/-- `SmallVec::with_capacity(cap)` followed by `extend(iter)`. -/
def smallPrealloc (limit cap : Nat) (it : Hinted T) : Except Nat (Buf T) :=
  match smallWithCapacity limit cap with
  | .ok b => smallExtend limit b (it.hint 0).1 it.items
  | .error e => .error e

/-- `Validated::invalid_many` (`validated/core.rs` 697-738), with its three cases on the hint. -/
def invalidMany (limit : Nat) (it : Hinted E) : Except Nat (Validated E A) :=
  let lower := (it.hint 0).1
  let built := match (it.hint 0).2 with
    | some upper =>
      if upper = lower then
        if upper ≤ 4 then smallCollect limit it else smallPrealloc limit upper it
      else if upper ≤ 4 then smallCollect limit it
      else smallPrealloc limit upper it
    | none => if lower ≤ 4 then smallCollect limit it else smallPrealloc limit lower it
  built.map (fun b => .Invalid b.items)

/-- The buffer built by `Validated::invalid_vec` (`validated/core.rs` 781-784) from the first item and the rest of the
iterator; the hint is read after the first item was taken. -/
def invalidVecBuf (limit : Nat) (first : E) (lower : Nat) (rest : List E) : Except Nat (Buf E) :=
  match smallWithCapacity limit (lower + 1) with
  | .ok b => match smallPush limit b first with
    | .ok b' => smallExtend limit b' lower rest
    | .error e => .error e
  | .error e => .error e

/-- `Validated::invalid_vec` (`validated/core.rs` 774-789): `none` is the panic on an iterator without items. -/
def invalidVec (limit : Nat) (it : Hinted E) : Option (Except Nat (Validated E A)) :=
  match it.items with
  | first :: rest =>
    some ((invalidVecBuf limit first (it.hint 1).1 rest).map (fun b => .Invalid b.items))
  | [] => none

/-- The capacity computed by `Choice::new` (`choice.rs` 251-255). -/
def choiceCapacity (lower : Nat) (upper : Option Nat) : Nat :=
  match upper with
  | some u => if u = lower then u + 1 else if u ≤ 8 then u + 1 else max (lower + 1) 8
  | none => max (lower + 1) 8

/-- The buffer built by `Choice::new` (`choice.rs` 242-262). -/
def choiceNewBuf (limit : Nat) (item : T) (it : Hinted T) : Except Nat (Buf T) :=
  match smallWithCapacity limit (choiceCapacity (it.hint 0).1 (it.hint 0).2) with
  | .ok b => match smallPush limit b item with
    | .ok b' => smallExtend limit b' (it.hint 0).1 it.items
    | .error e => .error e
  | .error e => .error e

/-- `Choice::new` (`choice.rs` 242-262). -/
def choiceNew (limit : Nat) (item : T) (it : Hinted T) : Except Nat (Choice T) :=
  (choiceNewBuf limit item it).map (fun b => ⟨b.items⟩)

/-- `Choice::of_many` (`choice.rs` 952-964), `FromIterator` (2040-2046). -/
def choiceOfMany (limit : Nat) (it : Hinted T) : Except Nat (Choice T) :=
  (smallCollect limit it).map (fun b => if b.items.isEmpty then .newEmpty else ⟨b.items⟩)

/-- `Vec::with_capacity`. -/
def vecWithCapacity (limit n : Nat) : Except Nat (Buf T) :=
  if n ≤ limit then .ok ⟨[], n⟩ else .error n

/-- `Vec::push`: a full vector at least doubles. -/
def vecPush (limit : Nat) (b : Buf T) (x : T) : Except Nat (Buf T) :=
  if b.items.length = b.cap then
    let cap := max (max (2 * b.cap) (b.items.length + 1)) 4
    if cap ≤ limit then .ok ⟨b.items ++ [x], cap⟩ else .error cap
  else .ok ⟨b.items ++ [x], b.cap⟩

/-- The loop of `filter_map_collect` (`categorical_utils.rs` 473-477): push what `f` returns. -/
def filterMapLoop (limit : Nat) (f : T → Option U) : Buf U → List T → Except Nat (Buf U)
  | b, [] => .ok b
  | b, x :: xs =>
    match f x with
    | some y => match vecPush limit b y with
      | .ok b' => filterMapLoop limit f b' xs
      | .error e => .error e
    | none => filterMapLoop limit f b xs

/-- `filter_map_collect` (`categorical_utils.rs` 461-480): half the lower bound, at least 8. -/
def filterMapCollect (limit : Nat) (it : Hinted T) (f : T → Option U) : Except Nat (List U) :=
  match vecWithCapacity limit (max ((it.hint 0).1 / 2) 8) with
  | .ok b => (filterMapLoop limit f b it.items).map (fun b => b.items)
  | .error e => .error e

/-- `filter_map` of `hkt_utils.rs` 59-79: the same capacity; the loop is 72-76. -/
def filterMap' (limit : Nat) (it : Hinted A) (predicate : A → Bool) (f : A → B) : Except Nat (List B) :=
  match vecWithCapacity limit (max ((it.hint 0).1 / 2) 8) with
  | .ok b =>
    (filterMapLoop limit (fun a => if predicate a then some (f a) else none) b it.items).map (fun b => b.items)
  | .error e => .error e

/-! ## Capacities computed from lengths -/

/-- `usize` subtraction; `none` is the panic on underflow. -/
def checkedSub (a b : Nat) : Option Nat := if b ≤ a then some (a - b) else none

/-- `first_choice_values.len() - 1 + self_values.len() - 1` in `Choice::bind` (`choice.rs` 1465). -/
def bindCapacity (firstLen selfLen : Nat) : Option Nat :=
  match checkedSub firstLen 1 with
  | some a => checkedSub (a + selfLen) 1
  | none => none

/-- `primary_choice_values.len() - 1 + values.len()` in `Choice::bind_owned` (`choice.rs` 1499), where the primary value
was already removed from `values`. -/
def bindOwnedCapacity (firstLen valuesLen : Nat) : Option Nat :=
  match checkedSub firstLen 1 with
  | some a => some (a + valuesLen)
  | none => none

/-- `fa_values.len() * fb_values.len() - 1` in `Choice::lift2` (`choice.rs` 1753) and `lift2_owned` (1783). -/
def lift2Capacity (a b : Nat) : Option Nat := checkedSub (a * b) 1

/-- `fa_values.len() * fb_values.len() * fc_values.len() - 1` in `Choice::lift3` (`choice.rs` 1821) and `lift3_owned`
(1859). -/
def lift3Capacity (a b c : Nat) : Option Nat := checkedSub (a * b * c) 1

/-- `a * b` on `usize` of 64 bits with overflow checks; `none` is the panic. -/
def checkedMul (a b : Nat) : Option Nat := if a * b < 2 ^ 64 then some (a * b) else none

/-- `fa.len() * fb.len()` in `Vec::lift2` (`applicative.rs` 911) and `lift2_owned` (969). -/
def vecLift2Capacity (a b : Nat) : Option Nat := checkedMul a b

/-- `fa.len() * fb.len() * fc.len()` in `Vec::lift3` (`applicative.rs` 932) and `lift3_owned` (990): from the left. -/
def vecLift3Capacity (a b c : Nat) : Option Nat := (checkedMul a b).bind fun ab => checkedMul ab c

/-! ## Iterators of the standard library -/

/-- `Vec::into_iter`, `slice::iter`: exact hints. -/
def ofList (xs : List T) : Hinted T := ⟨xs, fun k => (xs.length - k, some (xs.length - k))⟩

/-- `(0..n).into_iter()`. -/
def range (n : Nat) : Hinted Nat := ofList (List.range n)

/-- `Iterator::take_while`: nothing is promised from below; from above, what the inner iterator promises.  (Each item
passed on was one item of the inner iterator.) -/
def takeWhile (p : T → Bool) (it : Hinted T) : Hinted T :=
  ⟨it.items.takeWhile p, fun k => (0, (it.hint k).2)⟩

/-- `std::iter::from_fn`: no promise at all. -/
def fromFn (xs : List T) : Hinted T := ⟨xs, fun _ => (0, none)⟩

end Rustica.Alloc
