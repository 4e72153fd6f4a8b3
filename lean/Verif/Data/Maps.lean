import Verif.Traits.Classes

/-!
# Maps and sets with `Semigroup`

`HashMap<K, V>` and `BTreeMap<K, V>` are modelled by the same thing: a list of entries with pairwise
distinct keys, observed through `get`.  The order in which `for (k, v) in other` visits the entries is
*not* fixed by the model: every merge takes the visiting order as an argument, and all theorems quantify
over every permutation of the entries.  (A `HashMap` visits in an unspecified order, a `BTreeMap` in key
order; both are permutations.)  Likewise `HashSet<T>`/`BTreeSet<T>` are duplicate-free lists observed
through membership.  Hashing, tree balancing and capacity are not modelled.
-/

namespace Rustica

/-- A map as a list of entries with distinct keys. -/
structure AMap (K V : Type) where
  entries : List (K × V)
  nodup : (entries.map Prod.fst).Nodup

namespace AMap
variable {K V : Type} [DecidableEq K]

/-- First value stored under `k` in a list of entries. -/
def look (k : K) : List (K × V) → Option V
  | [] => none
  | e :: es => if e.1 = k then some e.2 else look k es

/-- `HashMap::get` / `BTreeMap::get`. -/
def get (m : AMap K V) (k : K) : Option V := look k m.entries

/-- `HashMap::new()`. -/
def new : AMap K V := ⟨[], List.nodup_nil⟩

/-- Replace the value under an existing key. -/
def setAt (k : K) (v : V) : List (K × V) → List (K × V)
  | [] => []
  | e :: es => if e.1 = k then (e.1, v) :: es else e :: setAt k v es

theorem setAt_keys (k : K) (v : V) (es : List (K × V)) :
    (setAt k v es).map Prod.fst = es.map Prod.fst := by
  induction es with
  | nil => rfl
  | cons e es ih => unfold setAt; split <;> simp_all

theorem look_none_iff (k : K) (es : List (K × V)) : look k es = none ↔ k ∉ es.map Prod.fst := by
  induction es with
  | nil => simp [look]
  | cons e es ih =>
    unfold look
    by_cases h : e.1 = k
    · simp [h]
    · simp only [h, if_false, ih, List.map_cons, List.mem_cons, not_or]
      exact ⟨fun hh => ⟨fun h' => h h'.symm, hh⟩, fun hh => hh.2⟩

/-- `insert(k, v)`: overwrite, or add a new entry. -/
def insert (m : AMap K V) (k : K) (v : V) : AMap K V :=
  if h : look k m.entries = none then
    ⟨m.entries ++ [(k, v)], by
      rw [List.map_append, List.nodup_append]
      refine ⟨m.nodup, by simp, ?_⟩
      intro a ha b hb
      have : b = k := by simpa using hb
      rw [this]
      rintro rfl
      exact ((look_none_iff _ _).1 h) ha⟩
  else ⟨setAt k v m.entries, by rw [setAt_keys]; exact m.nodup⟩

variable [RSemigroup V]

/-- One step of `HashMap::combine`/`BTreeMap::combine` (`semigroup.rs` 310-313, 356-359):
`entry(k).and_modify(|e| *e = e.combine(v)).or_insert(v)`. -/
def entryStep (m : AMap K V) (e : K × V) : AMap K V :=
  match m.get e.1 with
  | some old => m.insert e.1 (combine old e.2)
  | none => m.insert e.1 e.2

/-- One step of `combine_owned` (`semigroup.rs` 322-330, 368-376): `match result.get_mut(&k)`. -/
def ownedStep (m : AMap K V) (e : K × V) : AMap K V :=
  match m.get e.1 with
  | some existing => m.insert e.1 (combineOwned existing e.2)
  | none => m.insert e.1 e.2

/-- `combine` (`semigroup.rs` 307-316, 353-362), visiting the entries of the other map in `order`. -/
def combineIn (m : AMap K V) (order : List (K × V)) : AMap K V := order.foldl entryStep m

/-- `combine_owned` (`semigroup.rs` 319-333, 365-379), visiting the other map in `order`. -/
def combineOwnedIn (m : AMap K V) (order : List (K × V)) : AMap K V := order.foldl ownedStep m

end AMap

/-- A set as a duplicate-free list. -/
structure ASet (T : Type) where
  elems : List T
  nodup : elems.Nodup

namespace ASet
variable {T : Type} [DecidableEq T]

/-- `contains`. -/
def contains (s : ASet T) (t : T) : Prop := t ∈ s.elems

/-- `insert(t)`. -/
def insert (s : ASet T) (t : T) : ASet T :=
  if h : t ∈ s.elems then s
  else ⟨s.elems ++ [t], by
    rw [List.nodup_append]
    refine ⟨s.nodup, by simp, ?_⟩
    intro a ha b hb
    have : b = t := by simpa using hb
    rw [this]
    rintro rfl
    exact h ha⟩

/-- `HashSet::combine` / `BTreeSet::combine` (`semigroup.rs` 338-342, 384-388): clone and `extend` by the
other set's elements, visited in `order`. -/
def combineIn (s : ASet T) (order : List T) : ASet T := order.foldl insert s

/-- `combine_owned` (`semigroup.rs` 344-348, 391-395): the same on the owned set. -/
def combineOwnedIn (s : ASet T) (order : List T) : ASet T := order.foldl insert s

end ASet

end Rustica
