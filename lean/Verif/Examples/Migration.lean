import Verif.Data.Access

/-!
# The replacements that the documentation gives for the deprecated methods

`MIGRATION_v0.11.0.md` and `examples/choice_migration_v0_11_0.rs` name, for each deprecated method of `Choice`, the
code to write in its place.  The definitions below are that code, with the constants of the examples (`x % 2`,
`x > 1`, index 2, …) as arguments.

Simplifications: an iterator is the list of what it yields; a `HashSet` is the list of what was inserted; a `HashMap`
is an association list of which only `find?` by key is meant; a `Choice` collected from an iterator is `ofMany`.
-/

namespace Rustica.Migration
variable {T U K I : Type}

/-- `let mut seen = HashSet::new(); xs.filter(|x| seen.insert(key(x)))` (`MIGRATION` 680-696, example 102-121):
`insert` returns whether the key was absent.  The state of the filter is what was seen and what was let through. -/
def filterSeen [DecidableEq K] (key : T → K) (xs : List T) : List K × List T :=
  xs.foldl (fun st x => if key x ∈ st.1 then st else (st.1 ++ [key x], st.2 ++ [x])) ([], [])
/-- The replacement of `dedup` and `dedup_by_key` (`MIGRATION` 680-696, example 102-121). -/
def unique [DecidableEq K] (c : Choice T) (key : T → K) : Choice T := Choice.ofMany (filterSeen key c.toVec).2
/-- `acc.entry(k).or_insert(x)`. -/
def orInsert [DecidableEq K] (map : List (K × T)) (k : K) (x : T) : List (K × T) :=
  match map.find? (fun p => p.1 = k) with
  | some _ => map
  | none => map ++ [(k, x)]
/-- The replacement of `to_map_with_key` (`MIGRATION` 700-705, example 135-139). -/
def mapKeepFirst [DecidableEq K] (c : Choice T) (key : T → K) : List (K × T) :=
  c.toVec.foldl (fun acc x => orInsert acc (key x) x) []
/-- `HashMap::insert`: overwrites. -/
def insert [DecidableEq K] (map : List (K × T)) (k : K) (x : T) : List (K × T) :=
  map.filter (fun p => p.1 ≠ k) ++ [(k, x)]
/-- The replacement of `to_map_with_key` in its deprecation note (`choice.rs` 507) and in `MIGRATION` 947:
`choice.iter().map(|x| (key(x), x.clone())).collect()`; collecting inserts one pair after the other. -/
def mapCollect [DecidableEq K] (c : Choice T) (key : T → K) : List (K × T) :=
  (c.toVec.map fun x => (key x, x)).foldl (fun map p => insert map p.1 p.2) []
/-- The replacement of `remove_alternative` by value (`MIGRATION` 730, 820; example 166, 291). -/
def removeValue [DecidableEq T] (c : Choice T) (x : T) : Choice T := c.filterValues fun y => y ≠ x
/-- The replacement of `remove_alternative` by position (`MIGRATION` 733-737, example 170-176): `j` counts the
primary value. -/
def removeIndex (c : Choice T) (j : Nat) : Choice T :=
  Choice.ofMany ((c.toVec.zipIdx.filter fun p => p.2 ≠ j).map (·.1))
/-- The replacement of `swap_with_alternative` (`MIGRATION` 739-741, 821; example 186-188, 297): a new `Choice` with
the alternative `i` in front, then the old primary value, then the other alternatives.  `none` when there is no such
alternative. -/
def promote (c : Choice T) (i : Nat) : Option (Choice T) :=
  match c.first, c.alternatives[i]? with
  | some primary, some x => some (Choice.new x (primary :: c.alternatives.eraseIdx i))
  | _, _ => none
/-- The replacement of `fmap_alternatives` (`MIGRATION` 769, example 217). -/
def fmapWhere (c : Choice T) (p : T → Bool) (f : T → T) : Choice T :=
  RFunctor.fmap (fun x => if p x then f x else x) c
/-- The replacement of `flatten_sorted` (`MIGRATION` 598-601, 771-777; example 225-232). -/
def flattenThenSort (c : Choice (List I)) (le : I → I → Bool) : Except String (Choice I) :=
  match c.flatten with
  | .ok flattened => .ok (Choice.ofMany (flattened.toVec.mergeSort le))
  | .error panic => .error panic
/-- The replacement of `bind_lazy` (`MIGRATION` 781-784, example 244-247), drained. -/
def flatMapIter (c : Choice T) (f : T → Choice U) : List U := c.toVec.flatMap fun x => (f x).toVec

end Rustica.Migration
