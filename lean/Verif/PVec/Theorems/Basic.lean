import Verif.PVec.Api

/-!
# C01–C03: construction, update, growing at either end

The specification is the plain list: `v.Shows xs` says that everything the API can
observe about the contents of `v` (`len`, `get`, iteration) is that of `xs`.
-/

namespace Rustica.PVec
namespace PV

variable {α : Type}

/-- A vector with elements in all three regions (prefix buffer, tree, suffix buffer). -/
def sample : PV Nat := (((PV.fromIter (List.range 200)).pushFront 1000).pushFront 1001).pushBack 7

theorem sample_sound : Sound sample :=
  .pushBack _ (.pushFront _ (.pushFront _ (.tame (.fromIter _))))

/-- Specification: `v` is observed, through `len()`, `is_empty()`, `get(i)` at every index
and iteration, as the sequence `xs`. -/
structure Shows (v : PV α) (xs : List α) : Prop where
  len : v.len = xs.length
  isEmpty : v.isEmpty = xs.isEmpty
  get : ∀ i, v.get i = xs[i]?
  toVec : v.toVec = xs

theorem shows_of_wf {v : PV α} (h : v.WF) : v.Shows v.abs :=
  { len := h.length.symm
    isEmpty := by
      unfold PV.isEmpty
      rw [← h.length]
      cases v.abs <;> simp
    get := get_eq h
    toVec := toVec_eq h }

theorem Shows.unique {v : PV α} {xs ys : List α} (h1 : v.Shows xs) (h2 : v.Shows ys) : xs = ys := by
  rw [← h1.toVec, h2.toVec]

/-- Specification: the vector is undamaged, i.e. every recorded length (its own, the tree's and
the size tables') is the number of elements actually stored.  `Sound` vectors are intact, and
`Theorems/Intact.lean` says for each operation exactly when its result is. -/
structure _root_.Rustica.PVec.Intact (v : PV α) : Prop where
  wf : v.WF

theorem _root_.Rustica.PVec.Sound.intact {v : PV α} (h : Sound v) : Intact v := ⟨h.wf⟩

theorem _root_.Rustica.PVec.Intact.tame {v : PV α} (h : Tame v) : Intact v := ⟨h.stack.wf⟩
theorem _root_.Rustica.PVec.Intact.pushBack {v : PV α} (x : α) (h : Intact v) :
    Intact (v.pushBack x) := ⟨(pushBack_spec h.wf x).1⟩
theorem _root_.Rustica.PVec.Intact.pushFront {v : PV α} (x : α) (h : Intact v) :
    Intact (v.pushFront x) := ⟨(pushFront_spec h.wf x).1⟩
theorem _root_.Rustica.PVec.Intact.extend {v : PV α} (xs : List α) (h : Intact v) :
    Intact (v.extend xs) := ⟨(extend_spec h.wf xs).1⟩
theorem _root_.Rustica.PVec.Intact.update {v : PV α} (i : Nat) (x : α) (h : Intact v) :
    Intact (v.update i x) := ⟨(update_spec h.wf i x).1⟩
theorem _root_.Rustica.PVec.Intact.concat {v w : PV α} (h : Intact v) (h' : Intact w) :
    Intact (v.concat w) := ⟨(concat_spec h.wf h'.wf).1⟩

/-- An intact vector always shows some sequence, namely its own `to_vec()`. -/
theorem _root_.Rustica.PVec.Intact.shows {v : PV α} (h : Intact v) : v.Shows v.toVec := by
  rw [toVec_eq h.wf]; exact shows_of_wf h.wf

/-- A `Sound` vector always shows some sequence, namely its own `to_vec()`. -/
theorem _root_.Rustica.PVec.Sound.shows {v : PV α} (h : Sound v) : v.Shows v.toVec := by
  rw [toVec_eq h.wf]; exact shows_of_wf h.wf

/-! ## C01 -/

/-- C01: collecting a sequence into a vector loses nothing. -/
theorem c01_from_iter (xs : List α) : (PV.fromIter xs).Shows xs := by
  obtain ⟨h1, h2, _⟩ := fromIter_spec xs
  have := shows_of_wf h1
  rwa [h2] at this

/-- C01: a round trip `Vec → PersistentVector → Vec` is the identity. -/
theorem c01_round_trip (xs : List α) : (PV.fromIter xs).toVec = xs := (c01_from_iter xs).toVec

/-- C01: `from_slice`, `From<Vec>` and `pvec!` make the same vector as `from_iter`, and so show the sequence. -/
theorem c01_constructors (xs : List α) :
    PV.fromSlice xs = PV.fromIter xs ∧ PV.fromVec xs = PV.fromIter xs ∧ PV.pvecMacro xs = PV.fromIter xs ∧
    (PV.fromSlice xs).Shows xs ∧ (PV.fromVec xs).Shows xs ∧ (PV.pvecMacro xs).Shows xs := by
  have h : PV.pvecMacro xs = PV.fromIter xs := by cases xs <;> rfl
  exact ⟨rfl, rfl, h, c01_from_iter xs, c01_from_iter xs, h ▸ c01_from_iter xs⟩

/-- C01: `new()` and `unit(x)` show the empty and the one-element sequence. -/
theorem c01_new_unit (x : α) : (PV.new : PV α).Shows [] ∧ (PV.unit x).Shows [x] := by
  have h1 := shows_of_wf (wf_new (α := α))
  have h2 := shows_of_wf (wf_unit x)
  rw [abs_new] at h1
  rw [abs_unit] at h2
  exact ⟨h1, h2⟩

/-- C01: `first`, `last`, `try_get`, `[]` are the first, the last and the `i`-th element. -/
theorem c01_accessors {v : PV α} (h : Intact v) (i : Nat) :
    v.first = v.toVec.head? ∧ v.last = v.toVec.getLast? ∧
    v.index i = v.toVec[i]? ∧
    v.tryGet i = (match v.toVec[i]? with
      | some x => .ok x
      | none => .error (.indexOutOfBounds i v.toVec.length)) := by
  have s := h.shows
  refine ⟨?_, ?_, ?_, ?_⟩
  · simp only [first, s.get]; cases v.toVec <;> simp
  · unfold last
    rw [s.get, s.len, List.getLast?_eq_getElem?]
    split
    · rfl
    · rename_i h0
      rw [List.getElem?_eq_none (by omega)]
  · exact s.get i
  · simp only [tryGet, s.get, s.len]; cases v.toVec[i]? <;> rfl

example : sample.first = some 1001 ∧ sample.last = some 7 ∧ sample.index 100 = some 98 := by
  obtain ⟨h1, h2, h3, _⟩ := c01_accessors sample_sound.intact 100
  rw [h1, h2, h3]
  decide +kernel

/-! ## C02 -/

/-- C02: `update(i, x)` sets position `i`, leaves every other position, and leaves the length
unchanged; out of range it changes nothing. -/
theorem c02_update_partial {v : PV α} (h : Intact v) (i : Nat) (x : α) :
    (v.update i x).len = v.len ∧
    (∀ j, (v.update i x).get j = if j = i ∧ i < v.len then some x else v.get j) := by
  obtain ⟨h1, h2, h3⟩ := update_spec h.wf i x
  refine ⟨h3, fun j => ?_⟩
  rw [get_eq h1, get_eq h.wf, h2, List.getElem?_set, h.wf.length]
  by_cases hj : i = j
  · subst hj
    by_cases hi : i < v.len
    · simp [hi]
    · simp only [if_true, hi, if_false, and_false]
      rw [List.getElem?_eq_none (by rw [h.wf.length]; omega)]
  · have : ¬ j = i := fun e => hj e.symm
    simp [hj, this]

/-- C02: the same as a statement about the whole sequence. -/
theorem c02_update_contents_partial {v : PV α} (h : Intact v) (i : Nat) (x : α) :
    (v.update i x).Shows (v.toVec.set i x) := by
  obtain ⟨h1, h2, _⟩ := update_spec h.wf i x
  have := shows_of_wf h1
  rwa [h2, ← toVec_eq h.wf] at this

example : (sample.update 100 5).Shows (sample.toVec.set 100 5) := c02_update_contents_partial sample_sound.intact 100 5

/-- C02: `try_update` fails exactly out of range, with the index and the length. -/
theorem c02_try_update_partial {v : PV α} (h : Intact v) (i : Nat) (x : α) :
    (v.toVec.length ≤ i → v.tryUpdate i x = .error (.indexOutOfBounds i v.toVec.length)) ∧
    (i < v.toVec.length → ∃ w, v.tryUpdate i x = .ok w ∧ w.Shows (v.toVec.set i x)) := by
  have s := h.shows
  rw [← s.len]
  unfold tryUpdate
  refine ⟨fun hi => by simp [hi], fun hi => ⟨_, by simp [Nat.not_le.2 hi], c02_update_contents_partial h i x⟩⟩

example : ∃ w, sample.tryUpdate 202 5 = .ok w ∧ w.Shows (sample.toVec.set 202 5) :=
  (c02_try_update_partial sample_sound.intact 202 5).2 (by decide +kernel)

/-! ## C03 -/

/-- C03: `push_back` appends one element. -/
theorem c03_push_back_partial {v : PV α} (h : Intact v) (x : α) :
    (v.pushBack x).Shows (v.toVec ++ [x]) := by
  obtain ⟨h1, h2⟩ := pushBack_spec h.wf x
  have := shows_of_wf h1
  rwa [h2, ← toVec_eq h.wf] at this

example : (sample.pushBack 9).Shows (sample.toVec ++ [9]) := c03_push_back_partial sample_sound.intact 9

/-- C03: `push_front` prepends one element. -/
theorem c03_push_front_partial {v : PV α} (h : Intact v) (x : α) :
    (v.pushFront x).Shows (x :: v.toVec) := by
  obtain ⟨h1, h2⟩ := pushFront_spec h.wf x
  have := shows_of_wf h1
  rwa [h2, ← toVec_eq h.wf] at this

/-- C03: `extend` appends a whole sequence, in order. -/
theorem c03_extend_partial {v : PV α} (h : Intact v) (xs : List α) :
    (v.extend xs).Shows (v.toVec ++ xs) := by
  obtain ⟨h1, h2⟩ := extend_spec h.wf xs
  have := shows_of_wf h1
  rwa [h2, ← toVec_eq h.wf] at this

example : (sample.extend (List.range 500)).Shows (sample.toVec ++ List.range 500) :=
  c03_extend_partial sample_sound.intact _

/-- C03, repeated: pushing the elements of `xs` one after the other at the front reverses
them. -/
theorem c03_push_front_many_partial {v : PV α} (h : Intact v) (xs : List α) :
    (xs.foldl pushFront v).Shows (xs.reverse ++ v.toVec) := by
  induction xs generalizing v with
  | nil => exact h.shows
  | cons x xs ih =>
    have := ih (h.pushFront x)
    rw [(c03_push_front_partial h x).toVec] at this
    simpa using this

example : ((List.range 500).foldl pushFront sample).Shows ((List.range 500).reverse ++ sample.toVec) :=
  c03_push_front_many_partial sample_sound.intact _

/-! ## Cases that meet the hypotheses -/

example : sample.isTree = true ∧ sample.len = 203 ∧ sample.get 0 = some 1001 ∧
    sample.get 100 = some 98 ∧ sample.get 202 = some 7 ∧ sample.get 203 = none := by
  decide +kernel

example : (sample.update 100 5).get 100 = some 5 ∧ (sample.update 100 5).get 99 = some 97 := by
  decide +kernel

example : (sample.update 203 5).len = sample.len := (c02_update_partial sample_sound.intact 203 5).1

example : (sample.pushFront 9).Shows (9 :: sample.toVec) := c03_push_front_partial sample_sound.intact 9

end PV
end Rustica.PVec
