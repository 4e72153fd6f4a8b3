import Verif.PVec.Theorems.Pop
import Verif.PVec.SplitHeight

/-!
# C08, C09: `split_at`, `take`, `skip`, `insert`, `remove`
-/

namespace Rustica.PVec
namespace PV

variable {α : Type}

/-- The full claim of C08 for one vector and one cut. -/
def SplitCorrect (v : PV α) (n : Nat) : Prop :=
  (v.splitAt n).1.Shows (v.toVec.take n) ∧ (v.splitAt n).2.Shows (v.toVec.drop n) ∧
  (v.take n).Shows (v.toVec.take n) ∧ (v.skip n).Shows (v.toVec.drop n)

/-- The full claim of C08 fails: concatenate two collected 65-element vectors and cut the
result at 70. -/
theorem c08_split_false : ¬ ∀ (v : PV Nat) (n : Nat), Reach v → SplitCorrect v n := by
  obtain ⟨v, hr, e⟩ : ∃ v : PV Nat, Reach v ∧ (v.splitAt 70).1.toVec ≠ v.toVec.take 70 :=
    ⟨_, .concat (.fromIter (List.range 65)) (.fromIter (List.range 65)), by decide +kernel⟩
  intro h
  exact e (h v 70 hr).1.toVec

/-- In that case data is lost: the vector has 130 elements, but the two parts produced by the
cut hold fewer than that between them. -/
example :
    ((PV.fromIter (List.range 65)).concat (PV.fromIter (List.range 65))).toVec.length = 130 ∧
    ((((PV.fromIter (List.range 65)).concat (PV.fromIter (List.range 65))).splitAt 70).1.toVec.length +
     (((PV.fromIter (List.range 65)).concat (PV.fromIter (List.range 65))).splitAt 70).2.toVec.length)
      < 130 := by decide +kernel

/-- C08 for every vector that has not been through `push_front`, `concat` or `pop_front` (or was
rebuilt since): cuts are exact, and the parts are again such vectors. -/
theorem c08_split_partial {v : PV α} (h : Tame v) (n : Nat) :
    SplitCorrect v n ∧ Tame (v.splitAt n).1 ∧ Tame (v.splitAt n).2 ∧ Tame (v.take n) ∧
      Tame (v.skip n) := by
  have hs := h.stack
  obtain ⟨s1, s2, l1, l2⟩ := hs.splitAt n
  obtain ⟨s3, l3⟩ := hs.take n
  obtain ⟨s4, l4⟩ := hs.skip n
  refine ⟨⟨?_, ?_, ?_, ?_⟩, .splitLeft n h, .splitRight n h, .take n h, .skip n h⟩
  · rw [toVec_eq hs.wf, ← l1]; exact shows_of_wf s1.wf
  · rw [toVec_eq hs.wf, ← l2]; exact shows_of_wf s2.wf
  · rw [toVec_eq hs.wf, ← l3]; exact shows_of_wf s3.wf
  · rw [toVec_eq hs.wf, ← l4]; exact shows_of_wf s4.wf

example : SplitCorrect ((PV.fromIter (List.range 300)).extend (List.range 100)) 333 :=
  (c08_split_partial (.extend _ (.fromIter _)) 333).1

/-- C08 for every vector of the larger class, when the cut does not fall inside the tree part
or the recorded height is not smaller than the real depth. -/
theorem c08_split_sound_partial {v : PV α} (h : Intact v) (n : Nat)
    (hc : ∀ t, v.inner = .tree t → t.root.depth ≤ t.height ∨ n ≤ t.head.length ∨
      t.head.length + t.root.flat.length ≤ n) :
    (v.splitAt n).1.Shows (v.toVec.take n) ∧ (v.splitAt n).2.Shows (v.toVec.drop n) := by
  have hwf := h.wf
  have hlen := hwf.length
  rw [toVec_eq hwf]
  unfold splitAt
  split
  · rw [List.take_of_length_le (by omega), List.drop_of_length_le (by omega)]
    refine ⟨shows_of_wf hwf, ?_⟩
    simpa using shows_of_wf (wf_new (α := α))
  · rename_i hlt
    split
    · rename_i h0; subst h0
      refine ⟨?_, by simpa using shows_of_wf hwf⟩
      simpa using shows_of_wf (wf_new (α := α))
    · have hw := hwf
      unfold WF at hw
      cases hin : v.inner with
      | inline es =>
        rw [hin] at hw
        simp only [abs, hin]
        have w1 : (⟨.inline (es.take n), n, v.generation + 1⟩ : PV α).WF :=
          ⟨by simp only [List.length_take]; omega, by simp only [List.length_take]; omega⟩
        have w2 : (⟨.inline (es.drop n), v.len - n, v.generation + 1⟩ : PV α).WF :=
          ⟨by simp only [List.length_drop]; omega, by simp only [List.length_drop]; omega⟩
        exact ⟨shows_of_wf w1, shows_of_wf w2⟩
      | tree t =>
        rw [hin] at hw
        obtain ⟨s1, s2, l1, l2⟩ := Tree.splitAt_ok hw.1 n (hc t hin)
        have hl := hw.1.length
        simp only [abs, hin, ← l1, ← l2]
        have e1 := congrArg List.length l1
        have e2 := congrArg List.length l2
        rw [s1.length, List.length_take, hl] at e1
        rw [s2.length, List.length_drop, hl] at e2
        have w1 : (⟨.tree (t.splitAt n).1, n, v.generation + 1⟩ : PV α).WF :=
          ⟨s1, by simp only [e1]; omega⟩
        have w2 : (⟨.tree (t.splitAt n).2, v.len - n, v.generation + 1⟩ : PV α).WF :=
          ⟨s2, by simp only [e2]; omega⟩
        exact ⟨shows_of_wf w1, shows_of_wf w2⟩

/-- `sample`, cut in its front buffer. -/
example : (sample.splitAt 2).2.Shows (sample.toVec.drop 2) :=
  (c08_split_sound_partial sample_sound.intact 2 fun _ ht => .inr (.inl (by
    have : ∀ t, sample.inner = .tree t → 2 = t.head.length := fun t ht => by
      have e : (match sample.inner with | .tree t => t.head.length | .inline _ => 0) = 2 := by decide +kernel
      rw [ht] at e; exact e.symm
    exact Nat.le_of_eq (this _ ht)))).2

/-- C08: nothing is lost or duplicated, the two halves concatenated are the input. -/
theorem c08_halves_partial {v : PV α} (h : Tame v) (n : Nat) :
    (v.splitAt n).1.toVec ++ (v.splitAt n).2.toVec = v.toVec := by
  have := (c08_split_partial h n).1
  rw [this.1.toVec, this.2.1.toVec, List.take_append_drop]

example : Tame ((PV.fromIter (List.range 300)).extend (List.range 100)) := .extend _ (.fromIter _)
example : ((((PV.fromIter (List.range 300)).extend (List.range 100)).splitAt 333).2.toVec).length = 67 := by
  decide +kernel

/-! ## C09 -/

/-- The full claim of C09 for `insert`. -/
def InsertCorrect (v : PV α) (i : Nat) (x : α) : Prop :=
  (v.insert i x).Shows (v.toVec.take i ++ x :: v.toVec.drop i)

/-- The full claim of C09 for `remove`. -/
def RemoveCorrect (v : PV α) (i : Nat) : Prop :=
  match v.remove i with
  | none => v.toVec.length ≤ i
  | some w => i < v.toVec.length ∧ w.Shows (v.toVec.eraseIdx i)

/-- The full claim of C09 fails for `insert`: two inserts in a row into a collected 66-element
vector. -/
theorem c09_insert_false :
    ¬ ∀ (v : PV Nat) (i x : Nat), Reach v → InsertCorrect v i x := by
  obtain ⟨v, hr, e⟩ : ∃ v : PV Nat, Reach v ∧
      (v.insert 1 1000).toVec ≠ v.toVec.take 1 ++ 1000 :: v.toVec.drop 1 :=
    ⟨_, .insert 1 2000 (.fromIter (List.range 66)), by decide +kernel⟩
  intro h
  exact e (h v 1 1000 hr).toVec

/-- The full claim of C09 fails for `remove`: position 65 and then position 0 of a collected
68-element vector. -/
theorem c09_remove_false : ¬ ∀ (v : PV Nat) (i : Nat), Reach v → RemoveCorrect v i := by
  obtain ⟨v, hv⟩ : ∃ v : PV Nat, (PV.fromIter (List.range 68)).remove 65 = some v := ⟨_, rfl⟩
  have hr : Reach v := .remove 65 (.fromIter _) hv
  have e : (((PV.fromIter (List.range 68)).remove 65).bind fun v => v.remove 0).map PV.toVec ≠
      ((PV.fromIter (List.range 68)).remove 65).map fun v => v.toVec.eraseIdx 0 := by
    decide +kernel
  have e2 : (((PV.fromIter (List.range 68)).remove 65).bind fun v => v.remove 0).isSome = true := by
    decide +kernel
  rw [hv] at e e2
  simp only [Option.bind_some, Option.map_some] at e e2
  intro h
  have hc := h v 0 hr
  unfold RemoveCorrect at hc
  cases hq : v.remove 0 with
  | none => rw [hq] at e2; simp at e2
  | some w =>
    rw [hq] at hc e
    exact e (by rw [Option.map_some, hc.2.toVec])

/-- C09 for every vector that has not been through `push_front`, `concat`, `insert`, `remove` or
`pop_front` (or was rebuilt since): `insert` is exact at every position, and so is `remove`.
The results still are vectors on which all growing and reading operations are exact. -/
theorem c09_insert_partial {v : PV α} (h : Tame v) (i : Nat) (x : α) :
    InsertCorrect v i x ∧ Sound (v.insert i x) := by
  obtain ⟨h1, h2⟩ := h.stack.insert_eq i x
  refine ⟨?_, ?_⟩
  · unfold InsertCorrect
    rw [toVec_eq h.stack.wf, ← h2]
    exact shows_of_wf h1
  · unfold PV.insert
    split
    · exact .pushBack x (.tame h)
    · split
      · exact .pushFront x (.tame h)
      · exact .concat (.tame (.pushBack x (.splitLeft i h))) (.tame (.splitRight i h))

example : InsertCorrect (PV.fromIter (List.range 300)) 150 1000 := (c09_insert_partial (.fromIter _) 150 1000).1

theorem c09_remove_partial {v : PV α} (h : Tame v) (i : Nat) :
    RemoveCorrect v i ∧ ∀ w, v.remove i = some w → Sound w := by
  have hlen := h.stack.wf.length
  refine ⟨?_, ?_⟩
  · unfold RemoveCorrect
    rw [toVec_eq h.stack.wf, hlen]
    by_cases hi : i < v.len
    · obtain ⟨w, h1, h2, h3⟩ := h.stack.remove_eq i hi
      rw [h1]
      exact ⟨hi, by rw [← h3]; exact shows_of_wf h2⟩
    · have : v.remove i = none := by simp [PV.remove, Nat.le_of_not_lt hi]
      rw [this]; exact Nat.le_of_not_lt hi
  · intro w hw
    unfold PV.remove at hw
    split at hw
    · cases hw
    · split at hw
      · cases hw; exact .tame .new
      · simp only [Option.some.injEq] at hw
        subst hw
        exact .concat (.tame (.splitLeft i h)) (.tame (.skip 1 (.splitRight i h)))

example : ∀ v : PV Nat, v = PV.fromIter (List.range 300) → RemoveCorrect v 150 :=
  fun _ e => (c09_remove_partial (e ▸ .fromIter _) 150).1

/-- C09, the ends, for every vector of the larger class: inserting at or past the end appends,
inserting at 0 prepends, and removing past the end is `None`. -/
theorem c09_ends_partial {v : PV α} (h : Intact v) (i : Nat) (x : α) :
    (v.toVec.length ≤ i → InsertCorrect v i x) ∧ InsertCorrect v 0 x ∧
    (v.toVec.length ≤ i → v.remove i = none) := by
  have hs := h.shows
  refine ⟨?_, ?_, ?_⟩
  · intro hi
    unfold InsertCorrect PV.insert
    rw [if_pos (by rw [hs.len]; exact hi), List.take_of_length_le hi, List.drop_of_length_le hi]
    exact c03_push_back_partial h x
  · unfold InsertCorrect PV.insert
    by_cases h0 : (0 : Nat) ≥ v.len
    · rw [if_pos h0]
      have : v.toVec = [] := List.length_eq_zero_iff.1 (by rw [← hs.len]; omega)
      have := c03_push_back_partial h x
      simpa [‹v.toVec = []›] using this
    · rw [if_neg h0, if_pos rfl]
      simpa using c03_push_front_partial h x
  · intro hi
    simp [PV.remove, hs.len, hi]

example : ((PV.fromIter (List.range 300)).insert 150 1000).get 150 = some 1000 ∧
    ((PV.fromIter (List.range 300)).insert 150 1000).get 151 = some 150 := by decide +kernel
example : ((PV.fromIter (List.range 300)).remove 150).map (fun w => (w.get 149, w.get 150, w.len)) =
    some (some 149, some 151, 299) := by decide +kernel
example : Tame (PV.fromIter (List.range 300)) := .fromIter _

end PV
end Rustica.PVec
