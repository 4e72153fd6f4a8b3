import Verif.PVec.Theorems.Iter

/-!
# C13, C14: operations that rebuild the vector; functor and monoid laws
-/

namespace Rustica.PVec
namespace PV

variable {α β γ : Type}

theorem fromIter_items (v : PV α) (g : List α → List β) :
    (PV.fromIter (g v.items)).Shows (g v.toVec) := by
  rw [toVec]
  exact c01_from_iter _

/-- C13: `map`. -/
theorem c13_map (v : PV α) (f : α → β) : (v.map f).Shows (v.toVec.map f) :=
  fromIter_items v (·.map f)

/-- C13: `filter`. -/
theorem c13_filter (v : PV α) (p : α → Bool) :
    (v.filter p).Shows (v.toVec.filter p) := fromIter_items v (·.filter p)

/-- C13: `filter_map`. -/
theorem c13_filter_map (v : PV α) (f : α → Option β) :
    (v.filterMap f).Shows (v.toVec.filterMap f) := fromIter_items v (·.filterMap f)

/-- C13: `flat_map`. -/
theorem c13_flat_map (v : PV α) (f : α → List β) :
    (v.flatMap f).Shows (v.toVec.flatMap f) := fromIter_items v (·.flatMap f)

/-- C13: `zip` pairs up positions and stops at the shorter vector. -/
theorem c13_zip (v : PV α) (w : PV β) :
    (v.zip w).Shows (v.toVec.zip w.toVec) := c01_from_iter _

theorem partitionLoop_eq (p : α → Bool) : ∀ (xs ts fs : List α),
    partitionLoop p xs ts fs = (ts ++ xs.filter p, fs ++ xs.filter (fun x => !p x)) := by
  intro xs
  induction xs with
  | nil => simp [partitionLoop]
  | cons x xs ih =>
    intro ts fs
    simp only [partitionLoop]
    by_cases h : p x = true <;> simp [h, ih]

/-- C13: `partition` returns the satisfying and the non-satisfying elements, in order. -/
theorem c13_partition (v : PV α) (p : α → Bool) :
    (v.partition p).1.Shows (v.toVec.filter p) ∧
    (v.partition p).2.Shows (v.toVec.filter (fun x => !p x)) := by
  simp only [partition, partitionLoop_eq, List.nil_append]
  exact ⟨c01_from_iter _, c01_from_iter _⟩

/-- No two neighbouring elements are equal. -/
def NoAdjEq : List α → Prop
  | [] => True
  | [_] => True
  | a :: b :: rest => a ≠ b ∧ NoAdjEq (b :: rest)

theorem NoAdjEq.tail {a : α} {xs : List α} (h : NoAdjEq (a :: xs)) : NoAdjEq xs := by
  cases xs with
  | nil => trivial
  | cons b xs => exact h.2

/-- Specification of removing consecutive repetitions: `ys` has no two equal neighbours, and
`xs` is `ys` with every element repeated one or more times. -/
def IsDedup (xs ys : List α) : Prop :=
  NoAdjEq ys ∧
  ∃ ns : List Nat, ns.length = ys.length ∧
    xs = (List.zipWith (fun n y => List.replicate (n + 1) y) ns ys).flatten

theorem dedupLoop_spec [DecidableEq α] : ∀ (xs : List α) (a : α),
    NoAdjEq (a :: dedupLoop xs (some a)) ∧
    ∃ n ns, ns.length = (dedupLoop xs (some a)).length ∧
      xs = List.replicate n a ++
        (List.zipWith (fun n y => List.replicate (n + 1) y) ns (dedupLoop xs (some a))).flatten := by
  intro xs
  induction xs with
  | nil => intro a; exact ⟨trivial, 0, [], by simp [dedupLoop]⟩
  | cons x xs ih =>
    intro a
    by_cases h : a = x
    · subst h
      obtain ⟨h1, n, ns, h2, h3⟩ := ih a
      simp only [dedupLoop, ne_eq, not_true, if_false]
      refine ⟨h1, n + 1, ns, h2, ?_⟩
      exact congrArg (a :: ·) h3
    · obtain ⟨h1, n, ns, h2, h3⟩ := ih x
      have hne : (some a : Option α) ≠ some x := by simpa using h
      simp only [dedupLoop, hne, ne_eq, not_false_eq_true, if_true]
      refine ⟨⟨h, h1⟩, 0, n :: ns, by simp [h2], ?_⟩
      exact congrArg (x :: ·) h3

theorem isDedup_loop [DecidableEq α] (xs : List α) : IsDedup xs (dedupLoop xs none) := by
  cases xs with
  | nil => exact ⟨trivial, [], by simp [dedupLoop]⟩
  | cons x xs =>
    obtain ⟨h1, n, ns, h2, h3⟩ := dedupLoop_spec xs x
    simp only [dedupLoop, ne_eq, reduceCtorEq, not_false_eq_true, if_true]
    exact ⟨h1, n :: ns, by simp [h2], congrArg (x :: ·) h3⟩

/-- C13: `dedup` removes exactly the consecutive repetitions. -/
theorem c13_dedup [DecidableEq α] (v : PV α) :
    ∃ ys, v.dedup.Shows ys ∧ IsDedup v.toVec ys :=
  ⟨_, c01_from_iter _, isDedup_loop _⟩

theorem replicate_append_inj {a b : α} {n m : Nat} {xs ys : List α}
    (h : List.replicate (n + 1) a ++ xs = List.replicate (m + 1) b ++ ys)
    (hx : xs.head? ≠ some a) (hy : ys.head? ≠ some b) : a = b ∧ n = m ∧ xs = ys := by
  have hab : a = b := by
    have := congrArg List.head? h
    simpa [List.replicate_succ] using this
  subst hab
  induction n generalizing m with
  | zero =>
    cases m with
    | zero => simpa using h
    | succ m =>
      simp [List.replicate_succ] at h
      rw [h] at hx; simp at hx
  | succ n ih =>
    cases m with
    | zero =>
      simp [List.replicate_succ] at h
      rw [← h] at hy; simp at hy
    | succ m =>
      have := ih (m := m) (by
        rw [List.replicate_succ, List.replicate_succ (n := m + 1)] at h
        simpa using h)
      exact ⟨rfl, by omega, this.2.2⟩

/-- The specification of `dedup` determines the result. -/
theorem IsDedup.unique {xs ys zs : List α} (h1 : IsDedup xs ys) (h2 : IsDedup xs zs) : ys = zs := by
  obtain ⟨c1, ns, l1, e1⟩ := h1
  obtain ⟨c2, ms, l2, e2⟩ := h2
  have headOf : ∀ (ks : List Nat) (us : List α), ks.length = us.length →
      (List.zipWith (fun n y => List.replicate (n + 1) y) ks us).flatten.head? = us.head? := by
    intro ks us hl
    cases us with
    | nil => cases ks <;> simp at hl ⊢
    | cons u us =>
      cases ks with
      | nil => simp at hl
      | cons k ks => simp [List.replicate_succ]
  induction ys generalizing xs ns zs ms with
  | nil =>
    cases zs with
    | nil => rfl
    | cons z zs =>
      cases ms with
      | nil => simp at l2
      | cons m ms => subst e1; simp [List.replicate_succ] at e2
  | cons y ys ih =>
    cases ns with
    | nil => simp at l1
    | cons n ns =>
      cases zs with
      | nil => subst e2; simp [List.replicate_succ] at e1
      | cons z zs =>
        cases ms with
        | nil => simp at l2
        | cons m ms =>
          rw [e1] at e2
          simp only [List.zipWith_cons_cons, List.flatten_cons] at e2
          simp only [List.length_cons, Nat.add_right_cancel_iff] at l1 l2
          have hh : ∀ {a : α} {us : List α}, NoAdjEq (a :: us) → us.head? ≠ some a := by
            intro a us hc
            cases us with
            | nil => simp
            | cons b us =>
              simpa using fun e => hc.1 e.symm
          obtain ⟨ha, _, hrest⟩ := replicate_append_inj e2
            (by rw [headOf _ _ l1]; exact hh c1) (by rw [headOf _ _ l2]; exact hh c2)
          rw [ha, ih c1.tail ns l1 rfl c2.tail ms l2 hrest]

/-- C13: `sorted` is an ordered rearrangement, and it is stable: equal elements keep their
relative order (`Vec::sort` assumed to be a stable sort). -/
theorem c13_sorted (v : PV α) (le : α → α → Bool)
    (trans : ∀ a b c, le a b → le b c → le a c) (total : ∀ a b, le a b || le b a) :
    ∃ ys, (v.sorted le).Shows ys ∧ ys.Perm v.toVec ∧ ys.Pairwise (fun a b => le a b) ∧
      ∀ a b, le a b → [a, b].Sublist v.toVec → [a, b].Sublist ys :=
  ⟨_, c01_from_iter _, List.mergeSort_perm _ _, List.pairwise_mergeSort trans total _,
    fun _ _ hab hs => List.pair_sublist_mergeSort trans total hab hs⟩

theorem chunksAux_get (n : Nat) (hn : 0 < n) : ∀ (fuel : Nat) (xs : List α) (i : Nat),
    xs.length ≤ fuel →
    (chunksAux n fuel xs)[i]? = if i * n < xs.length then some ((xs.drop (i * n)).take n) else none := by
  intro fuel
  induction fuel with
  | zero =>
    intro xs i h
    have : xs = [] := List.length_eq_zero_iff.1 (by omega)
    simp [chunksAux, this]
  | succ fuel ih =>
    intro xs i h
    simp only [chunksAux]
    by_cases he : xs.isEmpty
    · have : xs = [] := by simpa using he
      simp [this]
    · have hpos : 0 < xs.length := by
        rcases xs with _ | _ <;> simp at he ⊢
      simp only [he]
      cases i with
      | zero => simp [hpos]
      | succ i =>
        simp only [Bool.false_eq_true, if_false, List.getElem?_cons_succ]
        rw [ih _ _ (by simp; omega)]
        simp only [List.length_drop, List.drop_drop]
        have e : n + i * n = (i + 1) * n := by rw [Nat.succ_mul]; omega
        rw [e]
        have : (i * n < xs.length - n) ↔ ((i + 1) * n < xs.length) := by
          rw [Nat.succ_mul]; omega
        simp only [this]

/-- C13: `chunk(n)` with `n ≥ 1`: chunk `i` holds the elements `i*n .. i*n+n` of the input
(fewer in the last chunk), there are `⌈len/n⌉` chunks, and `chunk(0)` is empty. -/
theorem c13_chunk (v : PV α) (n : Nat) :
    (n = 0 → (v.chunk n).Shows []) ∧
    (0 < n →
      (v.chunk n).len = (v.toVec.length + n - 1) / n ∧
      ∀ i, (i * n < v.toVec.length →
              ∃ c, (v.chunk n).get i = some c ∧ c.Shows ((v.toVec.drop (i * n)).take n)) ∧
           (v.toVec.length ≤ i * n → (v.chunk n).get i = none)) := by
  refine ⟨?_, ?_⟩
  · intro h0
    simp only [chunk, h0, if_true]
    exact { len := rfl, isEmpty := rfl, get := by intro i; simp [new, get], toVec := rfl }
  · intro hn
    have hs := c01_from_iter ((chunks n v.items).map PV.fromIter)
    simp only [chunk, Nat.ne_of_gt hn, if_false]
    refine ⟨by rw [hs.len, List.length_map, chunks_length hn]; rfl, fun i => ?_⟩
    rw [hs.get, List.getElem?_map, chunks, chunksAux_get n hn _ _ _ (Nat.le_refl _)]
    refine ⟨fun hi => ?_, fun hi => ?_⟩
    · have hi' : i * n < v.items.length := hi
      simp only [hi', if_true, Option.map_some]
      exact ⟨_, rfl, c01_from_iter _⟩
    · have hi' : ¬ i * n < v.items.length := Nat.not_lt.2 hi
      simp [hi']

/-- C13: gluing the chunks together gives the input back. -/
theorem c13_chunk_flatten (v : PV α) (n : Nat) (hn : 0 < n) :
    ((v.chunk n).toVec.map PV.toVec).flatten = v.toVec := by
  simp only [chunk, Nat.ne_of_gt hn, if_false, c01_round_trip, List.map_map]
  have : (PV.toVec ∘ PV.fromIter : List α → List α) = id := by
    funext xs; exact c01_round_trip xs
  rw [this, List.map_id, chunks_flatten hn]; rfl

example : ((PV.fromIter [1, 1, 2, 2, 2, 1]).dedup).toVec = [1, 2, 1] := by decide +kernel
example : ((sample.chunk 50).get 4).map PV.toVec = some [198, 199, 7] := by decide +kernel
example : ∃ ys, (sample.sorted (fun a b => decide (a ≤ b))).Shows ys ∧ ys.Perm sample.toVec ∧
    ys.Pairwise (fun a b => decide (a ≤ b) = true) := by
  obtain ⟨ys, h1, h2, h3, _⟩ := c13_sorted sample (fun a b => decide (a ≤ b))
    (by intro a b c; simp; omega) (by intro a b; simp; omega)
  exact ⟨ys, h1, h2, h3⟩

/-! ## C14 -/

/-- C14: mapping the identity preserves the contents, `fmap` composes, and `fmap_owned`
agrees with `fmap`. -/
theorem c14_functor (v : PV α) (f : α → β) (g : β → γ) :
    (v.map id).Shows v.toVec ∧
    ((v.map f).map g).Shows ((v.map (g ∘ f)).toVec) ∧
    (v.fmapOwned f).Shows (v.map f).toVec := by
  refine ⟨?_, ?_, ?_⟩
  · simpa using c13_map v id
  · have h1 := c13_map (v.map f) g
    rw [(c13_map v f).toVec, List.map_map] at h1
    rw [(c13_map v (g ∘ f)).toVec]; exact h1
  · rw [(c13_map v f).toVec]; exact fromIter_items v (·.map f)

theorem concat_new_left {v : PV α} (h : v.WF) : ((PV.new : PV α).concat v).abs = v.abs := by
  simp [(concat_spec wf_new h).2]

theorem concat_new_right {v : PV α} (h : v.WF) : (v.concat PV.new).abs = v.abs := by
  simp [(concat_spec h wf_new).2]

/-- C14: the empty vector is a two-sided identity of `combine`, for every vector. -/
theorem c14_monoid_identity {v : PV α} (h : Intact v) :
    ((PV.new : PV α).concat v).Shows v.toVec ∧ (v.concat PV.new).Shows v.toVec := by
  have h1 := (concat_spec (wf_new (α := α)) h.wf).1
  have h2 := (concat_spec h.wf (wf_new (α := α))).1
  have e1 := shows_of_wf h1
  have e2 := shows_of_wf h2
  rw [concat_new_left h.wf, ← toVec_eq h.wf] at e1
  rw [concat_new_right h.wf, ← toVec_eq h.wf] at e2
  exact ⟨e1, e2⟩

example : ((PV.new : PV Nat).concat sample).Shows sample.toVec := (c14_monoid_identity sample_sound.intact).1

end PV
end Rustica.PVec
