import Verif.PVec.Theorems.Gap
import Verif.PVec.Theorems.NoPanic
import Verif.PVec.Theorems.History

/-!
# C04 beyond the statement: programs that use every operation

`c04_history` restricts `pop_back`, `split_at` and so on by a discipline that is checked without running the program, and
it leaves out `pop_front` and the concatenation of two computed vectors.  Here a program may use every operation on every
version.  A condition on the vectors met at run time decides each call: when it holds the new version is intact and reads
as the list program says, and when it does not hold one of the two fails.  So the first call that goes wrong is the first
call that does not meet its condition.
-/

namespace Rustica.PVec
namespace History

open PV

variable {α : Type}

/-- One call: one of the operations of `Op` that only grow or rebuild, or one that joins or takes apart. -/
inductive Call (α : Type) where
  | base (op : Op α) (h : growing op = true)
  | concat (k l : Nat)
  | popBack (k : Nat)
  | popFront (k : Nat)
  | splitLeft (k i : Nat)
  | splitRight (k i : Nat)
  | take (k n : Nat)
  | skip (k n : Nat)
  | insert (k i : Nat) (x : α)
  | remove (k i : Nat)

/-- The result of a call on vectors: the new version and the element returned, if any.  A call that returns `None` leaves
its vector as the new version. -/
def call [DecidableEq α] (pool : List (PV α)) : Call α → PV α × Option α
  | .base op _ => (exec pool op, none)
  | .concat k l => ((ver pool k).concat (ver pool l), none)
  | .popBack k => match (ver pool k).popBack with
    | some (w, x) => (w, some x)
    | none => (ver pool k, none)
  | .popFront k => match (ver pool k).popFront with
    | some (w, x) => (w, some x)
    | none => (ver pool k, none)
  | .splitLeft k i => (((ver pool k).splitAt i).1, none)
  | .splitRight k i => (((ver pool k).splitAt i).2, none)
  | .take k n => ((ver pool k).take n, none)
  | .skip k n => ((ver pool k).skip n, none)
  | .insert k i x => ((ver pool k).insert i x, none)
  | .remove k i => match (ver pool k).remove i with
    | some w => (w, none)
    | none => (ver pool k, none)

/-- The same on plain lists. -/
def callL [DecidableEq α] (lists : List (List α)) : Call α → List α × Option α
  | .base op _ => (execL lists op, none)
  | .concat k l => (verL lists k ++ verL lists l, none)
  | .popBack k => ((verL lists k).dropLast, (verL lists k).getLast?)
  | .popFront k => ((verL lists k).tail, (verL lists k).head?)
  | .splitLeft k i => ((verL lists k).take i, none)
  | .splitRight k i => ((verL lists k).drop i, none)
  | .take k n => ((verL lists k).take n, none)
  | .skip k n => ((verL lists k).drop n, none)
  | .insert k i x => ((verL lists k).take i ++ x :: (verL lists k).drop i, none)
  | .remove k i => ((verL lists k).eraseIdx i, none)

/-- Joining `a` and `b` comes out in order: one is empty, or the tree of `b` is not higher, or the order does not
matter. -/
def Joins (a b : PV α) : Prop :=
  a.toVec = [] ∨ b.toVec = [] ∨ b.heightOf ≤ a.heightOf ∨ b.toVec ++ a.toVec = a.toVec ++ b.toVec

/-- The condition of a call, on the vectors it meets. -/
def Meets (pool : List (PV α)) : Call α → Prop
  | .base _ _ => True
  | .concat k l => Joins (ver pool k) (ver pool l)
  | .popBack k => (¬ ∃ t, (ver pool k).inner = .tree t ∧ t.tail = [] ∧ t.head ≠ []) ∧ ¬ (ver pool k).StaleEnd
  | .popFront k => ¬ (ver pool k).StaleFront ∧
      ((ver pool k).TailOnly → (ver pool k).toVec.tail.reverse = (ver pool k).toVec.tail)
  | .splitLeft k i => (ver pool k).LeftOk i
  | .splitRight k i => (ver pool k).RightOk i
  | .take k n => (ver pool k).LeftOk n
  | .skip k n => (ver pool k).RightOk n
  | .insert k i x => i = 0 ∨ (ver pool k).len ≤ i ∨
      (ver pool k).RightOk i ∧ Joins (((ver pool k).splitAt i).1.pushBack x) ((ver pool k).splitAt i).2
  | .remove k i => (ver pool k).len ≤ i ∨ (ver pool k).len = 1 ∨
      (i + 1 = (ver pool k).len ∧ (ver pool k).LeftOk i) ∨
      (i + 1 < (ver pool k).len ∧ (ver pool k).RightOk i ∧ ((ver pool k).splitAt i).2.RightOk 1 ∧
        Joins ((ver pool k).splitAt i).1 (((ver pool k).splitAt i).2.skip 1))

/-- The result of a call is right: the new version is intact and reads as the list says, and the returned element is the
one the list program returns. -/
def Right (r : PV α × Option α) (s : List α × Option α) : Prop :=
  Intact r.1 ∧ r.1.Shows s.1 ∧ r.2 = s.2

/-- All versions are intact and read as the lists. -/
structure Match (pool : List (PV α)) (lists : List (List α)) : Prop where
  len : pool.length = lists.length
  intact : ∀ k, Intact (ver pool k)
  shows : ∀ k, (ver pool k).Shows (verL lists k)

theorem take_eq (v : PV α) (n : Nat) : v.take n = (v.splitAt n).1 := by
  unfold PV.take PV.splitAt
  split
  · simp
  · rfl

theorem skip_eq (v : PV α) (n : Nat) : v.skip n = (v.splitAt n).2 := by
  unfold PV.skip PV.splitAt
  split
  · simp
  · rfl

theorem joins_iff {a b : PV α} (ha : Intact a) (hb : Intact b) : Joins a b ↔ ConcatCorrect a b :=
  (c05_concat_iff ha hb).symm

theorem base_right [DecidableEq α] {pool : List (PV α)} {lists : List (List α)} (h : Match pool lists) (op : Op α)
    (hg : growing op = true) : Intact (exec pool op) ∧ (exec pool op).Shows (execL lists op) := by
  have hI := h.intact
  have hV := fun k => (h.shows k).toVec
  have hnew : (PV.new : PV α).Shows [] := by
    have := PV.shows_of_wf (PV.wf_new (α := α)); rwa [PV.abs_new] at this
  cases op with
  | new => exact ⟨intact_new, hnew⟩
  | unit x => exact ⟨⟨wf_unit x⟩, (PV.c01_new_unit x).2⟩
  | fromIter xs => exact ⟨intact_fromIter xs, PV.c01_from_iter xs⟩
  | pushBack k x =>
    exact ⟨(hI k).pushBack x, by have := PV.c03_push_back_partial (hI k) x; rwa [hV] at this⟩
  | pushFront k x =>
    exact ⟨(hI k).pushFront x, by have := PV.c03_push_front_partial (hI k) x; rwa [hV] at this⟩
  | extend k xs =>
    exact ⟨(hI k).extend xs, by have := PV.c03_extend_partial (hI k) xs; rwa [hV] at this⟩
  | update k i x =>
    exact ⟨(hI k).update i x, by have := PV.c02_update_contents_partial (hI k) i x; rwa [hV] at this⟩
  | map k f => exact ⟨intact_fromIter _, by have := PV.c13_map (ver pool k) f; rwa [hV] at this⟩
  | filter k p => exact ⟨intact_fromIter _, by have := PV.c13_filter (ver pool k) p; rwa [hV] at this⟩
  | filterMap k f => exact ⟨intact_fromIter _, by have := PV.c13_filter_map (ver pool k) f; rwa [hV] at this⟩
  | flatMap k f => exact ⟨intact_fromIter _, by have := PV.c13_flat_map (ver pool k) f; rwa [hV] at this⟩
  | dedup k =>
    refine ⟨intact_fromIter _, ?_⟩
    have := PV.c01_from_iter (PV.dedupLoop (ver pool k).items none)
    rw [dedup_eq] at this
    have e : (ver pool k).items = verL lists k := hV k
    simp only [PV.dedup, exec, execL, dedup_eq, ← e]
    exact this
  | sorted k le =>
    refine ⟨intact_fromIter _, ?_⟩
    have := PV.c01_from_iter ((ver pool k).items.mergeSort le)
    have e : (ver pool k).items = verL lists k := hV k
    simp only [execL, ← e]
    exact this
  | zipWith k l f =>
    refine ⟨intact_fromIter _, ?_⟩
    have := PV.c13_map ((ver pool k).zip (ver pool l)) f
    rw [(PV.c13_zip (ver pool k) (ver pool l)).toVec, hV, hV] at this
    exact this
  | partitionTrue k p =>
    exact ⟨intact_fromIter _, by have := (PV.c13_partition (ver pool k) p).1; rwa [hV] at this⟩
  | partitionFalse k p =>
    exact ⟨intact_fromIter _, by have := (PV.c13_partition (ver pool k) p).2; rwa [hV] at this⟩
  | chunkItem k size i =>
    obtain ⟨h0, h1⟩ := PV.c13_chunk (ver pool k) size
    rw [hV] at h1
    simp only [exec, execL]
    by_cases hz : size = 0
    · simp only [hz, if_true]
      have : ((ver pool k).chunk 0).get i = none := by
        have := (h0 hz).get i; rw [hz] at this; simpa using this
      rw [this]
      exact ⟨intact_new, hnew⟩
    · obtain ⟨_, hi⟩ := h1 (by omega)
      simp only [hz, if_false]
      by_cases hlt : i * size < (verL lists k).length
      · obtain ⟨c, hc, hsh⟩ := (hi i).1 hlt
        rw [hc]
        refine ⟨?_, hsh⟩
        have hs := c01_from_iter ((chunks size (ver pool k).items).map PV.fromIter)
        simp only [chunk, hz, if_false] at hc
        rw [hs.get, List.getElem?_map] at hc
        cases hcc : (chunks size (ver pool k).items)[i]? with
        | none => rw [hcc] at hc; cases hc
        | some ys =>
          rw [hcc] at hc
          simp only [Option.map_some, Option.some.injEq] at hc
          subst hc
          exact intact_fromIter ys
      · rw [(hi i).2 (by omega), List.drop_of_length_le (by omega)]
        exact ⟨intact_new, by simpa using hnew⟩
  | popBack k => simp [growing] at hg
  | splitLeft k i => simp [growing] at hg
  | splitRight k i => simp [growing] at hg
  | take k n => simp [growing] at hg
  | skip k n => simp [growing] at hg
  | insert k i x => simp [growing] at hg
  | remove k i => simp [growing] at hg
  | append k xs => simp [growing] at hg

theorem popBack_right {v : PV α} (h : Intact v) :
    ((¬ ∃ t, v.inner = .tree t ∧ t.tail = [] ∧ t.head ≠ []) ∧ ¬ v.StaleEnd) ↔
      Right (match v.popBack with
        | some (w, x) => (w, some x)
        | none => (v, none)) (v.toVec.dropLast, v.toVec.getLast?) := by
  rw [← c06_pop_back_iff h]
  unfold PopBackCorrect Right
  rcases hp : v.popBack with _ | ⟨w, x⟩
  · simp only
    constructor
    · rintro ⟨he, _⟩
      rw [he]
      refine ⟨h, ?_, rfl⟩
      have := h.shows; rwa [he] at this
    · rintro ⟨_, _, h3⟩
      have he := List.getLast?_eq_none_iff.1 h3.symm
      refine ⟨he, ?_⟩
      rintro ⟨t, ht, a, b, c, d⟩
      have h1 := (Intact.tree h ht).2.1
      have h2 := h.shows.len
      rw [he] at h2; simp at h2; omega
  · simp only
    have hi := c06_pop_back_intact h hp
    constructor
    · rintro ⟨⟨ys, h1, h2⟩, h3⟩
      rw [h1]
      exact ⟨hi.2 h3, by simpa using h2, by simp⟩
    · rintro ⟨h1, h2, h3⟩
      refine ⟨⟨v.toVec.dropLast, ?_, h2⟩, hi.1 h1⟩
      rcases hv : v.toVec.getLast? with _ | y
      · rw [hv] at h3; cases h3
      · rw [hv] at h3; cases h3
        have hne : v.toVec ≠ [] := by intro e; rw [e] at hv; cases hv
        rw [List.getLast?_eq_some_getLast hne] at hv
        cases hv
        exact (List.dropLast_concat_getLast hne).symm

theorem popFront_right {v : PV α} (h : Intact v) :
    (¬ v.StaleFront ∧ (v.TailOnly → v.toVec.tail.reverse = v.toVec.tail)) ↔
      Right (match v.popFront with
        | some (w, x) => (w, some x)
        | none => (v, none)) (v.toVec.tail, v.toVec.head?) := by
  have hiff := c07_pop_front_iff h
  constructor
  · intro hc
    have hcor := hiff.2 hc
    unfold PopFrontCorrect at hcor
    rcases hp : v.popFront with _ | ⟨w, x⟩
    · rw [hp] at hcor
      simp only at hcor
      rw [hcor]
      exact ⟨h, by have := h.shows; rwa [hcor] at this, rfl⟩
    · rw [hp] at hcor
      obtain ⟨ys, h1, h2⟩ := hcor
      rw [h1]
      exact ⟨(c07_pop_front_intact h hp).2 hc.1, h2, rfl⟩
  · intro hr
    apply hiff.1
    unfold PopFrontCorrect
    rcases hp : v.popFront with _ | ⟨w, x⟩
    · rw [hp] at hr
      exact List.head?_eq_none_iff.1 hr.2.2.symm
    · rw [hp] at hr
      obtain ⟨_, h2, h3⟩ := hr
      simp only at h2 h3
      rcases hv : v.toVec with _ | ⟨y, ys⟩
      · rw [hv] at h3; cases h3
      · rw [hv] at h2 h3
        simp only [List.head?_cons, Option.some.injEq] at h3
        subst h3
        exact ⟨ys, rfl, h2⟩

theorem insert_right {v : PV α} (h : Intact v) (i : Nat) (x : α) :
    (i = 0 ∨ v.len ≤ i ∨ v.RightOk i ∧ Joins ((v.splitAt i).1.pushBack x) (v.splitAt i).2) ↔
      Intact (v.insert i x) ∧ (v.insert i x).Shows (v.toVec.take i ++ x :: v.toVec.drop i) := by
  have hex := c09_insert_exact h i x
  have hlen := h.shows.len
  have hj : v.RightOk i → (Joins ((v.splitAt i).1.pushBack x) (v.splitAt i).2 ↔
      ConcatCorrect ((v.splitAt i).1.pushBack x) (v.splitAt i).2) := fun hr =>
    joins_iff (((c08_split_intact h i).1.2 (hr.left h)).pushBack x) ((c08_split_intact h i).2.2 hr)
  constructor
  · intro hc
    refine ⟨?_, hex.2 ?_⟩
    · unfold PV.insert
      split
      · exact h.pushBack x
      · split
        · exact h.pushFront x
        · rcases hc with hc | hc | ⟨hr, _⟩
          · omega
          · omega
          · exact (((c08_split_intact h i).1.2 (hr.left h)).pushBack x).concat ((c08_split_intact h i).2.2 hr)
    · rcases hc with hc | hc | ⟨hr, hc⟩
      · exact Or.inl hc
      · exact Or.inr (Or.inl (by omega))
      · exact Or.inr (Or.inr ⟨hr, (hj hr).1 hc⟩)
  · rintro ⟨_, hs⟩
    rcases hex.1 hs with hc | hc | ⟨hr, hc⟩
    · exact Or.inl hc
    · exact Or.inr (Or.inl (by omega))
    · exact Or.inr (Or.inr ⟨hr, (hj hr).2 hc⟩)

theorem skip_intact {v : PV α} (h : Intact v) {n : Nat} (hr : v.RightOk n) : Intact (v.skip n) := by
  rw [skip_eq]; exact (c08_split_intact h n).2.2 hr

theorem remove_right {v : PV α} (h : Intact v) (i : Nat) :
    (v.len ≤ i ∨ v.len = 1 ∨ (i + 1 = v.len ∧ v.LeftOk i) ∨
      (i + 1 < v.len ∧ v.RightOk i ∧ (v.splitAt i).2.RightOk 1 ∧
        Joins (v.splitAt i).1 ((v.splitAt i).2.skip 1))) ↔
      Right (match v.remove i with
        | some w => (w, none)
        | none => (v, none)) (v.toVec.eraseIdx i, none) := by
  have hex := c09_remove_exact h i
  have hlen := h.shows.len
  have hj : v.RightOk i → (v.splitAt i).2.RightOk 1 → (Joins (v.splitAt i).1 ((v.splitAt i).2.skip 1) ↔
      ConcatCorrect (v.splitAt i).1 ((v.splitAt i).2.skip 1)) := fun hr hr1 =>
    joins_iff ((c08_split_intact h i).1.2 (hr.left h)) (skip_intact ((c08_split_intact h i).2.2 hr) hr1)
  have hnone : v.remove i = none ↔ v.len ≤ i := by
    unfold PV.remove
    split
    · simp; omega
    · split <;> simp <;> omega
  constructor
  · intro hc
    have hcor : RemoveCorrect v i := by
      apply hex.2
      rcases hc with hc | hc | ⟨hc, hl⟩ | ⟨hc, hr, hr1, hc'⟩
      · exact Or.inl (by omega)
      · exact Or.inr (Or.inl (by omega))
      · exact Or.inr (Or.inr (Or.inl ⟨by omega, hl⟩))
      · exact Or.inr (Or.inr (Or.inr ⟨by omega, hr, hr1, (hj hr hr1).1 hc'⟩))
    unfold RemoveCorrect at hcor
    rcases hp : v.remove i with _ | w
    · rw [hp] at hcor
      simp only at hcor ⊢
      rw [List.eraseIdx_of_length_le hcor]
      exact ⟨h, h.shows, rfl⟩
    · rw [hp] at hcor
      refine ⟨?_, hcor.2, rfl⟩
      simp only
      have hi : ¬ v.len ≤ i := by rw [hlen]; omega
      unfold PV.remove at hp
      rw [if_neg hi] at hp
      by_cases h1 : v.len = 1
      · rw [if_pos h1] at hp; cases hp; exact intact_new
      · rw [if_neg h1] at hp
        simp only [Option.some.injEq] at hp
        subst hp
        rcases hc with hc | hc | ⟨hc, hl⟩ | ⟨hc, hr, hr1, _⟩
        · omega
        · omega
        · refine ((c08_split_intact h i).1.2 hl).concat ?_
          have : (v.splitAt i).2.len = 1 := by
            have h0 : ¬ i = 0 := by omega
            unfold PV.splitAt
            simp only [show ¬ i ≥ v.len by omega, if_false, h0]
            split <;> simp only <;> omega
          unfold PV.skip
          rw [if_pos (by omega)]
          exact intact_new
        · exact ((c08_split_intact h i).1.2 (hr.left h)).concat
            (skip_intact ((c08_split_intact h i).2.2 hr) hr1)
  · intro hr
    have hcor : RemoveCorrect v i := by
      unfold RemoveCorrect
      rcases hp : v.remove i with _ | w
      · have := hnone.1 hp; simp only; omega
      · rw [hp] at hr
        have : ¬ v.len ≤ i := fun hh => by rw [hnone.2 hh] at hp; cases hp
        exact ⟨by omega, hr.2.1⟩
    rcases hex.1 hcor with hc | hc | ⟨hc, hl⟩ | ⟨hc, hr, hr1, hc'⟩
    · exact Or.inl (by omega)
    · exact Or.inr (Or.inl (by omega))
    · exact Or.inr (Or.inr (Or.inl ⟨by omega, hl⟩))
    · exact Or.inr (Or.inr (Or.inr ⟨by omega, hr, hr1, (hj hr hr1).2 hc'⟩))

/-- C04, one call, every operation: on intact versions the condition holds exactly when the call is right. -/
theorem c04_call_iff [DecidableEq α] {pool : List (PV α)} {lists : List (List α)} (h : Match pool lists)
    (c : Call α) : Meets pool c ↔ Right (call pool c) (callL lists c) := by
  have hI := h.intact
  have hV := fun k => (h.shows k).toVec
  cases c with
  | base op hg =>
    obtain ⟨h1, h2⟩ := base_right h op hg
    exact ⟨fun _ => ⟨h1, h2, rfl⟩, fun _ => trivial⟩
  | concat k l =>
    have := joins_iff (hI k) (hI l)
    unfold ConcatCorrect at this
    rw [hV, hV] at this
    exact this.trans ⟨fun hs => ⟨(hI k).concat (hI l), hs, rfl⟩, fun hr => hr.2.1⟩
  | popBack k => have := popBack_right (hI k); rwa [hV] at this
  | popFront k =>
    have := popFront_right (hI k)
    simp only [Meets, callL, ← hV k]
    exact this
  | splitLeft k i =>
    have h1 := (c08_split_iff (hI k) i).1
    have h2 := (c08_split_intact (hI k) i).1
    rw [hV] at h1
    exact ⟨fun hm => ⟨h2.2 hm, h1.2 hm, rfl⟩, fun hr => h2.1 hr.1⟩
  | splitRight k i =>
    have h1 := (c08_split_iff (hI k) i).2
    have h2 := (c08_split_intact (hI k) i).2
    rw [hV] at h1
    exact ⟨fun hm => ⟨h2.2 hm, h1.2 hm, rfl⟩, fun hr => h2.1 hr.1⟩
  | take k n =>
    have h1 := (c08_split_iff (hI k) n).1
    have h2 := (c08_split_intact (hI k) n).1
    rw [hV] at h1
    simp only [Meets, call, callL, take_eq]
    exact ⟨fun hm => ⟨h2.2 hm, h1.2 hm, rfl⟩, fun hr => h2.1 hr.1⟩
  | skip k n =>
    have h1 := (c08_split_iff (hI k) n).2
    have h2 := (c08_split_intact (hI k) n).2
    rw [hV] at h1
    simp only [Meets, call, callL, skip_eq]
    exact ⟨fun hm => ⟨h2.2 hm, h1.2 hm, rfl⟩, fun hr => h2.1 hr.1⟩
  | insert k i x =>
    have := insert_right (hI k) i x
    rw [hV] at this
    exact this.trans ⟨fun ⟨a, b⟩ => ⟨a, b, rfl⟩, fun hr => ⟨hr.1, hr.2.1⟩⟩
  | remove k i =>
    have := remove_right (hI k) i
    rwa [hV] at this

/-- A run: the versions created, in order, and the elements returned. -/
def runCalls [DecidableEq α] : List (PV α) → List (Call α) → List (PV α) × List (Option α)
  | pool, [] => (pool, [])
  | pool, c :: rest =>
    let r := call pool c
    let s := runCalls (pool ++ [r.1]) rest
    (s.1, r.2 :: s.2)

/-- The run of the same program on plain lists. -/
def runCallsL [DecidableEq α] : List (List α) → List (Call α) → List (List α) × List (Option α)
  | lists, [] => (lists, [])
  | lists, c :: rest =>
    let r := callL lists c
    let s := runCallsL (lists ++ [r.1]) rest
    (s.1, r.2 :: s.2)

/-- Every call of the program meets its condition at the moment it is made. -/
def AllMeet [DecidableEq α] : List (PV α) → List (Call α) → Prop
  | _, [] => True
  | pool, c :: rest => Meets pool c ∧ AllMeet (pool ++ [(call pool c).1]) rest

theorem match_nil : Match ([] : List (PV α)) [] :=
  { len := rfl, intact := fun _ => intact_new,
    shows := fun _ => PV.shows_of_get rfl (by intro i; simp [ver, PV.new, PV.get, verL]) }

theorem Match.snoc {pool : List (PV α)} {lists : List (List α)} (h : Match pool lists) {v : PV α} {xs : List α}
    (hi : Intact v) (hs : v.Shows xs) : Match (pool ++ [v]) (lists ++ [xs]) := by
  have hl := h.len
  refine ⟨by simp [hl], fun k => ?_, fun k => ?_⟩
  · rw [ver_append]; split
    · exact hi
    · exact h.intact k
  · rw [ver_append, verL_append, ← hl]; split
    · exact hs
    · exact h.shows k

theorem run_match [DecidableEq α] (prog : List (Call α)) : ∀ {pool : List (PV α)} {lists : List (List α)},
    Match pool lists → AllMeet pool prog →
    Match (runCalls pool prog).1 (runCallsL lists prog).1 ∧
      (runCalls pool prog).2 = (runCallsL lists prog).2 := by
  induction prog with
  | nil => intro pool lists h _; exact ⟨h, rfl⟩
  | cons c rest ih =>
    intro pool lists h hm
    obtain ⟨h1, h2, h3⟩ := (c04_call_iff h c).1 hm.1
    obtain ⟨h4, h5⟩ := ih (h.snoc h1 h2) hm.2
    exact ⟨h4, by simp only [runCalls, runCallsL, h3, h5]⟩

/-- C04, whole programs over all operations: if every call meets its condition when it is made, then every version ever
created is intact, reads as in the list program, and no operation on it panics; and every element returned by a pop is
the one the list program returns. -/
theorem c04_program [DecidableEq α] (prog : List (Call α)) (h : AllMeet [] prog) :
    (∀ k, Intact (ver (runCalls [] prog).1 k) ∧ NeverPanics (ver (runCalls [] prog).1 k) ∧
      (ver (runCalls [] prog).1 k).Shows (verL (runCallsL [] prog).1 k)) ∧
    (runCalls [] prog).2 = (runCallsL [] prog).2 := by
  obtain ⟨hm, ho⟩ := run_match prog match_nil h
  exact ⟨fun k => ⟨hm.intact k, c58_no_panic_partial (.intact (hm.intact k)), hm.shows k⟩, ho⟩

/-- C04, where a program goes wrong: either every call meets its condition, or there is a first call that does not; all
versions before it are right, and its own result is not (it is damaged, or does not read as the list, or the wrong
element was returned). -/
theorem c04_first_wrong [DecidableEq α] (prog : List (Call α)) :
    AllMeet [] prog ∨ ∃ pre c post, prog = pre ++ c :: post ∧ AllMeet [] pre ∧
      Match (runCalls [] pre).1 (runCallsL [] pre).1 ∧
      ¬ Right (call (runCalls [] pre).1 c) (callL (runCallsL [] pre).1 c) := by
  have key : ∀ (prog : List (Call α)) {pool : List (PV α)} {lists : List (List α)}, Match pool lists →
      AllMeet pool prog ∨ ∃ pre c post, prog = pre ++ c :: post ∧ AllMeet pool pre ∧
        Match (runCalls pool pre).1 (runCallsL lists pre).1 ∧
        ¬ Right (call (runCalls pool pre).1 c) (callL (runCallsL lists pre).1 c) := by
    intro prog
    induction prog with
    | nil => intro _ _ _; exact Or.inl trivial
    | cons c rest ih =>
      intro pool lists h
      by_cases hc : Meets pool c
      · obtain ⟨h1, h2, _⟩ := (c04_call_iff h c).1 hc
        rcases ih (h.snoc h1 h2) with ha | ⟨pre, d, post, e, ha, hm, hr⟩
        · exact Or.inl ⟨hc, ha⟩
        · exact Or.inr ⟨c :: pre, d, post, by rw [e]; rfl, ⟨hc, ha⟩, hm, hr⟩
      · exact Or.inr ⟨[], c, rest, rfl, trivial, h, fun hr => hc ((c04_call_iff h c).2 hr)⟩
  exact key prog match_nil

/-! ## The conditions can be tested at run time -/

/-- `RightOk` as a test. -/
def rightOkB [DecidableEq α] (v : PV α) (n : Nat) : Bool :=
  match v.inner with
  | .inline _ => true
  | .tree t => decide (t.head.length < n ∧ n < t.head.length + t.root.flat.length →
      (cutAt t n).1.flat = (cutAt t n).1.firstLeaf)

theorem rightOk_iff [DecidableEq α] (v : PV α) (n : Nat) : v.RightOk n ↔ rightOkB v n = true := by
  unfold RightOk rightOkB Tree.Inside
  cases h : v.inner with
  | inline es => simp
  | tree t => simp only [decide_eq_true_eq]; exact ⟨fun h hh => h t rfl hh, fun h t' e hh => by cases e; exact h hh⟩

/-- Only the prefix buffer can be popped, which `pop_back` does not do. -/
def headOnlyB (v : PV α) : Bool :=
  match v.inner with
  | .inline _ => false
  | .tree t => t.tail.isEmpty && !t.head.isEmpty

theorem headOnly_iff (v : PV α) : (∃ t, v.inner = .tree t ∧ t.tail = [] ∧ t.head ≠ []) ↔ headOnlyB v = true := by
  unfold headOnlyB
  cases h : v.inner with
  | inline es => simp
  | tree t => simp

instance [DecidableEq α] (a b : PV α) : Decidable (Joins a b) := by unfold Joins; infer_instance
instance (v : PV α) : Decidable v.StaleEnd := decidable_of_iff _ (staleEnd_iff v).symm
instance (v : PV α) : Decidable v.StaleFront := decidable_of_iff _ (staleFront_iff v).symm
instance (v : PV α) : Decidable v.TailOnly := decidable_of_iff _ (tailOnly_iff v).symm
instance (v : PV α) (n : Nat) : Decidable (v.LeftOk n) := decidable_of_iff _ (leftOk_iff v n).symm
instance [DecidableEq α] (v : PV α) (n : Nat) : Decidable (v.RightOk n) := decidable_of_iff _ (rightOk_iff v n).symm
instance (v : PV α) : Decidable (∃ t, v.inner = .tree t ∧ t.tail = [] ∧ t.head ≠ []) :=
  decidable_of_iff _ (headOnly_iff v).symm

instance [DecidableEq α] (pool : List (PV α)) (c : Call α) : Decidable (Meets pool c) := by
  cases c <;> unfold Meets <;> infer_instance

instance decAllMeet [DecidableEq α] : (pool : List (PV α)) → (prog : List (Call α)) → Decidable (AllMeet pool prog)
  | _, [] => isTrue trivial
  | pool, c :: rest =>
    have := decAllMeet (pool ++ [(call pool c).1]) rest
    inferInstanceAs (Decidable (_ ∧ _))

/-- A program with every kind of call, all of which meet their conditions: two computed vectors are joined, the result is
popped at both ends and cut. -/
def demoCalls : List (Call Nat) :=
  [.base (.fromIter (List.range 100)) rfl, .base (.map 0 (· + 100)) rfl, .concat 0 1, .base (.pushBack 2 7) rfl,
   .popBack 3, .popFront 4, .take 5 180, .splitLeft 5 20, .splitRight 0 70, .insert 0 50 9, .remove 0 3, .skip 10 64]

example : AllMeet [] demoCalls := by decide +kernel

/-- The ninth call of `demoCalls` put on the joined vector does not meet its condition. -/
example : ¬ AllMeet [] (demoCalls.take 3 ++ [.splitRight 2 70]) := by decide +kernel

example : (runCalls [] demoCalls).2 = (runCallsL [] demoCalls).2 ∧ Intact (ver (runCalls [] demoCalls).1 9) :=
  have h := c04_program demoCalls (by decide +kernel)
  ⟨h.2, (h.1 9).1⟩

/-- `c04_call_iff`, with a pool of one vector of two levels: the cut is right, as the test says. -/
example : ∀ v : PV Nat, v = PV.fromIter (List.range 200) → Meets [v] (.splitLeft 0 70) →
    Right (call [v] (.splitLeft 0 70)) (callL [List.range 200] (.splitLeft 0 70)) :=
  fun v e =>
  have h1 : Intact v := e ▸ PV.intact_fromIter _
  have h2 : v.Shows (List.range 200) := e ▸ PV.c01_from_iter _
  (c04_call_iff (pool := [v]) (lists := [List.range 200])
    ⟨by rfl, fun k => by
      cases k with
      | zero => exact h1
      | succ k => exact PV.intact_new,
     fun k => by
      cases k with
      | zero => exact h2
      | succ k => exact (PV.c01_new_unit 0).1⟩ _).1

example : Meets [PV.fromIter (List.range 200)] (.splitLeft 0 70) := by decide +kernel

end History
end Rustica.PVec
