import Verif.PVec.Theorems.Split

/-!
# C04: whole histories over a pool of versions

A program is a list of calls; each call reads earlier versions (by number) and appends its
result as a new version.  Two interpreters run the same program: one on `PV`, one on plain
lists.  The theorem says that after every program all versions agree.
-/

namespace Rustica.PVec
namespace History

variable {α : Type}

/-- One API call; the numbers refer to earlier versions. -/
inductive Op (α : Type) where
  | new
  | unit (x : α)
  | fromIter (xs : List α)
  | pushBack (k : Nat) (x : α)
  | pushFront (k : Nat) (x : α)
  | extend (k : Nat) (xs : List α)
  | update (k i : Nat) (x : α)
  | map (k : Nat) (f : α → α)
  | filter (k : Nat) (p : α → Bool)
  | filterMap (k : Nat) (f : α → Option α)
  | flatMap (k : Nat) (f : α → List α)
  | dedup (k : Nat)
  | sorted (k : Nat) (le : α → α → Bool)
  | zipWith (k l : Nat) (f : α × α → α)
  | partitionTrue (k : Nat) (p : α → Bool)
  | partitionFalse (k : Nat) (p : α → Bool)
  | chunkItem (k size i : Nat)
  | popBack (k : Nat)
  | splitLeft (k i : Nat)
  | splitRight (k i : Nat)
  | take (k n : Nat)
  | skip (k n : Nat)
  | insert (k i : Nat) (x : α)
  | remove (k i : Nat)
  /-- `concat` with a right operand collected from at most 64 elements. -/
  | append (k : Nat) (xs : List α)

/-- Version number `k` (an empty vector if there is no such version). -/
def ver (pool : List (PV α)) (k : Nat) : PV α := pool[k]?.getD PV.new

/-- The result of one call, on vectors. -/
def exec [DecidableEq α] (pool : List (PV α)) : Op α → PV α
  | .new => PV.new
  | .unit x => PV.unit x
  | .fromIter xs => PV.fromIter xs
  | .pushBack k x => (ver pool k).pushBack x
  | .pushFront k x => (ver pool k).pushFront x
  | .extend k xs => (ver pool k).extend xs
  | .update k i x => (ver pool k).update i x
  | .map k f => (ver pool k).map f
  | .filter k p => (ver pool k).filter p
  | .filterMap k f => (ver pool k).filterMap f
  | .flatMap k f => (ver pool k).flatMap f
  | .dedup k => (ver pool k).dedup
  | .sorted k le => (ver pool k).sorted le
  | .zipWith k l f => ((ver pool k).zip (ver pool l)).map f
  | .partitionTrue k p => ((ver pool k).partition p).1
  | .partitionFalse k p => ((ver pool k).partition p).2
  | .chunkItem k size i => (((ver pool k).chunk size).get i).getD PV.new
  | .popBack k => match (ver pool k).popBack with
    | some (w, _) => w
    | none => PV.new
  | .splitLeft k i => ((ver pool k).splitAt i).1
  | .splitRight k i => ((ver pool k).splitAt i).2
  | .take k n => (ver pool k).take n
  | .skip k n => (ver pool k).skip n
  | .insert k i x => (ver pool k).insert i x
  | .remove k i => ((ver pool k).remove i).getD PV.new
  | .append k xs => (ver pool k).concat (PV.fromIter xs)

/-- Version number `k` of the list program. -/
def verL (pool : List (List α)) (k : Nat) : List α := pool[k]?.getD []

/-- Specification: consecutive repetitions removed, on lists. -/
def dedupList [DecidableEq α] : List α → List α
  | [] => []
  | [a] => [a]
  | a :: b :: rest => if a = b then dedupList (b :: rest) else a :: dedupList (b :: rest)

/-- The result of one call, on plain lists. -/
def execL [DecidableEq α] (pool : List (List α)) : Op α → List α
  | .new => []
  | .unit x => [x]
  | .fromIter xs => xs
  | .pushBack k x => verL pool k ++ [x]
  | .pushFront k x => x :: verL pool k
  | .extend k xs => verL pool k ++ xs
  | .update k i x => (verL pool k).set i x
  | .map k f => (verL pool k).map f
  | .filter k p => (verL pool k).filter p
  | .filterMap k f => (verL pool k).filterMap f
  | .flatMap k f => (verL pool k).flatMap f
  | .dedup k => dedupList (verL pool k)
  | .sorted k le => (verL pool k).mergeSort le
  | .zipWith k l f => ((verL pool k).zip (verL pool l)).map f
  | .partitionTrue k p => (verL pool k).filter p
  | .partitionFalse k p => (verL pool k).filter (fun x => !p x)
  | .chunkItem k size i => if size = 0 then [] else ((verL pool k).drop (i * size)).take size
  | .popBack k => (verL pool k).dropLast
  | .splitLeft k i => (verL pool k).take i
  | .splitRight k i => (verL pool k).drop i
  | .take k n => (verL pool k).take n
  | .skip k n => (verL pool k).drop n
  | .insert k i x => (verL pool k).take i ++ x :: (verL pool k).drop i
  | .remove k i => if i < (verL pool k).length then (verL pool k).eraseIdx i else []
  | .append k xs => verL pool k ++ xs

/-- Run a program: each call appends its result to the pool of versions. -/
def run [DecidableEq α] (prog : List (Op α)) : List (PV α) :=
  prog.foldl (fun pool op => pool ++ [exec pool op]) []

/-- Run the program on plain lists. -/
def runL [DecidableEq α] (prog : List (Op α)) : List (List α) :=
  prog.foldl (fun pool op => pool ++ [execL pool op]) []

/-- For each version: has it stayed clear of `push_front`, `insert`, `remove` and `append`
since it was last rebuilt?  A static discipline on programs, computed without running them. -/
def clear (flags : List Bool) (k : Nat) : Bool := flags[k]?.getD true

/-- The discipline: the flag of the new version. -/
def flag (flags : List Bool) : Op α → Bool
  | .pushBack k _ | .extend k _ | .update k _ _ => clear flags k
  | .pushFront _ _ | .insert _ _ _ | .remove _ _ | .append _ _ => false
  | _ => true

/-- The discipline: operations that take a vector apart are used only on clear versions, and
`append` only with short right operands. -/
def allowed (flags : List Bool) : Op α → Bool
  | .popBack k | .splitLeft k _ | .splitRight k _ | .take k _ | .skip k _ | .insert k _ _
  | .remove k _ => clear flags k
  | .append _ xs => xs.length ≤ 64
  | _ => true

/-- All calls of the program respect the discipline, starting with the given flags. -/
def okFrom (flags : List Bool) : List (Op α) → Bool
  | [] => true
  | op :: rest => allowed flags op && okFrom (flags ++ [flag flags op]) rest

/-- The program respects the discipline. -/
def Disciplined (prog : List (Op α)) : Prop := okFrom [] prog = true

theorem dedupLoop_eq [DecidableEq α] : ∀ (xs : List α) (a : α),
    a :: PV.dedupLoop xs (some a) = dedupList (a :: xs) := by
  intro xs
  induction xs with
  | nil => intro a; rfl
  | cons b xs ih =>
    intro a
    by_cases h : a = b
    · subst h
      simp only [PV.dedupLoop, ne_eq, not_true, if_false, dedupList, if_true]
      exact ih a
    · have hne : (some a : Option α) ≠ some b := by simpa using h
      simp only [PV.dedupLoop, ne_eq, hne, not_false_eq_true, if_true, dedupList, h, if_false]
      rw [ih b]

theorem dedup_eq [DecidableEq α] (xs : List α) : PV.dedupLoop xs none = dedupList xs := by
  cases xs with
  | nil => rfl
  | cons a xs =>
    simp only [PV.dedupLoop, ne_eq, reduceCtorEq, not_false_eq_true, if_true]
    exact dedupLoop_eq xs a

/-- The invariant of a run. -/
structure Agree (pool : List (PV α)) (lists : List (List α)) (flags : List Bool) : Prop where
  len1 : pool.length = lists.length
  len2 : pool.length = flags.length
  sound : ∀ k, Sound (ver pool k)
  tame : ∀ k, clear flags k = true → Tame (ver pool k)
  shows : ∀ k, (ver pool k).Shows (verL lists k)

theorem agree_nil : Agree ([] : List (PV α)) [] [] :=
  { len1 := rfl, len2 := rfl, sound := fun _ => .tame .new, tame := fun _ _ => .new,
    shows := fun _ => PV.shows_of_get rfl (by intro i; simp [ver, PV.new, PV.get, verL]) }

theorem ver_append (pool : List (PV α)) (v : PV α) (k : Nat) :
    ver (pool ++ [v]) k = if k = pool.length then v else ver pool k := by
  unfold ver
  by_cases h : k = pool.length
  · subst h; simp
  · simp only [h, if_false]
    by_cases h' : k < pool.length
    · rw [List.getElem?_append_left h']
    · rw [List.getElem?_eq_none (by simp; omega), List.getElem?_eq_none (by omega)]

theorem verL_append (pool : List (List α)) (v : List α) (k : Nat) :
    verL (pool ++ [v]) k = if k = pool.length then v else verL pool k := by
  unfold verL
  by_cases h : k = pool.length
  · subst h; simp
  · simp only [h, if_false]
    by_cases h' : k < pool.length
    · rw [List.getElem?_append_left h']
    · rw [List.getElem?_eq_none (by simp; omega), List.getElem?_eq_none (by omega)]

theorem clear_append (flags : List Bool) (b : Bool) (k : Nat) :
    clear (flags ++ [b]) k = if k = flags.length then b else clear flags k := by
  unfold clear
  by_cases h : k = flags.length
  · subst h; simp
  · simp only [h, if_false]
    by_cases h' : k < flags.length
    · rw [List.getElem?_append_left h']
    · rw [List.getElem?_eq_none (by simp; omega), List.getElem?_eq_none (by omega)]

theorem Agree.snoc {pool : List (PV α)} {lists : List (List α)} {flags : List Bool}
    (h : Agree pool lists flags) {v : PV α} {xs : List α} {b : Bool} (hs : Sound v)
    (ht : b = true → Tame v) (hv : v.Shows xs) :
    Agree (pool ++ [v]) (lists ++ [xs]) (flags ++ [b]) := by
  have l1 := h.len1
  have l2 := h.len2
  refine ⟨by simp [l1], by simp [l2], ?_, ?_, ?_⟩
  · intro k; rw [ver_append]; split
    · exact hs
    · exact h.sound k
  · intro k; rw [ver_append, clear_append, ← l2]
    split
    · exact ht
    · exact h.tame k
  · intro k; rw [ver_append, verL_append, ← l1]
    split
    · exact hv
    · exact h.shows k

theorem step_agree [DecidableEq α] {pool : List (PV α)} {lists : List (List α)} {flags : List Bool}
    (h : Agree pool lists flags) (op : Op α) (hop : allowed flags op = true) :
    Agree (pool ++ [exec pool op]) (lists ++ [execL lists op]) (flags ++ [flag flags op]) := by
  have hS := h.sound
  have hT := h.tame
  have hV := fun k => (h.shows k).toVec
  have viaTame : ∀ {v : PV α} {xs : List α} {b : Bool}, Tame v → v.Shows xs →
      Agree (pool ++ [v]) (lists ++ [xs]) (flags ++ [b]) :=
    fun ht hv => h.snoc (.tame ht) (fun _ => ht) hv
  cases op with
  | new => exact viaTame .new (by
      have := PV.shows_of_wf (PV.wf_new (α := α)); rwa [PV.abs_new] at this)
  | unit x => exact viaTame (.unit x) (PV.c01_new_unit x).2
  | fromIter xs => exact viaTame (.fromIter xs) (PV.c01_from_iter xs)
  | pushBack k x =>
    exact h.snoc (.pushBack x (hS k)) (fun hc => .pushBack x (hT k hc))
      (by have := PV.c03_push_back_partial (hS k).intact x; rwa [hV] at this)
  | pushFront k x =>
    exact h.snoc (.pushFront x (hS k)) (fun hc => by simp [flag] at hc)
      (by have := PV.c03_push_front_partial (hS k).intact x; rwa [hV] at this)
  | extend k xs =>
    exact h.snoc (.extend xs (hS k)) (fun hc => .extend xs (hT k hc))
      (by have := PV.c03_extend_partial (hS k).intact xs; rwa [hV] at this)
  | update k i x =>
    exact h.snoc (.update i x (hS k)) (fun hc => .update i x (hT k hc))
      (by have := PV.c02_update_contents_partial (hS k).intact i x; rwa [hV] at this)
  | map k f => exact viaTame (.map f (hS k)) (by have := PV.c13_map (ver pool k) f; rwa [hV] at this)
  | filter k p =>
    exact viaTame (.filter p (hS k)) (by have := PV.c13_filter (ver pool k) p; rwa [hV] at this)
  | filterMap k f =>
    exact viaTame (.filterMap f (hS k)) (by have := PV.c13_filter_map (ver pool k) f; rwa [hV] at this)
  | flatMap k f =>
    exact viaTame (.flatMap f (hS k)) (by have := PV.c13_flat_map (ver pool k) f; rwa [hV] at this)
  | dedup k =>
    refine viaTame (.dedup (hS k)) ?_
    have := PV.c01_from_iter (PV.dedupLoop (ver pool k).items none)
    rw [dedup_eq] at this
    have e : (ver pool k).items = verL lists k := hV k
    simp only [PV.dedup, exec, execL, dedup_eq, ← e]
    exact this
  | sorted k le =>
    refine viaTame (.sorted le (hS k)) ?_
    have := PV.c01_from_iter ((ver pool k).items.mergeSort le)
    have e : (ver pool k).items = verL lists k := hV k
    simp only [execL, ← e]
    exact this
  | zipWith k l f =>
    refine viaTame (.map f (.tame (.zip (hS k) (hS l)))) ?_
    have := PV.c13_map ((ver pool k).zip (ver pool l)) f
    rw [(PV.c13_zip (ver pool k) (ver pool l)).toVec, hV, hV] at this
    exact this
  | partitionTrue k p =>
    exact viaTame (.partitionTrue p (hS k)) (by
      have := (PV.c13_partition (ver pool k) p).1; rwa [hV] at this)
  | partitionFalse k p =>
    exact viaTame (.partitionFalse p (hS k)) (by
      have := (PV.c13_partition (ver pool k) p).2; rwa [hV] at this)
  | chunkItem k size i =>
    have hnew : (PV.new : PV α).Shows [] := by
      have := PV.shows_of_wf (PV.wf_new (α := α)); rwa [PV.abs_new] at this
    obtain ⟨h0, h1⟩ := PV.c13_chunk (ver pool k) size
    rw [hV] at h1
    simp only [exec, execL]
    by_cases hz : size = 0
    · simp only [hz, if_true]
      have : ((ver pool k).chunk 0).get i = none := by
        have := (h0 hz).get i; rw [hz] at this; simpa using this
      rw [this]
      exact viaTame .new hnew
    · obtain ⟨_, hi⟩ := h1 (by omega)
      simp only [hz, if_false]
      by_cases hlt : i * size < (verL lists k).length
      · obtain ⟨c, hc, hsh⟩ := (hi i).1 hlt
        rw [hc]
        exact viaTame (.chunkItem size i (hS k) hc) hsh
      · rw [(hi i).2 (by omega), List.drop_of_length_le (by omega)]
        exact viaTame .new (by simpa using hnew)
  | popBack k =>
    have ht := hT k hop
    obtain ⟨hc, _⟩ := PV.c06_pop_back_partial ht
    unfold PV.PopBackCorrect at hc
    simp only [exec, execL]
    cases hp : (ver pool k).popBack with
    | none =>
      rw [hp] at hc
      simp only at hc
      rw [hV] at hc
      rw [hc]
      exact viaTame .new (by
        have := PV.shows_of_wf (PV.wf_new (α := α)); rwa [PV.abs_new] at this)
    | some p =>
      obtain ⟨w, x⟩ := p
      rw [hp] at hc
      obtain ⟨ys, h1, h2⟩ := hc
      rw [hV] at h1
      rw [h1, List.dropLast_concat]
      exact viaTame (.popBack ht hp) h2
  | splitLeft k i =>
    exact viaTame (.splitLeft i (hT k hop)) (by
      have := (PV.c08_split_partial (hT k hop) i).1.1; rwa [hV] at this)
  | splitRight k i =>
    exact viaTame (.splitRight i (hT k hop)) (by
      have := (PV.c08_split_partial (hT k hop) i).1.2.1; rwa [hV] at this)
  | take k n =>
    exact viaTame (.take n (hT k hop)) (by
      have := (PV.c08_split_partial (hT k hop) n).1.2.2.1; rwa [hV] at this)
  | skip k n =>
    exact viaTame (.skip n (hT k hop)) (by
      have := (PV.c08_split_partial (hT k hop) n).1.2.2.2; rwa [hV] at this)
  | insert k i x =>
    obtain ⟨h1, h2⟩ := PV.c09_insert_partial (hT k hop) i x
    unfold PV.InsertCorrect at h1
    rw [hV] at h1
    exact h.snoc h2 (fun hc => by simp [flag] at hc) h1
  | remove k i =>
    obtain ⟨h1, h2⟩ := PV.c09_remove_partial (hT k hop) i
    unfold PV.RemoveCorrect at h1
    rw [hV] at h1
    simp only [exec, execL]
    cases hr : (ver pool k).remove i with
    | none =>
      rw [hr] at h1
      rw [if_neg (by omega)]
      exact h.snoc (.tame .new) (fun hc => by simp [flag] at hc) (by
        have := PV.shows_of_wf (PV.wf_new (α := α)); rwa [PV.abs_new] at this)
    | some w =>
      rw [hr] at h1
      rw [if_pos h1.1]
      exact h.snoc (h2 w hr) (fun hc => by simp [flag] at hc) h1.2
  | append k xs =>
    have hx : xs.length ≤ 64 := by simpa [allowed] using hop
    have hsmall : (PV.fromIter xs).isTree = false := by simp [PV.fromIter, hx, PV.isTree]
    have hsx : Sound (PV.fromIter xs) := .tame (.fromIter xs)
    have := PV.c05_concat_small_partial (hS k).intact hsx.intact hsmall
    unfold PV.ConcatCorrect at this
    rw [hV, PV.c01_round_trip] at this
    exact h.snoc (.concat (hS k) hsx) (fun hc => by simp [flag] at hc) this

theorem run_agree [DecidableEq α] : ∀ (prog : List (Op α)) {pool : List (PV α)} {lists : List (List α)}
    {flags : List Bool}, Agree pool lists flags → okFrom flags prog = true →
    ∃ flags', Agree (prog.foldl (fun pool op => pool ++ [exec pool op]) pool)
      (prog.foldl (fun pool op => pool ++ [execL pool op]) lists) flags' := by
  intro prog
  induction prog with
  | nil => intro pool lists flags h _; exact ⟨flags, h⟩
  | cons op rest ih =>
    intro pool lists flags h hok
    simp only [okFrom, Bool.and_eq_true] at hok
    exact ih (step_agree h op hok.1) hok.2

/-- C04: for every disciplined program, every version ever created is observed (through `len`,
`is_empty`, `get` and iteration) as the version of the plain-list program; no later call ever
changes an earlier version. -/
theorem c04_history [DecidableEq α] (prog : List (Op α)) (h : Disciplined prog) :
    (run prog).length = (runL prog).length ∧
    ∀ (k : Nat) (v : PV α), (run prog)[k]? = some v → ∃ xs, (runL prog)[k]? = some xs ∧ v.Shows xs := by
  obtain ⟨flags, ha⟩ := run_agree prog agree_nil h
  refine ⟨ha.len1, fun k v hk => ?_⟩
  have hlt : k < (run prog).length := (List.getElem?_eq_some_iff.1 hk).1
  have hlt' : k < (runL prog).length := by rw [← show (run prog).length = (runL prog).length from ha.len1]; exact hlt
  refine ⟨(runL prog)[k], List.getElem?_eq_getElem hlt', ?_⟩
  have := ha.shows k
  unfold ver verL at this
  have e1 : (prog.foldl (fun pool op => pool ++ [exec pool op]) [])[k]? = some v := hk
  have e2 : (prog.foldl (fun pool op => pool ++ [execL pool op]) [])[k]? = some (runL prog)[k] :=
    List.getElem?_eq_getElem hlt'
  rw [e1, e2] at this
  exact this

/-- C04, persistence: running more calls leaves the versions already created untouched. -/
theorem c04_persistent [DecidableEq α] (prog more : List (Op α)) (k : Nat)
    (hk : k < (run prog).length) : (run (prog ++ more))[k]? = (run prog)[k]? := by
  unfold run at *
  rw [List.foldl_append]
  generalize prog.foldl (fun pool op => pool ++ [exec pool op]) [] = pool at hk
  induction more generalizing pool with
  | nil => rfl
  | cons op rest ih =>
    simp only [List.foldl_cons]
    rw [ih (pool ++ [exec pool op]) (by simp; omega), List.getElem?_append_left hk]

/-- The operations named in the statement of C04 never need the discipline: any program made of
them alone is disciplined. -/
def growing : Op α → Bool
  | .popBack _ | .splitLeft _ _ | .splitRight _ _ | .take _ _ | .skip _ _ | .insert _ _ _
  | .remove _ _ | .append _ _ => false
  | _ => true

theorem c04_growing_disciplined (prog : List (Op α)) (h : ∀ op ∈ prog, growing op = true) :
    Disciplined prog := by
  unfold Disciplined
  generalize ([] : List Bool) = flags
  induction prog generalizing flags with
  | nil => rfl
  | cons op rest ih =>
    simp only [okFrom, Bool.and_eq_true]
    refine ⟨?_, ih (fun o ho => h o (by simp [ho])) _⟩
    have := h op (by simp)
    cases op <;> simp_all [growing, allowed]

/-- A program that branches: version 0 is extended in two different ways and taken apart. -/
def demo : List (Op Nat) :=
  [.fromIter (List.range 130), .pushBack 0 7, .pushFront 0 8, .splitRight 1 60, .popBack 3,
   .update 2 5 99, .dedup 2, .chunkItem 0 50 2, .append 2 [1, 2],
   .insert 4 10 77]

example : Disciplined demo := by unfold Disciplined; decide
example : ((run demo).map PV.len) = [130, 131, 131, 71, 70, 131, 131, 30, 133, 71] := by
  decide +kernel

example : ∃ xs, (runL demo)[9]? = some xs ∧ (ver (run demo) 9).Shows xs := by
  obtain ⟨h1, h2⟩ := c04_history demo (by unfold Disciplined; decide)
  have h9 : 9 < (run demo).length := by decide +kernel
  have e : (run demo)[9]? = some (ver (run demo) 9) := by simp [ver, List.getElem?_eq_getElem h9]
  exact h2 9 _ e

example : (run (demo ++ [.pushBack 0 3]))[4]? = (run demo)[4]? := c04_persistent demo _ 4 (by decide +kernel)

end History
end Rustica.PVec
