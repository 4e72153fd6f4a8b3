import Verif.PVec.Over
import Verif.PVec.Theorems.Whole

/-!
# C10, C04: operations do not look at elements

`v.over f` is `v` with every stored element `a` replaced by `f a` and everything else kept.  The theorems say that an
operation on `v.over f` does what it does on `v`, with the elements replaced: same layout, same height, same recorded
lengths, same counters, same outcome (`None`, split position, ...).  They hold for every vector, also for damaged ones.
-/

namespace Rustica.PVec

variable {α β γ : Type}

namespace PV

theorem fromIter_over (f : α → β) (xs : List α) : fromIter (xs.map f) = (fromIter xs).over f := by
  simp only [fromIter, List.length_map, Tree.fromElements_over]
  split <;> simp [over]

theorem get_over (f : α → β) (v : PV α) (i : Nat) : (v.over f).get i = (v.get i).map f := by
  rcases v with ⟨inner, len, gen⟩
  by_cases h : len ≤ i
  · simp [get, over, h]
  · cases inner with
    | inline es => simp [get, over, h]
    | tree t => simp [get, over, h, Tree.get_over]

theorem collect_over (f : α → β) (v : PV α) : ∀ k p,
    Iter.collect k ⟨v.over f, p⟩ = (Iter.collect k ⟨v, p⟩).map f
  | 0, _ => rfl
  | k + 1, p => by
    simp only [Iter.collect, Iter.next, len_over, get_over]
    by_cases h : p < v.len
    · simp only [h, if_true]
      cases v.get p with
      | none => rfl
      | some x => simp [collect_over f v k]
    · simp [h]

theorem items_over (f : α → β) (v : PV α) : (v.over f).items = v.items.map f := by
  simp [items, iter, collect_over]

theorem pushBack_over (f : α → β) (v : PV α) (x : α) : (v.over f).pushBack (f x) = (v.pushBack x).over f := by
  rcases v with ⟨inner, len, gen⟩
  cases inner with
  | inline es =>
    simp only [pushBack, over, List.length_map]
    split <;> simp [transitionToTree, treePushBack, Tree.fromElements_over, Tree.pushBack_over]
  | tree t => simp [pushBack, over, treePushBack, Tree.pushBack_over]

theorem pushFront_over (f : α → β) (v : PV α) (x : α) : (v.over f).pushFront (f x) = (v.pushFront x).over f := by
  rcases v with ⟨inner, len, gen⟩
  cases inner with
  | inline es =>
    simp only [pushFront, over, List.length_map]
    split <;> simp [transitionToTree, treePushFront, Tree.fromElements_over, Tree.pushFront_over]
  | tree t => simp [pushFront, over, treePushFront, Tree.pushFront_over]

theorem extend_over (f : α → β) (xs : List α) : ∀ v : PV α, (v.over f).extend (xs.map f) = (v.extend xs).over f := by
  induction xs with
  | nil => intro v; rfl
  | cons x xs ih =>
    intro v
    simp only [extend, List.map_cons, List.foldl_cons, pushBack_over] at ih ⊢
    exact ih _

theorem update_over (f : α → β) (v : PV α) (i : Nat) (x : α) :
    (v.over f).update i (f x) = (v.update i x).over f := by
  rcases v with ⟨inner, len, gen⟩
  by_cases h : len ≤ i
  · simp [update, over, h]
  · cases inner <;> simp [update, over, h, List.map_set, Tree.update_over]

theorem concat_over (f : α → β) (v w : PV α) : (v.over f).concat (w.over f) = (v.concat w).over f := by
  rcases v with ⟨vi, vl, vg⟩
  rcases w with ⟨wi, wl, wg⟩
  cases vi with
  | inline es =>
    cases wi with
    | inline fs =>
      have := fromIter_over f (es ++ fs)
      simpa [concat, over] using this
    | tree u => simp [concat, over, Tree.fromElements_over, Tree.concat_over]
  | tree t => cases wi <;> simp [concat, over, Tree.fromElements_over, Tree.concat_over]

/-- A vector and an element, both replaced. -/
def both (f : α → β) (p : PV α × α) : PV β × β := (p.1.over f, f p.2)

theorem popBack_over (f : α → β) (v : PV α) : (v.over f).popBack = v.popBack.map (both f) := by
  rcases v with ⟨inner, len, gen⟩
  by_cases h : len = 0
  · simp [popBack, isEmpty, over, h]
  · cases inner with
    | inline es =>
      simp only [popBack, isEmpty, over, beq_iff_eq, h, if_false, List.getLast?_map]
      cases es.getLast? <;> simp [both, over, List.map_dropLast]
    | tree t =>
      simp only [popBack, isEmpty, over, beq_iff_eq, h, if_false, Tree.popBack_over]
      cases t.popBack <;> simp [both, over, Tree.both]

theorem popFront_over (f : α → β) (v : PV α) : (v.over f).popFront = v.popFront.map (both f) := by
  rcases v with ⟨inner, len, gen⟩
  by_cases h : len = 0
  · simp [popFront, isEmpty, over, h]
  · cases inner with
    | inline es => cases es <;> simp [popFront, isEmpty, h, both, over]
    | tree t =>
      simp only [popFront, isEmpty, over, beq_iff_eq, h, if_false, Tree.popFront_over]
      cases t.popFront <;> simp [both, over, Tree.both]

theorem splitAt_over (f : α → β) (v : PV α) (i : Nat) :
    (v.over f).splitAt i = ((v.splitAt i).1.over f, (v.splitAt i).2.over f) := by
  rcases v with ⟨inner, len, gen⟩
  by_cases h : len ≤ i
  · simp [splitAt, new, over, h]
  · by_cases h0 : i = 0
    · simp [splitAt, new, over, h0]
      split <;> simp_all
    · cases inner with
      | inline es => simp [splitAt, over, h, h0]
      | tree t => simp [splitAt, over, h, h0, Tree.splitAt_over]

theorem new_over (f : α → β) : (new : PV α).over f = new := rfl

theorem take_over (f : α → β) (v : PV α) (n : Nat) : (v.over f).take n = (v.take n).over f := by
  simp only [take, len_over, splitAt_over]; split <;> rfl

theorem skip_over (f : α → β) (v : PV α) (n : Nat) : (v.over f).skip n = (v.skip n).over f := by
  simp only [skip, len_over, splitAt_over]; split <;> rfl

theorem insert_over (f : α → β) (v : PV α) (i : Nat) (x : α) :
    (v.over f).insert i (f x) = (v.insert i x).over f := by
  simp only [insert, len_over, splitAt_over, pushBack_over, pushFront_over, concat_over]
  split
  · rfl
  · split <;> rfl

theorem remove_over (f : α → β) (v : PV α) (i : Nat) : (v.over f).remove i = (v.remove i).map (over f) := by
  simp only [remove, len_over, splitAt_over, skip_over, concat_over]
  split
  · rfl
  · split
    · simp [new_over]
    · rfl

/-- The skeleton is what is left when the elements are replaced by `()`. -/
theorem skeleton_eq (v : PV α) : v.skeleton = v.over fun _ => () := by
  have hn : ∀ n : Node α, n.skeleton = n.over fun _ => () := by
    intro n
    induction n using Node.induct with
    | hleaf es => rfl
    | hbranch cs s ih =>
      simp only [Node.skeleton, Node.over_branch, Node.branch.injEq, and_true]
      induction cs with
      | nil => rfl
      | cons c cs ih' =>
        simp only [Node.skeletonL, List.map_cons]
        rw [ih c (by simp), ih' fun d hd => ih d (by simp [hd])]
  rcases v with ⟨inner, len, gen⟩
  cases inner <;> simp [skeleton, over, Tree.over, hn]

/-- Replacing the elements by `f` before an operation is the same as replacing them afterwards, for every operation
that makes a vector, takes one apart, joins two, or changes one. -/
theorem blind (f : α → β) (v w : PV α) (x : α) (xs : List α) (i : Nat) :
    (unit x).over f = unit (f x) ∧
    (fromIter xs).over f = fromIter (xs.map f) ∧
    (v.pushBack x).over f = (v.over f).pushBack (f x) ∧
    (v.pushFront x).over f = (v.over f).pushFront (f x) ∧
    (v.extend xs).over f = (v.over f).extend (xs.map f) ∧
    (v.update i x).over f = (v.over f).update i (f x) ∧
    (v.concat w).over f = (v.over f).concat (w.over f) ∧
    (v.over f).popBack = v.popBack.map (fun p => (p.1.over f, f p.2)) ∧
    (v.over f).popFront = v.popFront.map (fun p => (p.1.over f, f p.2)) ∧
    (v.over f).splitAt i = ((v.splitAt i).1.over f, (v.splitAt i).2.over f) ∧
    (v.take i).over f = (v.over f).take i ∧
    (v.skip i).over f = (v.over f).skip i ∧
    (v.insert i x).over f = (v.over f).insert i (f x) ∧
    (v.over f).remove i = (v.remove i).map (over f) :=
  ⟨rfl, (fromIter_over f xs).symm, (pushBack_over f v x).symm, (pushFront_over f v x).symm, (extend_over f xs v).symm,
    (update_over f v i x).symm, (concat_over f v w).symm, popBack_over f v, popFront_over f v, splitAt_over f v i,
    (take_over f v i).symm, (skip_over f v i).symm, (insert_over f v i x).symm, remove_over f v i⟩

/-- The observers see the replaced elements at the same places. -/
theorem blind_observers (f : α → β) (v : PV α) (i : Nat) :
    (v.over f).get i = (v.get i).map f ∧ (v.over f).first = v.first.map f ∧ (v.over f).last = v.last.map f ∧
    (v.over f).toVec = v.toVec.map f ∧ (v.over f).len = v.len ∧ (v.over f).isEmpty = v.isEmpty ∧
    (v.over f).tryGet i = (match v.tryGet i with | .ok a => .ok (f a) | .error e => .error e) := by
  refine ⟨get_over f v i, get_over f v 0, ?_, items_over f v, rfl, rfl, ?_⟩
  · simp only [last, len_over, get_over]; split <;> rfl
  · simp only [tryGet, get_over, len_over]
    cases v.get i <;> rfl

/-- The operations that hand elements to the caller's functions hand over the replaced elements and do nothing else
with them. -/
theorem blind_closures (f : α → β) (v : PV α) (p : β → Bool) (g : β → γ) (h : β → Option γ) (k : β → List γ)
    (z : γ) (op : γ → β → γ) (op' : β → γ → γ) :
    (v.over f).map g = v.map (g ∘ f) ∧
    (v.over f).filter p = (v.filter (p ∘ f)).over f ∧
    (v.over f).filterMap h = v.filterMap (h ∘ f) ∧
    (v.over f).flatMap k = v.flatMap (k ∘ f) ∧
    (v.over f).fold z op = v.fold z (fun acc a => op acc (f a)) ∧
    (v.over f).foldLeft z op = v.foldLeft z (fun acc a => op acc (f a)) ∧
    (v.over f).foldRight z op' = v.foldRight z (fun a acc => op' (f a) acc) ∧
    (v.over f).partition p = (((v.partition (p ∘ f)).1).over f, ((v.partition (p ∘ f)).2).over f) := by
  refine ⟨by simp [map, items_over], ?_, ?_, ?_, ?_, ?_, ?_, ?_⟩
  · simp only [filter, items_over, List.filter_map, fromIter_over]
  · simp [filterMap, items_over, List.filterMap_map]
  · simp only [flatMap, items_over, List.flatMap_map]; rfl
  · simp [fold, items_over, List.foldl_map]
  · simp [foldLeft, items_over, List.foldl_map]
  · have : ∀ n (z : γ), foldRightLoop (v.over f) op' n z = foldRightLoop v (fun a acc => op' (f a) acc) n z := by
      intro n
      induction n with
      | zero => intro z; rfl
      | succ n ih =>
        intro z
        simp only [foldRightLoop, get_over, ih]
        cases v.get n <;> rfl
    exact this _ _
  · have : ∀ (xs ts fs : List α), partitionLoop p (xs.map f) (ts.map f) (fs.map f) =
        ((partitionLoop (p ∘ f) xs ts fs).1.map f, (partitionLoop (p ∘ f) xs ts fs).2.map f) := by
      intro xs
      induction xs with
      | nil => intro ts fs; rfl
      | cons x xs ih =>
        intro ts fs
        simp only [List.map_cons, partitionLoop, Function.comp]
        have h1 := ih (ts ++ [x]) fs
        have h2 := ih ts (fs ++ [x])
        simp only [List.map_append, List.map_cons, List.map_nil] at h1 h2
        split
        · exact h1
        · exact h2
    have h0 := this v.items [] []
    simp only [List.map_nil] at h0
    simp only [partition, items_over, h0, fromIter_over]

theorem dedupLoop_map [DecidableEq α] [DecidableEq β] (f : α → β) (hf : ∀ a b, f a = f b → a = b) :
    ∀ (xs : List α) (l : Option α), dedupLoop (xs.map f) (l.map f) = (dedupLoop xs l).map f
  | [], _ => rfl
  | x :: xs, l => by
    have h : l.map f ≠ some (f x) ↔ l ≠ some x := by
      cases l with
      | none => simp
      | some a =>
        simp only [Option.map_some, ne_eq, Option.some.injEq]
        exact ⟨fun h e => h (e ▸ rfl), fun h e => h (hf a x e)⟩
    have h1 := dedupLoop_map f hf xs (some x)
    have h2 := dedupLoop_map f hf xs l
    simp only [Option.map_some] at h1
    simp only [List.map_cons, dedupLoop, h, h1, h2]
    split <;> simp

/-- The operations that compare or pair elements: sorting by an order sorts by the order of the replaced elements,
pairing and cutting into pieces do not look at all. -/
theorem blind_comparing (f : α → β) (g : α → γ) (v w : PV α) (le : β → β → Bool) (n : Nat) :
    (v.over f).sorted le = (v.sorted fun a b => le (f a) (f b)).over f ∧
    (v.over f).zip (w.over g) = (v.zip w).over (Prod.map f g) ∧
    (v.over f).chunk n = (v.chunk n).over (over f) := by
  refine ⟨?_, ?_, ?_⟩
  · rw [sorted, sorted, items_over, ← fromIter_over]
    congr 1
    exact (List.map_mergeSort (r := fun a b => le (f a) (f b)) (s := le) (f := f) (fun _ _ _ _ => rfl)).symm
  · rw [zip, zip, items_over, items_over, ← fromIter_over, List.zip_map]
  · simp only [chunk, items_over, chunks_map]
    split
    · rfl
    · rw [← fromIter_over, List.map_map, List.map_map]
      congr 1
      exact List.map_congr_left fun xs _ => fromIter_over f xs

/-- `dedup` and `==` need that different elements stay different, and nothing else. -/
theorem blind_distinct [DecidableEq α] [DecidableEq β] (f : α → β) (hf : ∀ a b, f a = f b → a = b) (v w : PV α) :
    (v.over f).dedup = v.dedup.over f ∧
    ((v.over f).beq (fun a b => decide (a = b)) (w.over f) = true ↔ v.beq (fun a b => decide (a = b)) w = true) := by
  constructor
  · have := dedupLoop_map f hf v.items none
    simp only [Option.map_none] at this
    simp only [dedup, items_over, this, fromIter_over]
  · rw [beq_iff (fun a b => by simp), beq_iff (fun a b => by simp)]
    constructor
    · intro h
      refine eq_of_skeleton v w ?_ ?_
      · rw [skeleton_eq, skeleton_eq]
        have := congrArg (over fun _ => ()) h
        simpa only [over_over, Function.comp_def] using this
      · have := congrArg abs h
        rw [abs_over, abs_over] at this
        exact (List.map_inj_right hf).1 this
    · rintro rfl; rfl

/-- Without the condition `dedup` and `==` see the difference. -/
example : ((fromIter [1, 2]).over (· * 0)).dedup.toVec = [0] ∧
    ((fromIter [1, 2]).dedup.over (· * 0)).toVec = [0, 0] := by decide

example : (((fromIter (List.range 100)).remove 70).map (over (· * 3))).map toVec =
    (((fromIter (List.range 100)).over (· * 3)).remove 70).map toVec ∧
    (((fromIter (List.range 100)).over (· * 3)).get 50) = some 150 := by decide +kernel

end PV

/-! ## Whole programs -/

/-- A call that moves elements about without a function of the caller; the numbers refer to earlier versions. -/
inductive Move (α : Type) where
  | new
  | unit (x : α)
  | fromIter (xs : List α)
  | pushBack (k : Nat) (x : α)
  | pushFront (k : Nat) (x : α)
  | extend (k : Nat) (xs : List α)
  | update (k i : Nat) (x : α)
  | concat (k l : Nat)
  | popBack (k : Nat)
  | popFront (k : Nat)
  | splitLeft (k i : Nat)
  | splitRight (k i : Nat)
  | take (k n : Nat)
  | skip (k n : Nat)
  | insert (k i : Nat) (x : α)
  | remove (k i : Nat)

namespace Move

/-- The same call with other elements. -/
def over (f : α → β) : Move α → Move β
  | .new => .new
  | .unit x => .unit (f x)
  | .fromIter xs => .fromIter (xs.map f)
  | .pushBack k x => .pushBack k (f x)
  | .pushFront k x => .pushFront k (f x)
  | .extend k xs => .extend k (xs.map f)
  | .update k i x => .update k i (f x)
  | .concat k l => .concat k l
  | .popBack k => .popBack k
  | .popFront k => .popFront k
  | .splitLeft k i => .splitLeft k i
  | .splitRight k i => .splitRight k i
  | .take k n => .take k n
  | .skip k n => .skip k n
  | .insert k i x => .insert k i (f x)
  | .remove k i => .remove k i

/-- Version number `k` (an empty vector if there is none). -/
def ver (pool : List (PV α)) (k : Nat) : PV α := pool[k]?.getD PV.new

/-- The vector a call makes; a call that answers `None` makes an empty one. -/
def exec (pool : List (PV α)) : Move α → PV α
  | .new => PV.new
  | .unit x => PV.unit x
  | .fromIter xs => PV.fromIter xs
  | .pushBack k x => (ver pool k).pushBack x
  | .pushFront k x => (ver pool k).pushFront x
  | .extend k xs => (ver pool k).extend xs
  | .update k i x => (ver pool k).update i x
  | .concat k l => (ver pool k).concat (ver pool l)
  | .popBack k => match (ver pool k).popBack with
    | some (w, _) => w
    | none => PV.new
  | .popFront k => match (ver pool k).popFront with
    | some (w, _) => w
    | none => PV.new
  | .splitLeft k i => ((ver pool k).splitAt i).1
  | .splitRight k i => ((ver pool k).splitAt i).2
  | .take k n => (ver pool k).take n
  | .skip k n => (ver pool k).skip n
  | .insert k i x => (ver pool k).insert i x
  | .remove k i => ((ver pool k).remove i).getD PV.new

/-- Run a program: each call adds a version. -/
def run (pool : List (PV α)) : List (Move α) → List (PV α)
  | [] => pool
  | m :: ms => run (pool ++ [exec pool m]) ms

theorem ver_over (f : α → β) (pool : List (PV α)) (k : Nat) :
    ver (pool.map (PV.over f)) k = (ver pool k).over f := by
  simp only [ver, List.getElem?_map]
  cases pool[k]? <;> rfl

theorem exec_over (f : α → β) (pool : List (PV α)) (m : Move α) :
    exec (pool.map (PV.over f)) (m.over f) = (exec pool m).over f := by
  cases m with
  | new => rfl
  | unit x => rfl
  | fromIter xs => exact PV.fromIter_over f xs
  | pushBack k x => simp [exec, over, ver_over, PV.pushBack_over]
  | pushFront k x => simp [exec, over, ver_over, PV.pushFront_over]
  | extend k xs => simp [exec, over, ver_over, PV.extend_over]
  | update k i x => simp [exec, over, ver_over, PV.update_over]
  | concat k l => simp [exec, over, ver_over, PV.concat_over]
  | popBack k =>
    simp only [exec, over, ver_over, PV.popBack_over]
    cases (ver pool k).popBack <;> rfl
  | popFront k =>
    simp only [exec, over, ver_over, PV.popFront_over]
    cases (ver pool k).popFront <;> rfl
  | splitLeft k i => simp [exec, over, ver_over, PV.splitAt_over]
  | splitRight k i => simp [exec, over, ver_over, PV.splitAt_over]
  | take k n => simp [exec, over, ver_over, PV.take_over]
  | skip k n => simp [exec, over, ver_over, PV.skip_over]
  | insert k i x => simp [exec, over, ver_over, PV.insert_over]
  | remove k i =>
    simp only [exec, over, ver_over, PV.remove_over]
    cases (ver pool k).remove i <;> rfl

/-- Whole programs: running a program with the elements replaced gives, version by version, the vectors of the
original run with the elements replaced. -/
theorem programs_over (f : α → β) (ms : List (Move α)) : ∀ pool : List (PV α),
    run (pool.map (PV.over f)) (ms.map (over f)) = (run pool ms).map (PV.over f) := by
  induction ms with
  | nil => intro pool; rfl
  | cons m ms ih =>
    intro pool
    simp only [List.map_cons, run, exec_over]
    have := ih (pool ++ [exec pool m])
    simpa using this

/-- C04: a run with distinct labels tells everything.  If the elements of a program are `label 0, label 1, ...` then every
version it makes is the version that the program makes with the numbers `0, 1, ...`, read through `label`. -/
theorem c04_labels (label : Nat → α) (ms : List (Move Nat)) (k : Nat) :
    (ver (run [] (ms.map (over label))) k).toVec = (ver (run [] ms) k).toVec.map label := by
  have h := programs_over label ms []
  simp only [List.map_nil] at h
  rw [h, ver_over]
  exact PV.items_over _ _

/-- C10: the layout, heights, lengths and counters of every version depend on the program only, not on the elements (which
may even have different types in the two runs). -/
theorem c10_layout (ms : List (Move α)) (ns : List (Move β))
    (h : ms.map (over fun _ => ()) = ns.map (over fun _ => ())) (k : Nat) :
    (ver (run [] ms) k).skeleton = (ver (run [] ns) k).skeleton := by
  have h1 := programs_over (fun _ : α => ()) ms []
  have h2 := programs_over (fun _ : β => ()) ns []
  simp only [List.map_nil] at h1 h2
  rw [PV.skeleton_eq, PV.skeleton_eq, ← ver_over, ← ver_over, ← h1, ← h2, h]

/-- C10 for runs of the same program: when the versions number `k` of two runs of one program with different elements are
intact, they are `==` exactly when their contents are. -/
theorem c10_same_program_partial {eq : α → α → Bool} (heq : LawfulEq eq) (ms ns : List (Move α))
    (h : ms.map (over fun _ => ()) = ns.map (over fun _ => ())) (k : Nat)
    (hv : Intact (ver (run [] ms) k)) (hw : Intact (ver (run [] ns) k)) :
    PV.EqCorrect eq (ver (run [] ms) k) (ver (run [] ns) k) :=
  PV.c10_same_layout_partial heq hv hw (c10_layout ms ns h k)

/-- A program used as an example: collect, split, push at both ends, join. -/
def sample (f : Nat → Nat) : List (Move Nat) :=
  [.fromIter ((List.range 100).map f), .splitLeft 0 80, .pushFront 1 (f 200), .pushBack 2 (f 300), .concat 3 1]

example : (sample id).map (over fun _ => ()) = (sample (· + 5)).map (over fun _ => ()) ∧
    (ver (run [] (sample id)) 4).toVec ≠ (ver (run [] (sample (· + 5))) 4).toVec ∧
    Intact (ver (run [] (sample id)) 4) ∧ Intact (ver (run [] (sample (· + 5))) 4) ∧
    (ver (run [] (sample (· + 5))) 4).toVec = (ver (run [] (sample id)) 4).toVec.map (· + 5) :=
  ⟨by rfl, by decide +kernel, PV.intact_of_test (by decide +kernel), PV.intact_of_test (by decide +kernel),
    by decide +kernel⟩

example : (ver (run [] (sample id)) 4).skeleton = (ver (run [] (sample (· + 5))) 4).skeleton :=
  c10_layout _ _ (by rfl) 4

end Move
end Rustica.PVec
