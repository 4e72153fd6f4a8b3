import Verif.PVec.CoreLemmas

/-!
# Which vectors can client code obtain?

* `Reach`: through any sequence of API calls.
* `Sound`: through any sequence of API calls except `pop_front`, `insert` /
  `remove` in the middle, and `pop_back`/`split_at`/`take`/`skip` on a vector
  that has been through `push_front` or `concat`.
* `Tame`: `Sound` without `push_front` and `concat` (a vector that is rebuilt by
  `map`, `filter`, ... counts as new, and a vector that still has the inline
  representation, i.e. was never larger than 64 elements, is always included).

The classes only mention public operations.
-/

namespace Rustica.PVec

mutual
/-- Vectors built by constructors, rebuilding operations, `push_back`, `extend`,
`update`, `pop_back`, `split_at`, `take` and `skip`. -/
inductive Tame : {α : Type} → PV α → Prop where
  | new {α : Type} : Tame (PV.new : PV α)
  | unit {α : Type} (x : α) : Tame (PV.unit x)
  | fromIter {α : Type} (xs : List α) : Tame (PV.fromIter xs)
  | pushBack {α : Type} {v : PV α} (x : α) : Tame v → Tame (v.pushBack x)
  | extend {α : Type} {v : PV α} (xs : List α) : Tame v → Tame (v.extend xs)
  | update {α : Type} {v : PV α} (i : Nat) (x : α) : Tame v → Tame (v.update i x)
  | popBack {α : Type} {v w : PV α} {x : α} : Tame v → v.popBack = some (w, x) → Tame w
  | splitLeft {α : Type} {v : PV α} (i : Nat) : Tame v → Tame (v.splitAt i).1
  | splitRight {α : Type} {v : PV α} (i : Nat) : Tame v → Tame (v.splitAt i).2
  | take {α : Type} {v : PV α} (n : Nat) : Tame v → Tame (v.take n)
  | skip {α : Type} {v : PV α} (n : Nat) : Tame v → Tame (v.skip n)
  | map {α β : Type} {v : PV α} (f : α → β) : Sound v → Tame (v.map f)
  | filter {α : Type} {v : PV α} (p : α → Bool) : Sound v → Tame (v.filter p)
  | filterMap {α β : Type} {v : PV α} (f : α → Option β) : Sound v → Tame (v.filterMap f)
  | flatMap {α β : Type} {v : PV α} (f : α → List β) : Sound v → Tame (v.flatMap f)
  | dedup {α : Type} [DecidableEq α] {v : PV α} : Sound v → Tame v.dedup
  | sorted {α : Type} {v : PV α} (le : α → α → Bool) : Sound v → Tame (v.sorted le)
  | zip {α β : Type} {v : PV α} {w : PV β} : Sound v → Sound w → Tame (v.zip w)
  | partitionTrue {α : Type} {v : PV α} (p : α → Bool) : Sound v → Tame (v.partition p).1
  | partitionFalse {α : Type} {v : PV α} (p : α → Bool) : Sound v → Tame (v.partition p).2
  | chunk {α : Type} {v : PV α} (n : Nat) : Sound v → Tame (v.chunk n)
  | chunkItem {α : Type} {v w : PV α} (n i : Nat) : Sound v → (v.chunk n).get i = some w → Tame w
  | small {α : Type} {v : PV α} : Sound v → v.isTree = false → Tame v
  | popFrontSmall {α : Type} {v w : PV α} {x : α} : Sound v → v.isTree = false →
      v.popFront = some (w, x) → Tame w
/-- `Tame` vectors, further grown by `push_front`, `push_back`, `extend`, `update`
and `concat`. -/
inductive Sound : {α : Type} → PV α → Prop where
  | tame {α : Type} {v : PV α} : Tame v → Sound v
  | pushBack {α : Type} {v : PV α} (x : α) : Sound v → Sound (v.pushBack x)
  | pushFront {α : Type} {v : PV α} (x : α) : Sound v → Sound (v.pushFront x)
  | extend {α : Type} {v : PV α} (xs : List α) : Sound v → Sound (v.extend xs)
  | update {α : Type} {v : PV α} (i : Nat) (x : α) : Sound v → Sound (v.update i x)
  | concat {α : Type} {v w : PV α} : Sound v → Sound w → Sound (v.concat w)
end

/-- Vectors obtainable through any sequence of calls of the operations that return
vectors with the same element type. -/
inductive Reach {α : Type} : PV α → Prop where
  | new : Reach PV.new
  | unit (x : α) : Reach (PV.unit x)
  | fromIter (xs : List α) : Reach (PV.fromIter xs)
  | pushBack {v : PV α} (x : α) : Reach v → Reach (v.pushBack x)
  | pushFront {v : PV α} (x : α) : Reach v → Reach (v.pushFront x)
  | extend {v : PV α} (xs : List α) : Reach v → Reach (v.extend xs)
  | update {v : PV α} (i : Nat) (x : α) : Reach v → Reach (v.update i x)
  | concat {v w : PV α} : Reach v → Reach w → Reach (v.concat w)
  | popBack {v w : PV α} {x : α} : Reach v → v.popBack = some (w, x) → Reach w
  | popFront {v w : PV α} {x : α} : Reach v → v.popFront = some (w, x) → Reach w
  | splitLeft {v : PV α} (i : Nat) : Reach v → Reach (v.splitAt i).1
  | splitRight {v : PV α} (i : Nat) : Reach v → Reach (v.splitAt i).2
  | take {v : PV α} (n : Nat) : Reach v → Reach (v.take n)
  | skip {v : PV α} (n : Nat) : Reach v → Reach (v.skip n)
  | insert {v : PV α} (i : Nat) (x : α) : Reach v → Reach (v.insert i x)
  | remove {v w : PV α} (i : Nat) : Reach v → v.remove i = some w → Reach w

theorem chunk_stack {α : Type} {v : PV α} (n : Nat) {i : Nat} {w : PV α}
    (h : (v.chunk n).get i = some w) : w.Stack := by
  unfold PV.chunk at h
  split at h
  · simp [PV.new, PV.get] at h
  · obtain ⟨h1, h2, _⟩ := PV.fromIter_spec ((chunks n v.items).map PV.fromIter)
    rw [PV.get_eq h1, h2] at h
    have hm := List.mem_of_getElem? h
    obtain ⟨c, _, rfl⟩ := List.mem_map.1 hm
    exact PV.stack_fromIter c

theorem popFront_small_stack {α : Type} {v w : PV α} {x : α} (hw : v.WF) (hs : v.isTree = false)
    (hp : v.popFront = some (w, x)) : w.Stack := by
  unfold PV.WF at hw; unfold PV.isTree at hs; unfold PV.popFront at hp
  split at hp
  · cases hp
  · split at hw
    · rename_i es he
      rw [he] at hp
      cases es with
      | nil => cases hp
      | cons e es =>
        simp only [Option.some.injEq, Prod.mk.injEq] at hp
        obtain ⟨rfl, _⟩ := hp
        have := hw.2
        simp only [List.length_cons] at this
        exact ⟨by simp [hw.1], by omega⟩
    · rename_i t ht; rw [ht] at hs; simp at hs

mutual
/-- Every `Tame` vector satisfies the strong invariant. -/
theorem Tame.stack {α : Type} {v : PV α} (h : Tame v) : v.Stack :=
  match h with
  | .new => PV.stack_new
  | .unit x => PV.stack_unit x
  | .fromIter xs => PV.stack_fromIter xs
  | .pushBack x h => (Tame.stack h).pushBack x
  | .extend xs h => (Tame.stack h).extend xs
  | .update i x h => (Tame.stack h).update i x
  | .popBack h hp => by
      rcases (Tame.stack h).popBack with ⟨_, hn⟩ | ⟨w, x, hs, hst, _⟩
      · rw [hn] at hp; cases hp
      · rw [hs] at hp; cases hp; exact hst
  | .splitLeft i h => ((Tame.stack h).splitAt i).1
  | .splitRight i h => ((Tame.stack h).splitAt i).2.1
  | .take n h => ((Tame.stack h).take n).1
  | .skip n h => ((Tame.stack h).skip n).1
  | .map _ _ => PV.stack_fromIter _
  | .filter _ _ => PV.stack_fromIter _
  | .filterMap _ _ => PV.stack_fromIter _
  | .flatMap _ _ => PV.stack_fromIter _
  | @Tame.dedup _ _ _ _ => PV.stack_fromIter _
  | .sorted _ _ => PV.stack_fromIter _
  | .zip _ _ => PV.stack_fromIter _
  | .partitionTrue _ _ => PV.stack_fromIter _
  | .partitionFalse _ _ => PV.stack_fromIter _
  | .chunk n _ => by
      unfold PV.chunk; split
      · exact PV.stack_new
      · exact PV.stack_fromIter _
  | .chunkItem n _ _ hg => chunk_stack n hg
  | .small h hs => by
      have hw := Sound.wf h
      unfold PV.WF at hw; unfold PV.isTree at hs; unfold PV.Stack
      split at hw
      · rename_i es he; rw [he]; exact hw
      · rename_i t ht; rw [ht] at hs; simp at hs
  | .popFrontSmall h hs hp => by
      have hw := Sound.wf h
      exact popFront_small_stack hw hs hp
/-- Every `Sound` vector is well-formed. -/
theorem Sound.wf {α : Type} {v : PV α} (h : Sound v) : v.WF :=
  match h with
  | .tame h => (Tame.stack h).wf
  | .pushBack x h => (PV.pushBack_spec (Sound.wf h) x).1
  | .pushFront x h => (PV.pushFront_spec (Sound.wf h) x).1
  | .extend xs h => (PV.extend_spec (Sound.wf h) xs).1
  | .update i x h => (PV.update_spec (Sound.wf h) i x).1
  | .concat h1 h2 => (PV.concat_spec (Sound.wf h1) (Sound.wf h2)).1
end

end Rustica.PVec
