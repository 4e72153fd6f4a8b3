import Verif.Spec.Asking
import Verif.Calls.Model

/-!
# C106: a predicate put together from others asks each of them at most once
-/

namespace Rustica
open Act (ret)
open Spec

namespace Asking
variable {ι A : Type}

/-- A part that writes down that it is asked. -/
def asks (yes : ι → A → Bool) (i : ι) : PredicateE (List ι) A := ⟨fun a w => (.ok (yes i a), w ++ [i])⟩

/-- The expression, put together with the methods of `Predicate` from any parts. -/
def build {σ : Type} (parts : ι → PredicateE σ A) : SetExp ι → PredicateE σ A
  | .part i => parts i
  | .none => .empty
  | .union p q => (build parts p).union (build parts q)
  | .intersection p q => (build parts p).intersection (build parts q)
  | .diff p q => (build parts p).diff (build parts q)
  | .negate p => (build parts p).negate

/-- C106, exactly: `contains` asks just the parts that `||`, `&&` and `!` need from left to right, and gives their answer. -/
theorem c106_exact (yes : ι → A → Bool) (p : SetExp ι) (a : A) :
    ∀ w, (build (asks yes) p).contains a w = (.ok (p.holds (yes · a)), w ++ p.asked (yes · a)) := by
  induction p with
  | part i => intro w; rfl
  | none => intro w; simp [build, PredicateE.contains, PredicateE.empty, ret, SetExp.holds, SetExp.asked]
  | union p q hp hq =>
    intro w
    simp only [PredicateE.contains] at hp hq
    simp only [build, PredicateE.contains, PredicateE.union, PredicateE.orElse, Act.seq, hp, SetExp.holds, SetExp.asked]
    cases p.holds (yes · a) <;> simp [ret, hq]
  | intersection p q hp hq =>
    intro w
    simp only [PredicateE.contains] at hp hq
    simp only [build, PredicateE.contains, PredicateE.intersection, PredicateE.andAlso, Act.seq, hp, SetExp.holds, SetExp.asked]
    cases p.holds (yes · a) <;> simp [ret, hq]
  | diff p q hp hq =>
    intro w
    simp only [PredicateE.contains] at hp hq
    simp only [build, PredicateE.contains, PredicateE.diff, PredicateE.andAlso, Act.seq, hp, SetExp.holds, SetExp.asked]
    cases p.holds (yes · a) <;> simp [ret, Act.seq, hq]
  | negate p hp =>
    intro w
    simp only [PredicateE.contains] at hp
    simp only [build, PredicateE.contains, PredicateE.negate, Act.seq, hp, SetExp.holds, SetExp.asked, ret]

/-- The parts that are asked are some of those that are written, in the same order. -/
theorem asked_sublist (yes : ι → Bool) (p : SetExp ι) : (p.asked yes).Sublist p.parts := by
  induction p with
  | part i => exact List.Sublist.refl _
  | none => exact List.Sublist.refl _
  | negate p hp => exact hp
  | union p q hp hq =>
    simp only [SetExp.asked, SetExp.parts]
    cases p.holds yes with
    | true => simpa using hp.trans (List.sublist_append_left _ _)
    | false => exact hp.append hq
  | intersection p q hp hq =>
    simp only [SetExp.asked, SetExp.parts]
    cases p.holds yes with
    | false => simpa using hp.trans (List.sublist_append_left _ _)
    | true => exact hp.append hq
  | diff p q hp hq =>
    simp only [SetExp.asked, SetExp.parts]
    cases p.holds yes with
    | false => simpa using hp.trans (List.sublist_append_left _ _)
    | true => exact hp.append hq

/-- C106: each part is asked at most as often as it is written, in the order in which the parts are written. -/
theorem c106_once (yes : ι → A → Bool) (p : SetExp ι) (a : A) :
    ∃ is, is.Sublist p.parts ∧ (build (asks yes) p).contains a [] = (.ok (p.holds (yes · a)), is) :=
  ⟨_, asked_sublist _ p, by simpa using c106_exact yes p a []⟩

/-- C106, a consequence: if the parts have different names, no part is asked twice. -/
theorem c106_distinct (yes : ι → A → Bool) {p : SetExp ι} (h : p.parts.Nodup) (a : A) :
    ((build (asks yes) p).contains a []).2.Nodup := by
  rw [c106_exact]
  simpa using (asked_sublist _ p).nodup h

/-- Meets the hypothesis: `(0 | 1) - 2`, asked of something that only `0` accepts. -/
example : (SetExp.diff (.union (.part 0) (.part 1)) (.part 2)).parts.Nodup ∧
    (build (asks fun (i : Nat) (_ : String) => i == 0) (.diff (.union (.part 0) (.part 1)) (.part 2))).contains "a" [] =
      (.ok true, [0, 2]) := ⟨by decide, rfl⟩

/-- C106: with a `union` of a list of predicates the asking stops at the first that says yes. -/
theorem c106_union_all (yes : ι → A → Bool) (before after : List ι) (i : ι) (a : A) (hb : ∀ j ∈ before, yes j a = false)
    (hi : yes i a = true) :
    (build (asks yes) (.unionAll (before ++ i :: after))).contains a [] = (.ok true, before ++ [i]) := by
  rw [c106_exact]
  have h : ∀ before : List ι, (∀ j ∈ before, yes j a = false) →
      (SetExp.unionAll (before ++ i :: after)).holds (yes · a) = true ∧
      (SetExp.unionAll (before ++ i :: after)).asked (yes · a) = before ++ [i] := by
    intro before
    induction before with
    | nil => intro _; simp [SetExp.unionAll, SetExp.holds, SetExp.asked, hi]
    | cons j js ih =>
      intro hj
      have := ih fun k hk => hj k (by simp [hk])
      simp [SetExp.unionAll, SetExp.holds, SetExp.asked, hj j (by simp), this.1, this.2]
  simp [(h before hb).1, (h before hb).2]

/-- Meets the hypotheses. -/
example : (build (asks fun (i : Nat) (n : Nat) => i == n) (.unionAll ([0, 1] ++ 2 :: [3, 4]))).contains 2 [] =
    (.ok true, [0, 1, 2]) := c106_union_all _ [0, 1] [3, 4] 2 2 (by decide) rfl

/-- C106: and if none says yes, all are asked. -/
theorem c106_union_none (yes : ι → A → Bool) (is : List ι) (a : A) (h : ∀ j ∈ is, yes j a = false) :
    (build (asks yes) (.unionAll is)).contains a [] = (.ok false, is) := by
  rw [c106_exact]
  have h' : (SetExp.unionAll is).holds (yes · a) = false ∧ (SetExp.unionAll is).asked (yes · a) = is := by
    induction is with
    | nil => exact ⟨rfl, rfl⟩
    | cons j js ih =>
      have := ih fun k hk => h k (by simp [hk])
      simp [SetExp.unionAll, SetExp.holds, SetExp.asked, h j (by simp), this.1, this.2]
  simp [h'.1, h'.2]

/-- Meets the hypothesis. -/
example : (build (asks fun (i : Nat) (n : Nat) => i == n) (.unionAll [0, 1])).contains 2 [] = (.ok false, [0, 1]) :=
  c106_union_none _ [0, 1] 2 (by decide)

/-- C106 with panics: a part that panics when asked does no harm if it is not among the parts that are asked. -/
theorem c106_not_asked [DecidableEq ι] (yes : ι → A → Bool) (p : SetExp ι) (a : A) (bad : ι)
    (h : bad ∉ p.asked (yes · a)) (f : A → Act (List ι) Bool) :
    ∀ w, (build (fun i => if i = bad then ⟨f⟩ else asks yes i) p).contains a w =
      (.ok (p.holds (yes · a)), w ++ p.asked (yes · a)) := by
  induction p with
  | part i =>
    intro w
    have hi : ¬ i = bad := fun e => h (by simp [SetExp.asked, e])
    simp only [build, if_neg hi]
    rfl
  | none => intro w; simp [build, PredicateE.contains, PredicateE.empty, ret, SetExp.holds, SetExp.asked]
  | union p q hp hq =>
    intro w
    simp only [PredicateE.contains] at hp hq
    simp only [SetExp.asked] at h
    have hp := hp fun m => h (List.mem_append_left _ m)
    simp only [build, PredicateE.contains, PredicateE.union, PredicateE.orElse, Act.seq, hp, SetExp.holds, SetExp.asked]
    cases hc : p.holds (yes · a) with
    | true => simp [ret]
    | false =>
      have hq := hq fun m => h (List.mem_append_right _ (by simpa [hc] using m))
      simp [hq]
  | intersection p q hp hq =>
    intro w
    simp only [PredicateE.contains] at hp hq
    simp only [SetExp.asked] at h
    have hp := hp fun m => h (List.mem_append_left _ m)
    simp only [build, PredicateE.contains, PredicateE.intersection, PredicateE.andAlso, Act.seq, hp, SetExp.holds, SetExp.asked]
    cases hc : p.holds (yes · a) with
    | false => simp [ret]
    | true =>
      have hq := hq fun m => h (List.mem_append_right _ (by simpa [hc] using m))
      simp [hq]
  | diff p q hp hq =>
    intro w
    simp only [PredicateE.contains] at hp hq
    simp only [SetExp.asked] at h
    have hp := hp fun m => h (List.mem_append_left _ m)
    simp only [build, PredicateE.contains, PredicateE.diff, PredicateE.andAlso, Act.seq, hp, SetExp.holds, SetExp.asked]
    cases hc : p.holds (yes · a) with
    | false => simp [ret]
    | true =>
      have hq := hq fun m => h (List.mem_append_right _ (by simpa [hc] using m))
      simp [ret, Act.seq, hq]
  | negate p hp =>
    intro w
    simp only [PredicateE.contains] at hp
    simp only [build, PredicateE.contains, PredicateE.negate, Act.seq, hp h, SetExp.holds, SetExp.asked, ret]

/-- Meets the hypothesis: part `1` panics, and is not asked because part `0` says yes. -/
example : (build (fun i => if i = 1 then ⟨fun _ w => (.error .other, w)⟩ else asks (fun _ (_ : Nat) => true) i)
    (.union (.part 0) (.part 1))).contains 5 [] = (.ok true, [0]) :=
  c106_not_asked _ _ _ 1 (by decide) _ []

end Asking
end Rustica
