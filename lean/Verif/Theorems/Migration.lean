import Verif.Examples.Migration
import Verif.Theorems.Access
import Verif.Theorems.Access2
import Verif.Theorems.Choice
import Verif.Theorems.Monad
import Verif.Error.Convert
import Verif.Error.Types
import Mathlib.Data.List.Sort

/-!
# C80: the deprecated methods and their documented replacements

For each deprecated method: either it agrees with its replacement on every input, or the exact condition under which
it does, with an input where it does not.
-/

namespace Rustica.Migration
variable {T U K I A B : Type}
open Choice

/-- `to_vec` of a collected `Choice`. -/
theorem toVec_ofMany (xs : List T) : (ofMany xs).toVec = xs := by
  cases xs <;> rfl

theorem ext_toVec {c d : Choice T} (h : c.toVec = d.toVec) : c = d := by
  cases c; cases d; cases h; rfl

/-! ## Replacements that always agree -/

/-- C80: the queries are what the guide writes in their place. -/
theorem c80_queries (c : Choice T) (p : T → Bool) (init : B) (f : B → T → B) :
    c.hasAlternatives = !c.alternatives.isEmpty ∧ c.findFirst p = c.toVec.find? p ∧
    c.iterAlternatives = c.alternatives ∧ c.fold init f = RFoldable.foldLeft c init f := by
  refine ⟨?_, rfl, ?_, rfl⟩
  · obtain ⟨_ | ⟨v, _ | ⟨w, ws⟩⟩⟩ := c <;> simp [hasAlternatives, alternatives]
  · rw [alternatives_eq]; rfl

/-- C80: the deprecation note of `has_alternatives` says to use `alternatives().is_empty()`, which is always the
opposite. -/
theorem c80_has_alternatives_false :
    (¬ ∀ c : Choice Nat, c.hasAlternatives = c.alternatives.isEmpty) ∧
    ∀ (T : Type) (c : Choice T), c.hasAlternatives ≠ c.alternatives.isEmpty := by
  have h : ∀ (T : Type) (c : Choice T), c.hasAlternatives ≠ c.alternatives.isEmpty := fun T c he => by
    have := (c80_queries c (fun _ => true) () (fun _ _ => ())).1
    rw [he] at this
    cases h : c.alternatives.isEmpty <;> simp [h] at this
  exact ⟨fun hh => h Nat newEmpty (hh newEmpty), h⟩

theorem filterSeen_loop [DecidableEq K] (key : T → K) (xs : List T) (seen seen' : List K) (out : List T)
    (hs : ∀ k, k ∈ seen ↔ k ∈ seen') :
    (xs.foldl (fun (st : List K × List T) x =>
      if key x ∈ st.1 then st else (st.1 ++ [key x], st.2 ++ [x])) (seen, out)).2 =
      out ++ dedupLoop key xs seen' := by
  induction xs generalizing seen seen' out with
  | nil => simp [dedupLoop]
  | cons x xs ih =>
    rw [List.foldl_cons]
    unfold dedupLoop
    by_cases hx : key x ∈ seen
    · rw [if_pos ((hs _).1 hx), show (if key x ∈ seen then (seen, out) else _) = (seen, out) from if_pos hx]
      exact ih seen seen' out hs
    · rw [if_neg (fun h => hx ((hs _).2 h))]
      show (xs.foldl _ (if key x ∈ seen then (seen, out) else (seen ++ [key x], out ++ [x]))).2 = _
      rw [if_neg hx, ih (seen ++ [key x]) (key x :: seen') (out ++ [x])]
      · simp
      · intro k; simp [hs k, or_comm]

/-- C80: `dedup_by_key` and `dedup` keep what the filter with a hash set keeps. -/
theorem c80_dedup [DecidableEq K] (c : Choice T) (key : T → K) :
    c.dedupByKey key = unique c key ∧ (∀ [DecidableEq T], c.dedup = unique c fun v => v) := by
  have h : ∀ {K : Type} [DecidableEq K] (key : T → K), c.dedupByKey key = unique c key := fun key => by
    have e : (unique c key).toVec = dedupLoop key c.values [] := by
      rw [unique, toVec_ofMany]
      exact (filterSeen_loop key c.values [] [] [] (fun _ => Iff.rfl)).trans (List.nil_append _)
    refine ext_toVec (Eq.trans ?_ e.symm)
    unfold dedupByKey
    obtain ⟨_ | ⟨v, vs⟩⟩ := c <;> rfl
  exact ⟨h key, fun {_} => (h (fun v => v)).symm ▸ rfl⟩

theorem orInsert_eq [DecidableEq K] (map : List (K × T)) (k : K) (x : T) :
    orInsert map k x = if map.any (fun p => p.1 = k) then map else map ++ [(k, x)] := by
  unfold orInsert
  cases h : map.find? (fun p => p.1 = k) with
  | some p =>
    have := List.find?_some h
    rw [if_pos (List.any_eq_true.2 ⟨p, List.mem_of_find?_eq_some h, this⟩)]
  | none =>
    rw [if_neg]
    intro ha
    obtain ⟨p, hp, hk⟩ := List.any_eq_true.1 ha
    exact absurd hk (by simpa using List.find?_eq_none.1 h p hp)

/-- C80: `to_map_with_key` is the fold with `entry(…).or_insert(…)` of the guide. -/
theorem c80_map_keep_first [DecidableEq K] (c : Choice T) (key : T → K) :
    c.toMapWithKey key = mapKeepFirst c key := by
  unfold toMapWithKey mapKeepFirst
  simp only [orInsert_eq]
  rfl

/-- C80: adding alternatives is combining with the `Choice` of them, for every list; for a nonempty one also with
`Choice::new`, as the guide writes. -/
theorem c80_add (c : Choice T) (items : List T) (x : T) :
    c.addAlternatives items = RSemigroup.combine c (ofMany items) ∧
    c.addAlternatives (x :: items) = RSemigroup.combine c (Choice.new x items) := by
  have h : ∀ items : List T, c.addAlternatives items = RSemigroup.combine c (ofMany items) := fun items =>
    ext_toVec (by rw [(c50_changes c x items (fun _ => true) id id (ofMany items)).2.1, toVec_ofMany]; rfl)
  refine ⟨h items, (h (x :: items)).trans rfl⟩

theorem zipIdx_filter_ne (xs : List T) (k j : Nat) :
    ((xs.zipIdx k).filter (fun p => p.2 ≠ j)).map (·.1) = if k ≤ j then xs.eraseIdx (j - k) else xs := by
  induction xs generalizing k with
  | nil => simp
  | cons x xs ih =>
    rw [List.zipIdx_cons, List.filter_cons]
    by_cases hk : k = j
    · subst hk
      rw [if_neg (by simp), ih (k + 1), if_neg (by omega), if_pos (Nat.le_refl _), Nat.sub_self]
      rfl
    · rw [if_pos (by simpa using hk), List.map_cons, ih (k + 1)]
      by_cases h : k ≤ j
      · rw [if_pos (by omega), if_pos h, show j - k = (j - (k + 1)) + 1 by omega]
        rfl
      · rw [if_neg (by omega), if_neg h]

/-- C80: leaving out position `i + 1` while enumerating is `remove_alternative(i)` wherever that does not panic; where it
panics the replacement returns the `Choice` as it is. -/
theorem c80_remove_index (c : Choice T) (i : Nat) :
    (i < c.alternatives.length → c.removeAlternative i = .ok (removeIndex c (i + 1)) ∧
      c.tryRemoveAlternative i = .ok (removeIndex c (i + 1))) ∧
    (¬ i < c.alternatives.length → (∃ e, c.removeAlternative i = .error e) ∧
      (∃ e, c.tryRemoveAlternative i = .error e) ∧ removeIndex c (i + 1) = c) := by
  have hal : c.alternatives.length = c.values.length - 1 := by rw [alternatives_eq]; simp
  have hr : removeIndex c (i + 1) = ⟨c.values.eraseIdx (i + 1)⟩ := by
    refine ext_toVec ?_
    rw [removeIndex, toVec_ofMany, toVec, zipIdx_filter_ne, if_pos (Nat.zero_le _)]
    rfl
  refine ⟨fun h => ?_, fun h => ⟨(c50_remove c i).1.2 h, (c50_remove c i).2.1.2 h, ?_⟩⟩
  · rw [hr]
    unfold removeAlternative tryRemoveAlternative
    rw [if_neg (by omega), if_neg (by omega), if_neg (by omega), if_neg (by omega)]
    exact ⟨rfl, rfl⟩
  · rw [hr, List.eraseIdx_of_length_le (by omega)]

/-- C80: draining `bind_lazy` is `iter().flat_map(…)`. -/
theorem c80_bind_lazy (c : Choice T) (f : T → Choice U) : c.bindLazy f = flatMapIter c f := rfl

/-! ## Replacements that agree under a condition -/

theorem find?_foldl_insert [DecidableEq K] (ps : List (K × T)) (map : List (K × T)) (k : K) :
    (ps.foldl (fun map p => insert map p.1 p.2) map).find? (fun p => p.1 = k) =
      (ps.reverse.find? fun p => p.1 = k).or (map.find? fun p => p.1 = k) := by
  induction ps generalizing map with
  | nil => rfl
  | cons p ps ih =>
    rw [List.foldl_cons, ih, List.reverse_cons, List.find?_append, Option.or_assoc]
    congr 1
    unfold insert
    rw [List.find?_append, List.find?_filter]
    by_cases h : p.1 = k
    · have : map.find? (fun a => decide (decide (a.1 ≠ p.1) = true ∧ decide (a.1 = k) = true)) = none := by
        rw [List.find?_eq_none]; intro x _; simp [h]
      rw [this]
      subst h
      simp
    · have : (fun a : K × T => decide (decide (a.1 ≠ p.1) = true ∧ decide (a.1 = k) = true)) = fun a => decide (a.1 = k) := by
        funext a
        by_cases ha : a.1 = k
        · simp [ha, Ne.symm h]
        · simp [ha]
      rw [this]
      simp [h]

/-- C80: what a key maps to after `iter().map(…).collect()` is the last value with that key; `to_map_with_key` keeps the
first.  So the two agree exactly when every key's first and last values are the same. -/
theorem c80_map_collect_iff [DecidableEq K] (c : Choice T) (key : T → K) :
    (∀ k, ((mapCollect c key).find? (fun p => p.1 = k)).map (·.2) = c.toVec.reverse.find? (fun x => key x = k)) ∧
    ((∀ k, ((mapCollect c key).find? (fun p => p.1 = k)).map (·.2) =
        ((c.toMapWithKey key).find? (fun p => p.1 = k)).map (·.2)) ↔
      ∀ k, c.toVec.find? (fun x => key x = k) = c.toVec.reverse.find? (fun x => key x = k)) := by
  have h : ∀ k, ((mapCollect c key).find? (fun p => p.1 = k)).map (·.2) =
      c.toVec.reverse.find? (fun x => key x = k) := fun k => by
    rw [mapCollect, find?_foldl_insert, ← List.map_reverse, List.find?_map]
    simp only [List.find?_nil, Option.or_none, Option.map_map]
    exact Option.map_id'
  refine ⟨h, forall_congr' fun k => ?_⟩
  rw [h, (c65_map_with_key c key).1 k]
  exact eq_comm

/-- C80: the example of the guide (`MIGRATION` 660-673) shows the difference: parity 0 of `[1, 2, 3, 2, 4]` maps to 2
before and to 4 after. -/
theorem c80_map_collect_false :
    ¬ ∀ (c : Choice Nat) (k : Nat), ((mapCollect c (· % 2)).find? (fun p => p.1 = k)).map (·.2) =
        ((c.toMapWithKey (· % 2)).find? (fun p => p.1 = k)).map (·.2) :=
  fun h => absurd (h (Choice.new 1 [2, 3, 2, 4]) 0) (by decide)

example : ∀ k, (Choice.new 1 [2, 1]).toVec.find? (fun x => x = k) =
    (Choice.new 1 [2, 1]).toVec.reverse.find? (fun x => x = k) := by
  intro k; simp [Choice.new, toVec, List.find?]

/-- C80: removing by value gives what removing by position gives exactly when the value occurs only there. -/
theorem c80_remove_value_iff [DecidableEq T] (c : Choice T) (i : Nat) (x : T) (h : c.alternatives[i]? = some x) :
    c.removeAlternative i = .ok (removeValue c x) ↔ c.toVec.count x = 1 := by
  have hi : i < c.alternatives.length := (List.getElem?_eq_some_iff.1 h).1
  have hal : c.alternatives.length = c.values.length - 1 := by rw [alternatives_eq]; simp
  have hx : c.values[i + 1]? = some x := by
    rw [alternatives_eq, List.getElem?_drop] at h
    rwa [Nat.add_comm]
  have hv : (removeValue c x).values = c.values.filter (fun y => y ≠ x) :=
    (c50_changes c x [] (fun y => y ≠ x) id id c).2.2.2.1
  have hr : c.removeAlternative i = .ok ⟨c.values.eraseIdx (i + 1)⟩ := by
    unfold removeAlternative
    rw [if_neg (by omega), if_neg (by omega)]
  have key : c.values.eraseIdx (i + 1) = c.values.filter (fun y => y ≠ x) ↔ c.values.count x = 1 := by
    obtain ⟨hlt, hget⟩ := List.getElem?_eq_some_iff.1 hx
    have hsplit : c.values = c.values.take (i + 1) ++ x :: c.values.drop (i + 2) := by
      conv_lhs => rw [← List.take_append_drop (i + 1) c.values, List.drop_eq_getElem_cons hlt, hget]
    have herase : c.values.eraseIdx (i + 1) = c.values.take (i + 1) ++ c.values.drop (i + 2) :=
      List.eraseIdx_eq_take_drop_succ _ _
    constructor
    · intro he
      have h1 : (c.values.eraseIdx (i + 1)).length = c.values.length - 1 := by
        rw [List.length_eraseIdx_of_lt hlt]
      rw [he] at h1
      have h2 : c.values.length = c.values.countP (fun y => y ≠ x) + c.values.countP (fun y => ¬ decide (y ≠ x) = true) :=
        List.length_eq_countP_add_countP _
      have h3 : c.values.countP (fun y => ¬ decide (y ≠ x) = true) = c.values.count x := by
        rw [List.count]
        congr 1
        funext y
        by_cases hy : y = x <;> simp [hy]
      rw [← List.countP_eq_length_filter] at h1
      omega
    · intro hc
      rw [herase]
      have hc' := hc
      rw [hsplit, List.count_append, List.count_cons_self] at hc'
      have n1 : x ∉ c.values.take (i + 1) := List.count_eq_zero.1 (by omega)
      have n2 : x ∉ c.values.drop (i + 2) := List.count_eq_zero.1 (by omega)
      have keep : ∀ l : List T, x ∉ l → l.filter (fun y => y ≠ x) = l := fun l hl =>
        List.filter_eq_self.2 fun y hy => by
          have : y ≠ x := fun e => hl (e ▸ hy)
          simpa using this
      conv_rhs => rw [hsplit]
      rw [List.filter_append, List.filter_cons_of_neg (by simp), keep _ n1, keep _ n2]
  rw [hr, show c.toVec = c.values from rfl, ← key, ← hv]
  exact ⟨fun e => congrArg values (Except.ok.inj e), fun e => by rw [e]⟩

example : (Choice.new 1 [2, 2, 3]).removeAlternative 0 ≠ .ok (removeValue (Choice.new 1 [2, 2, 3]) 2) ∧
    (Choice.new 1 [2, 2, 3]).removeAlternative 2 = .ok (removeValue (Choice.new 1 [2, 2, 3]) 3) :=
  ⟨fun h => absurd ((c80_remove_value_iff _ 0 2 rfl).1 h) (by decide), (c80_remove_value_iff _ 2 3 rfl).2 (by decide)⟩

/-- C80: with a value occurring twice, removing by value removes both; the primary value goes too when it is equal. -/
theorem c80_remove_value_false :
    ¬ ∀ (c : Choice Nat) (i x : Nat), c.alternatives[i]? = some x → c.removeAlternative i = .ok (removeValue c x) :=
  fun h => absurd ((c80_remove_value_iff (Choice.new 2 [3, 2]) 1 2 rfl).1 (h _ 1 2 rfl)) (by decide)

example : (Choice.new 1 [2, 3, 4]).toVec.count 3 = 1 := by decide

theorem set_eq_cons_eraseIdx (v : T) (vs : List T) (i : Nat) (hi : i < vs.length) :
    vs.set i v = v :: vs.eraseIdx i ↔ ∀ j, j < i → vs[j]? = some v := by
  induction i generalizing vs with
  | zero =>
    cases vs with
    | nil => simp at hi
    | cons a as => simp
  | succ i ih =>
    cases vs with
    | nil => simp at hi
    | cons a as =>
      rw [List.set_cons_succ, List.eraseIdx_cons_succ, List.cons.injEq]
      constructor
      · rintro ⟨rfl, h⟩ j hj
        cases j with
        | zero => rfl
        | succ j => exact (ih as (by simpa using hi)).1 h j (by omega)
      · intro h
        have ha : a = v := by simpa using h 0 (Nat.succ_pos _)
        subst ha
        exact ⟨rfl, (ih as (by simpa using hi)).2 fun j hj => h (j + 1) (by omega)⟩

/-- C80: building a new `Choice` with the alternative in front gives what `swap_with_alternative(i)` gives exactly when
all alternatives before `i` equal the primary value, in particular for `i = 0`, which is the case of `MIGRATION` 814-821.
Both have no result for an `i` out of range. -/
theorem c80_swap_iff (c : Choice T) (i : Nat) :
    (i < c.alternatives.length →
      ((∃ r, c.swapWithAlternative i = .ok r ∧ promote c i = some r) ↔
        ∀ j, j < i → c.alternatives[j]? = c.first)) ∧
    (¬ i < c.alternatives.length → (∃ e, c.swapWithAlternative i = .error e) ∧ promote c i = none) := by
  have hd := alternatives_eq c
  obtain ⟨_ | ⟨v, vs⟩⟩ := c
  · refine ⟨fun h => absurd h (by simp [alternatives]), fun _ => ⟨⟨_, rfl⟩, rfl⟩⟩
  · have hd' : (Choice.mk (v :: vs)).alternatives = vs := hd
    constructor
    · intro hi
      have hi' : i < vs.length := by rwa [hd'] at hi
      have hs : (Choice.mk (v :: vs)).swapWithAlternative i = .ok ⟨vs[i] :: vs.set i v⟩ := by
        unfold swapWithAlternative
        rw [if_neg (show ¬ (Choice.mk (v :: vs)).values.length ≤ 1 from fun h => by
          have : vs.length + 1 ≤ 1 := h
          omega), if_neg (by rw [hd']; omega)]
        simp [swap0, List.getElem?_eq_getElem hi']
      have hp : promote (Choice.mk (v :: vs)) i = some ⟨vs[i] :: v :: vs.eraseIdx i⟩ := by
        unfold promote
        rw [hd', List.getElem?_eq_getElem hi']
        rfl
      rw [hs, hp, hd', show (Choice.mk (v :: vs)).first = some v from rfl, ← set_eq_cons_eraseIdx v vs i hi']
      constructor
      · rintro ⟨r, h1, h2⟩
        have := (Except.ok.inj h1).trans (Option.some.inj h2).symm
        exact (List.cons.inj (Choice.mk.inj this)).2
      · intro h
        exact ⟨_, rfl, by rw [h]⟩
    · intro hi
      have hi' : ¬ i < vs.length := by rwa [hd'] at hi
      refine ⟨(c50_swap _ i).1.2 hi, ?_⟩
      unfold promote
      rw [hd', List.getElem?_eq_none (by omega)]
      rfl

/-- C80: `MIGRATION` 719-741 replaces a swap by `Choice::new(3, vec![1, 2, 4])`; `swap_with_alternative(1)` of
`[1, 2, 3, 4]` is `[3, 2, 1, 4]`. -/
theorem c80_swap_false :
    ¬ ∀ (c : Choice Nat) (i : Nat), i < c.alternatives.length →
      ∃ r, c.swapWithAlternative i = .ok r ∧ promote c i = some r :=
  fun h => absurd (((c80_swap_iff (Choice.new 1 [2, 3, 4]) 1).1 (by decide)).1 (h _ 1 (by decide)) 0 (by decide))
    (by decide)

example : promote (Choice.new 1 [2, 3, 4]) 1 = some (Choice.new 3 [1, 2, 4]) ∧
    promote (Choice.new 1 [2, 3, 4, 5]) 0 = some (Choice.new 2 [1, 3, 4, 5]) := ⟨rfl, rfl⟩
example : (Choice.new 1 [2, 3, 4]).swapWithAlternative 1 = .ok (Choice.new 3 [2, 1, 4]) := rfl

/-- C80: `filter_values` gives what `filter` gives exactly when the primary value (if any) passes the test. -/
theorem c80_filter_iff (c : Choice T) (p : T → Bool) :
    c.filter p = c.filterValues p ↔ ∀ v, c.first = some v → p v = true := by
  have hv : (c.filterValues p).values = c.values.filter p := by
    unfold filterValues
    rcases h : c.values.filter p with _ | ⟨y, ys⟩ <;> simp [newEmpty]
  obtain ⟨_ | ⟨v, vs⟩⟩ := c
  · exact ⟨fun _ v h => (by cases h), fun _ => rfl⟩
  · have hf : (Choice.mk (v :: vs)).filter p = ⟨v :: vs.filter p⟩ := rfl
    constructor
    · rintro h w ⟨⟩
      have := congrArg values h
      rw [hf, hv] at this
      have hm : v ∈ (v :: vs).filter p := this ▸ List.mem_cons_self
      exact (List.mem_filter.1 hm).2
    · intro h
      refine ext_toVec (Eq.trans ?_ hv.symm)
      exact (List.filter_cons_of_pos (h v rfl)).symm

/-- C80: the guide's own example (`MIGRATION` 746-766): `[1, 2, 3, 4]` filtered by `> 2` keeps 1 before, not after. -/
theorem c80_filter_false : ¬ ∀ (c : Choice Nat) (p : Nat → Bool), c.filter p = c.filterValues p :=
  fun h => absurd ((c80_filter_iff (Choice.new 1 [2, 3, 4]) (fun x => decide (x > 2))).1 (h _ _) 1 rfl) (by decide)

/-- C80: mapping where a test holds gives what `fmap_alternatives` gives exactly when it does not change the primary
value and the function changes no alternative on which the test fails. -/
theorem c80_fmap_alternatives_iff (c : Choice T) (p : T → Bool) (f : T → T) :
    c.fmapAlternatives f = fmapWhere c p f ↔
      (∀ v, c.first = some v → p v = true → f v = v) ∧ ∀ v ∈ c.alternatives, p v = false → f v = v := by
  have hd := alternatives_eq c
  have hw : (fmapWhere c p f).values = c.values.map (fun x => if p x then f x else x) := fmap_values _ c
  obtain ⟨_ | ⟨v, vs⟩⟩ := c
  · refine ⟨fun _ => ⟨fun v h => (by cases h), fun v h => ?_⟩, fun _ => ext_toVec hw.symm⟩
    rw [hd] at h; cases h
  · have hd' : (Choice.mk (v :: vs)).alternatives = vs := hd
    have hf : ((Choice.mk (v :: vs)).fmapAlternatives f).values = v :: vs.map f :=
      (c50_changes (Choice.mk (v :: vs)) v vs p f id newEmpty).2.2.2.2.2.2.1
    have hmap : vs.map f = vs.map (fun x => if p x then f x else x) ↔ ∀ x ∈ vs, p x = false → f x = x := by
      rw [List.map_inj_left]
      refine forall_congr' fun x => forall_congr' fun _ => ?_
      cases hp : p x <;> simp
    have : (Choice.mk (v :: vs)).fmapAlternatives f = fmapWhere (Choice.mk (v :: vs)) p f ↔
        v :: vs.map f = (v :: vs).map (fun x => if p x then f x else x) := by
      rw [← hf, ← hw]
      exact ⟨congrArg values, fun h => ext_toVec h⟩
    rw [this, List.map_cons, List.cons.injEq, hmap, hd']
    refine and_congr ?_ Iff.rfl
    constructor
    · rintro h w ⟨⟩ hp
      rw [if_pos hp] at h
      exact h.symm
    · intro h
      by_cases hp : p v = true
      · rw [if_pos hp, h v rfl hp]
      · rw [if_neg hp]

/-- C80: no test works for all `Choice`s: with a value both in front and behind, the two differ. -/
theorem c80_fmap_alternatives_false :
    ¬ ∃ p : Nat → Bool, ∀ c : Choice Nat, c.fmapAlternatives (· * 2) = fmapWhere c p (· * 2) := by
  rintro ⟨p, h⟩
  have := (c80_fmap_alternatives_iff (Choice.new 1 [1]) p (· * 2)).1 (h _)
  cases hp : p 1 with
  | true => exact absurd (this.1 1 rfl hp) (by decide)
  | false => exact absurd (this.2 1 (by decide) hp) (by decide)

example : (∀ v, (Choice.new 1 [2, 3, 4]).first = some v → decide (v > 1) = true → v * 2 = v) ∧
    ∀ v ∈ (Choice.new 1 [2, 3, 4]).alternatives, decide (v > 1) = false → v * 2 = v :=
  ⟨fun v h => by cases h; simp, by decide⟩

/-- C80: sorting after `flatten` gives what `flatten_sorted` gives exactly when the first item is a smallest one (for a
linear order, which `Ord` promises); both panic exactly on an empty primary value. -/
theorem c80_flatten_sorted_iff (c : Choice (List I)) (le : I → I → Bool)
    (ht : ∀ a b, (le a b || le b a) = true) (htr : ∀ a b d, le a b = true → le b d = true → le a d = true)
    (has : ∀ a b, le a b = true → le b a = true → a = b) :
    (c.first = some [] → (∃ e, c.flattenSorted le = .error e) ∧ ∃ e, flattenThenSort c le = .error e) ∧
    (c.first ≠ some [] → ((∃ r, c.flattenSorted le = .ok r ∧ flattenThenSort c le = .ok r) ↔
      ∀ x, c.toVec.flatten.head? = some x → ∀ y ∈ c.toVec.flatten, le x y = true)) := by
  obtain ⟨_ | ⟨_ | ⟨y, ys⟩, vs⟩⟩ := c
  · exact ⟨fun h => (by cases h), fun _ => ⟨fun _ x h => (by cases h), fun _ => ⟨newEmpty, rfl, by simp [flattenThenSort, Choice.flatten, newEmpty, toVec, ofMany]⟩⟩⟩
  · exact ⟨fun _ => ⟨⟨_, rfl⟩, ⟨_, rfl⟩⟩, fun h => absurd rfl h⟩
  · refine ⟨fun h => (by cases h), fun _ => ?_⟩
    have h1 : (Choice.mk ((y :: ys) :: vs)).flattenSorted le =
        .ok ⟨y :: (vs.flatMap (fun v => v) ++ ys).mergeSort le⟩ := rfl
    have h2 : flattenThenSort (Choice.mk ((y :: ys) :: vs)) le =
        .ok (ofMany ((y :: (ys ++ vs.flatMap (fun v => v))).mergeSort le)) := rfl
    have hflat : (Choice.mk ((y :: ys) :: vs)).toVec.flatten = y :: (ys ++ vs.flatMap (fun v => v)) := by
      simp [toVec, List.flatMap_id']
    have hperm : (y :: (vs.flatMap (fun v => v) ++ ys).mergeSort le).Perm
        ((y :: (ys ++ vs.flatMap (fun v => v))).mergeSort le) :=
      ((List.mergeSort_perm _ le).trans List.perm_append_comm).cons y |>.trans (List.mergeSort_perm _ le).symm
    have hsort := List.pairwise_mergeSort htr ht (y :: (ys ++ vs.flatMap (fun v => v)))
    rw [h1, h2, hflat]
    constructor
    · rintro ⟨r, e1, e2⟩ x ⟨⟩ z hz
      have e : y :: (vs.flatMap (fun v => v) ++ ys).mergeSort le =
          (y :: (ys ++ vs.flatMap (fun v => v))).mergeSort le := by
        have := congrArg toVec ((Except.ok.inj e1).trans (Except.ok.inj e2).symm)
        rwa [toVec_ofMany] at this
      rw [← e] at hsort
      rcases List.mem_cons.1 hz with rfl | hz
      · simpa using ht z z
      · refine (List.pairwise_cons.1 hsort).1 z ?_
        rw [List.mem_mergeSort, List.mem_append]
        exact (List.mem_append.1 hz).symm
    · intro hmin
      have hs' : (y :: (vs.flatMap (fun v => v) ++ ys).mergeSort le).Pairwise (fun a b => le a b = true) := by
        refine List.pairwise_cons.2 ⟨fun z hz => hmin y rfl z ?_, List.pairwise_mergeSort htr ht _⟩
        rw [List.mem_mergeSort, List.mem_append] at hz
        exact List.mem_cons_of_mem _ (List.mem_append.2 hz.symm)
      have e := hperm.eq_of_pairwise (fun a b _ _ => has a b) hs' hsort
      exact ⟨_, rfl, by rw [← e]; rfl⟩

example : ∃ r, (Choice.new [1, 3] [[], [2]]).flattenSorted (fun a b : Nat => decide (a ≤ b)) = .ok r ∧
    flattenThenSort (Choice.new [1, 3] [[], [2]]) (fun a b : Nat => decide (a ≤ b)) = .ok r :=
  ((c80_flatten_sorted_iff (Choice.new [1, 3] [[], [2]]) (fun a b : Nat => decide (a ≤ b)) (by intro a b; simp; omega)
    (by intro a b d; simp; omega) (by intro a b; simp; omega)).2 (by decide)).2 (by
      intro x hx y hy
      obtain rfl : 1 = x := Option.some.inj hx
      have : y ∈ [1, 3, 2] := hy
      simp at this ⊢; omega)

/-- C80: the guide's own example (`MIGRATION` 824-838): flattening `[3, 1], [4, 2], [5]` gives `[3, 1, 2, 4, 5]` before
and `[1, 2, 3, 4, 5]` after. -/
theorem c80_flatten_sorted_false :
    ¬ ∀ c : Choice (List Nat), c.first ≠ some [] →
      ∃ r, c.flattenSorted (fun a b => decide (a ≤ b)) = .ok r ∧
        flattenThenSort c (fun a b => decide (a ≤ b)) = .ok r := by
  intro h
  have := ((c80_flatten_sorted_iff (Choice.new [3, 1] [[4, 2], [5]]) (fun a b => decide (a ≤ b))
    (by intro a b; simp; omega) (by intro a b d; simp; omega) (by intro a b; simp; omega)).2 (by decide)).1
    (h _ (by decide))
  exact absurd (this 3 rfl 1 (by decide)) (by decide)

example : ∀ x, (Choice.new [1, 3] [[4, 2], [5]]).toVec.flatten.head? = some x →
    ∀ y ∈ (Choice.new [1, 3] [[4, 2], [5]]).toVec.flatten, decide (x ≤ y) = true := by
  rintro x ⟨⟩; decide

/-- C80: the eager `bind` yields what `bind_lazy` yields exactly when the primary value's result is not empty, or all
results are. -/
theorem c80_bind_iff (c : Choice T) (f : T → Choice U) :
    c.bindLazy f = (RMonad.bind c f).toVec ↔
      ((∃ v, c.first = some v ∧ (f v).toVec ≠ []) ∨ ∀ v ∈ c.toVec, (f v).toVec = []) := by
  have hb : (RMonad.bind c f).toVec = _ := Choice.bind_values c f
  rw [hb]
  obtain ⟨_ | ⟨v, vs⟩⟩ := c
  · exact ⟨fun _ => .inr (fun v h => by cases h), fun _ => rfl⟩
  · by_cases hv : (f v).values = []
    · constructor
      · intro h
        refine .inr fun w hw => ?_
        have h0 : (v :: vs).flatMap (fun x => (f x).values) = [] := h.trans (if_pos hv)
        exact List.flatMap_eq_nil_iff.1 h0 w hw
      · rintro (⟨w, ⟨⟩, hw⟩ | h)
        · exact absurd hv hw
        · exact (List.flatMap_eq_nil_iff.2 h).trans (if_pos hv).symm
    · exact ⟨fun _ => .inl ⟨v, rfl, hv⟩, fun _ => (if_neg hv).symm⟩

/-- C80: with an empty result for the primary value, `bind` drops the other results and `bind_lazy` does not. -/
theorem c80_bind_false :
    ¬ ∀ (c : Choice Nat) (f : Nat → Choice Nat), c.bindLazy f = (RMonad.bind c f).toVec :=
  fun h => absurd (h (Choice.new 1 [2]) fun n => if n = 1 then newEmpty else Choice.new n []) (by decide)

/-! ## The extraction methods and the error helpers -/

/-- C80: `value` and `into_value` succeed exactly where the standard method given in their place does, with the same
value: `unwrap` for `Option`, `Maybe`, `Either`, `Validated`, `First`, `Last`, `first` for `Choice`, `extract` for
`Id`. -/
theorem c80_identity {L E : Type} (o : Option T) (m : Maybe T) (e : Either L T) (v : Validated E T) (a : First T)
    (b : Last T) (c : Choice T) (i : RId T) :
    (resultOk (RIdentity.value o) = o ∧ resultOk (RIdentity.intoValue o) = o) ∧
    (resultOk (RIdentity.value m) = m.unwrap ∧ resultOk (RIdentity.intoValue m) = m.unwrap) ∧
    (resultOk (RIdentity.value e) = e.unwrapRight ∧ resultOk (RIdentity.intoValue e) = e.unwrapRight) ∧
    (resultOk (RIdentity.value v) = v.unwrap ∧ resultOk (RIdentity.intoValue v) = v.unwrap) ∧
    (resultOk (RIdentity.value a) = a.unwrap ∧ resultOk (RIdentity.intoValue a) = a.unwrap) ∧
    (resultOk (RIdentity.value b) = b.unwrap ∧ resultOk (RIdentity.intoValue b) = b.unwrap) ∧
    (resultOk (RIdentity.value c) = c.first ∧ resultOk (RIdentity.intoValue c) = c.first) ∧
    (RIdentity.value i = .ok i.extract ∧ RIdentity.intoValue i = .ok i.extract) := by
  refine ⟨?_, ?_, ?_, ?_, ?_, ?_, ?_, rfl, rfl⟩
  · cases o <;> exact ⟨rfl, rfl⟩
  · cases m <;> exact ⟨rfl, rfl⟩
  · cases e <;> exact ⟨rfl, rfl⟩
  · cases v <;> exact ⟨rfl, rfl⟩
  · obtain ⟨_ | _⟩ := a <;> exact ⟨rfl, rfl⟩
  · obtain ⟨_ | _⟩ := b <;> exact ⟨rfl, rfl⟩
  · obtain ⟨_ | _⟩ := c <;> exact ⟨rfl, rfl⟩

/-- C80: `try_value` of an `Option` is `as_ref` and `try_into_value` the option itself; for `Maybe` and `Choice` that
holds exactly when there is a value. -/
theorem c80_try_value_iff (o : Option T) (m : Maybe T) (c : Choice T) :
    (RIdentity.tryValue o = .ok o ∧ RIdentity.tryIntoValue o = .ok o) ∧
    (RIdentity.tryValue m = .ok m.toOption ↔ m.toOption ≠ none) ∧
    (RIdentity.tryValue c = .ok c.first ↔ c.first ≠ none) := by
  refine ⟨⟨rfl, rfl⟩, ?_, ?_⟩
  · cases m with
    | Just a => exact ⟨fun _ h => (by cases h), fun _ => rfl⟩
    | Nothing => exact ⟨fun h => (by cases h), fun h => absurd rfl h⟩
  · obtain ⟨_ | ⟨v, vs⟩⟩ := c
    · exact ⟨fun h => (by cases h), fun h => absurd rfl h⟩
    · exact ⟨fun _ h => (by cases h), fun _ => rfl⟩

/-- C80: `try_value` panics on `Nothing`, where the replacement `as_ref` returns `None`. -/
theorem c80_try_value_false :
    ¬ ∀ m : Maybe Nat, RIdentity.tryValue m = .ok m.toOption :=
  fun h => ((c80_try_value_iff (none : Option Nat) Maybe.Nothing newEmpty).2.1.1 (h _)) rfl

/-- C80: `ResultExt::to_validated` is `result_to_validated`, and the parts of an `AppError` are those of the
`ComposableError` made in its place: message and core error, the one context (if any), and `map` and `map_core`. -/
theorem c80_errors {E M N : Type} (r : Except E T) (m : M) (s : String) (f : M → N) :
    extToValidated r = resultToValidated r ∧
    (AppError.new m : AppError M String).message = (ComposableError.new m).core ∧
    (AppError.new m : AppError M String).context = (ComposableError.new m).context.head? ∧
    (∀ n : ComposableError M, n = ((ComposableError.new m).withContext (ofString s) ()).1 →
      (AppError.withContext m s).message = n.core ∧ (AppError.withContext m s).context = n.context.head? ∧
      n.context.length = 1 ∧ ((AppError.withContext m s).map f).message = (n.mapCore f).core ∧
      ((AppError.withContext m s).map f).context = (n.mapCore f).context.head?) := by
  refine ⟨by cases r <;> rfl, rfl, rfl, ?_⟩
  rintro n rfl
  exact ⟨rfl, rfl, rfl, rfl, rfl⟩

end Rustica.Migration
