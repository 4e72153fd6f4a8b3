import Verif.Theorems.Monad

/-!
# C50: `Choice` as a list whose head is the primary value
-/

namespace Rustica
open Choice

section
variable {T U A B K : Type}

/-- Construction. -/
theorem c50_construct (x : T) (xs : List T) (cs : List (Choice T)) :
    (Choice.new x xs).toVec = x :: xs ∧ (newEmpty : Choice T).toVec = [] ∧ (ofMany xs).toVec = xs ∧
    (fromVec xs).toVec = xs ∧ (ofChoices cs).toVec = (cs.map toVec).flatten ∧
    (Choice.sum cs).toVec = (cs.map toVec).flatten := by
  refine ⟨rfl, rfl, ?_, ?_, ?_, ?_⟩
  · cases xs <;> rfl
  · cases xs <;> rfl
  · show (ofChoices cs).values = _
    unfold ofChoices
    simp only [← List.flatMap_def]
    show (if (cs.flatMap fun c => c.values).isEmpty then newEmpty else ⟨_⟩ : Choice T).values
      = cs.flatMap fun c => c.values
    cases h : cs.flatMap fun c => c.values <;> simp [newEmpty]
  · have hp : ∀ (a b : Choice T), (RMonadPlus.mplus a b).values = a.values ++ b.values := by
      rintro ⟨_ | ⟨a, as⟩⟩ ⟨_ | ⟨b, bs⟩⟩ <;> simp [RMonadPlus.mplus, Choice.combine', Choice.new]
    have : ∀ (cs : List (Choice T)) (acc : Choice T),
        (cs.foldl (fun a b => RMonadPlus.mplus a b) acc).values = acc.values ++ (cs.map toVec).flatten := by
      intro cs
      induction cs with
      | nil => intro acc; simp
      | cons c cs ih => intro acc; rw [List.foldl_cons, ih, hp]; simp [toVec]
    exact (this cs _).trans (List.nil_append _)

/-- Queries. -/
theorem c50_queries (c : Choice T) (p : T → Bool) (init : B) (f : B → T → B) :
    c.first = c.toVec[0]? ∧ c.alternatives = c.toVec.tail ∧ c.iterAlternatives = c.toVec.tail ∧
    c.len = c.toVec.length ∧ (c.isEmpty = true ↔ c.toVec = []) ∧
    (c.hasAlternatives = true ↔ c.toVec.tail ≠ []) ∧ c.findFirst p = c.toVec.find? p ∧
    c.fold init f = c.toVec.foldl f init ∧ c.value = c.toVec[0]? := by
  obtain ⟨_ | ⟨v, vs⟩⟩ := c
  · simp [first, alternatives, iterAlternatives, len, isEmpty, hasAlternatives, findFirst, fold, value, toVec]
  · refine ⟨rfl, ?_, rfl, rfl, by simp [isEmpty, toVec], ?_, rfl, rfl, rfl⟩
    · rw [alternatives_eq]; rfl
    · cases vs <;> simp [hasAlternatives, toVec]

/-- Changes. -/
theorem c50_changes (c : Choice T) (x : T) (items : List T) (p : T → Bool) (f : T → T) (g : T → U)
    (d : Choice T) :
    (c.addAlternatives items).toVec = c.toVec ++ items ∧ (combine c d).toVec = c.toVec ++ d.toVec ∧
    (RFunctor.fmap g c).toVec = c.toVec.map g ∧ (c.filterValues p).toVec = c.toVec.filter p ∧
    ((Choice.new x items).filter p).toVec = x :: items.filter p ∧
    ((newEmpty : Choice T).filter p).toVec = [] ∧
    ((Choice.new x items).fmapAlternatives f).toVec = x :: items.map f ∧
    ((newEmpty : Choice T).fmapAlternatives f).toVec = [] := by
  refine ⟨rfl, combine_values c d, fmap_values g c, ?_, ?_, rfl, ?_, rfl⟩
  · show (filterValues c p).values = c.values.filter p
    unfold filterValues
    rcases h : c.values.filter p with _ | ⟨y, ys⟩ <;> simp [newEmpty]
  · simp [filter, Choice.new, toVec]
  · show [x] ++ items.foldl (fun acc a => acc ++ [f a]) [] = _
    rw [foldl_push]; simp

/-- `remove_alternative(i)` removes the alternative number `i`, and panics exactly when there is none;
`try_remove_alternative` returns `Err` exactly there and the same value otherwise. -/
theorem c50_remove (c : Choice T) (i : Nat) :
    ((∃ e, c.removeAlternative i = .error e) ↔ ¬ i < c.alternatives.length) ∧
    ((∃ e, c.tryRemoveAlternative i = .error e) ↔ ¬ i < c.alternatives.length) ∧
    (∀ r, c.removeAlternative i = .ok r ↔ c.tryRemoveAlternative i = .ok r) ∧
    (∀ r, c.removeAlternative i = .ok r →
      r.first = c.first ∧ r.alternatives = c.alternatives.eraseIdx i) := by
  have hal : c.alternatives.length = c.values.length - 1 := by rw [alternatives_eq]; simp
  unfold removeAlternative tryRemoveAlternative
  by_cases h1 : c.values.length ≤ 1
  · simp only [if_pos h1]
    refine ⟨by simp; omega, by simp; omega, by simp, by simp⟩
  · simp only [if_neg h1]
    by_cases h2 : i ≥ c.alternatives.length
    · simp only [if_pos h2]
      refine ⟨by simp; omega, by simp; omega, by simp, by simp⟩
    · simp only [if_neg h2]
      refine ⟨by simp; omega, by simp; omega, by simp, ?_⟩
      rintro r ⟨⟩
      obtain ⟨_ | ⟨v, vs⟩⟩ := c
      · simp at h1
      · constructor
        · rfl
        · simp only [alternatives_eq]; rfl

/-- `swap_with_alternative(i)` exchanges the primary value with alternative `i`, and panics exactly when there
is none; the `try_` version returns `Err` exactly there. -/
theorem c50_swap (c : Choice T) (i : Nat) :
    ((∃ e, c.swapWithAlternative i = .error e) ↔ ¬ i < c.alternatives.length) ∧
    ((∃ e, c.trySwapWithAlternative i = .error e) ↔ ¬ i < c.alternatives.length) ∧
    (∀ r, c.swapWithAlternative i = .ok r ↔ c.trySwapWithAlternative i = .ok r) ∧
    (∀ r, c.swapWithAlternative i = .ok r → ∀ x y, c.first = some x → c.alternatives[i]? = some y →
      r.first = some y ∧ r.alternatives = c.alternatives.set i x) := by
  have hal : c.alternatives.length = c.values.length - 1 := by rw [alternatives_eq]; simp
  unfold swapWithAlternative trySwapWithAlternative
  by_cases h1 : c.values.length ≤ 1
  · simp only [if_pos h1]
    refine ⟨by simp; omega, by simp; omega, by simp, by simp⟩
  · simp only [if_neg h1]
    by_cases h2 : i ≥ c.alternatives.length
    · simp only [if_pos h2]
      refine ⟨by simp; omega, by simp; omega, by simp, by simp⟩
    · simp only [if_neg h2]
      refine ⟨by simp; omega, by simp; omega, by simp, ?_⟩
      rintro r ⟨⟩ x y hx hy
      obtain ⟨_ | ⟨v, vs⟩⟩ := c
      · simp at h1
      · simp only [first, List.head?_cons, Option.some.injEq] at hx
        subst hx
        simp only [alternatives_eq, List.drop_succ_cons, List.drop_zero] at hy ⊢
        simp only [swap0, List.getElem?_cons_zero, List.getElem?_cons_succ, hy]
        exact ⟨rfl, rfl⟩

/-- `flatten` panics, and `try_flatten` returns `Err`, exactly when the primary value is empty; otherwise the
result is the concatenation. -/
theorem c50_flatten (c : Choice (List T)) :
    ((∃ e, c.flatten = .error e) ↔ c.first = some []) ∧ ((∃ e, c.tryFlatten = .error e) ↔ c.first = some []) ∧
    (∀ r, c.flatten = .ok r ↔ c.tryFlatten = .ok r) ∧
    (∀ r, c.flatten = .ok r → r.toVec = c.toVec.flatten) := by
  obtain ⟨_ | ⟨_ | ⟨y, ys⟩, vs⟩⟩ := c
  · refine ⟨by simp [flatten, first], by simp [tryFlatten, first], by simp [flatten, tryFlatten], ?_⟩
    rintro r ⟨⟩; rfl
  · refine ⟨by simp [flatten, first], by simp [tryFlatten, first], by simp [flatten, tryFlatten],
      by simp [flatten]⟩
  · refine ⟨by simp [flatten, first], by simp [tryFlatten, first], by simp [flatten, tryFlatten], ?_⟩
    rintro r ⟨⟩
    simp [toVec, Choice.new, List.flatMap_id']

/-- `flatten_sorted` keeps the first value in front and sorts all the others (for a total order). -/
theorem c50_flatten_sorted (c : Choice (List T)) (le : T → T → Bool)
    (ht : ∀ a b, (le a b || le b a) = true) (htr : ∀ a b d, le a b = true → le b d = true → le a d = true) :
    ((∃ e, c.flattenSorted le = .error e) ↔ c.first = some []) ∧
    (∀ r, c.flattenSorted le = .ok r → r.toVec.Perm c.toVec.flatten ∧ r.first = c.toVec.flatten.head? ∧
      r.alternatives.Pairwise (fun a b => le a b = true)) := by
  obtain ⟨_ | ⟨_ | ⟨y, ys⟩, vs⟩⟩ := c
  · refine ⟨by simp [flattenSorted, first], ?_⟩
    rintro r ⟨⟩
    exact ⟨List.Perm.refl _, rfl, List.Pairwise.nil⟩
  · exact ⟨by simp [flattenSorted, first], by simp [flattenSorted]⟩
  · refine ⟨by simp [flattenSorted, first], ?_⟩
    rintro r ⟨⟩
    refine ⟨?_, rfl, ?_⟩
    · show (y :: List.mergeSort _ le).Perm (y :: (ys ++ vs.flatten))
      refine List.Perm.cons _ ((List.mergeSort_perm _ le).trans ?_)
      rw [List.flatMap_id']
      exact List.perm_append_comm
    · rw [alternatives_eq]
      exact List.pairwise_mergeSort htr ht _

example : ∀ r, (Choice.new [3, 1] [[], [2]]).flattenSorted (fun a b : Nat => decide (a ≤ b)) = .ok r →
    r.first = some 3 ∧ r.alternatives.Pairwise (fun a b => decide (a ≤ b) = true) := fun r h =>
  have := (c50_flatten_sorted (Choice.new [3, 1] [[], [2]]) (fun a b : Nat => decide (a ≤ b)) (by intro a b; simp; omega)
    (by intro a b d; simp; omega)).2 r h
  ⟨this.2.1, this.2.2⟩

theorem mem_dedupLoop [DecidableEq K] (key : T → K) (vs : List T) (seen : List K) (x : T) :
    x ∈ dedupLoop key vs seen → x ∈ vs ∧ key x ∉ seen := by
  induction vs generalizing seen with
  | nil => simp [dedupLoop]
  | cons v vs ih =>
    unfold dedupLoop
    split
    · intro h
      exact ⟨List.mem_cons_of_mem _ (ih seen h).1, (ih seen h).2⟩
    · rename_i hv
      intro h
      rcases List.mem_cons.1 h with rfl | h
      · exact ⟨List.mem_cons_self, hv⟩
      · have := ih _ h
        exact ⟨List.mem_cons_of_mem _ this.1, fun hh => this.2 (List.mem_cons_of_mem _ hh)⟩

theorem dedupLoop_keys [DecidableEq K] (key : T → K) (vs : List T) (seen : List K) (k : K) :
    k ∈ (dedupLoop key vs seen).map key ↔ k ∈ vs.map key ∧ k ∉ seen := by
  induction vs generalizing seen with
  | nil => simp [dedupLoop]
  | cons v vs ih =>
    unfold dedupLoop
    split
    · rename_i hv
      rw [ih, List.map_cons, List.mem_cons]
      constructor
      · rintro ⟨h1, h2⟩; exact ⟨Or.inr h1, h2⟩
      · rintro ⟨rfl | h1, h2⟩
        · exact absurd hv h2
        · exact ⟨h1, h2⟩
    · rename_i hv
      rw [List.map_cons, List.mem_cons, ih, List.map_cons, List.mem_cons, List.mem_cons]
      constructor
      · rintro (rfl | ⟨h1, h2⟩)
        · exact ⟨Or.inl rfl, hv⟩
        · exact ⟨Or.inr h1, fun hh => h2 (Or.inr hh)⟩
      · rintro ⟨rfl | h1, h2⟩
        · exact Or.inl rfl
        · by_cases hk : k = key v
          · exact Or.inl hk
          · exact Or.inr ⟨h1, fun hh => hh.elim hk h2⟩

theorem dedupLoop_nodup [DecidableEq K] (key : T → K) (vs : List T) (seen : List K) :
    ((dedupLoop key vs seen).map key).Nodup := by
  induction vs generalizing seen with
  | nil => simp [dedupLoop]
  | cons v vs ih =>
    unfold dedupLoop
    split
    · exact ih seen
    · rw [List.map_cons, List.nodup_cons]
      refine ⟨?_, ih _⟩
      rw [dedupLoop_keys]
      simp

theorem dedupLoop_sublist [DecidableEq K] (key : T → K) (vs : List T) (seen : List K) :
    (dedupLoop key vs seen).Sublist vs := by
  induction vs generalizing seen with
  | nil => simp [dedupLoop]
  | cons v vs ih =>
    unfold dedupLoop
    split
    · exact (ih seen).cons _
    · exact (ih _).cons_cons _

theorem dedupLoop_first [DecidableEq K] (key : T → K) (pre post : List T) (x : T) (seen : List K)
    (h1 : key x ∉ seen) (h2 : ∀ y ∈ pre, key y ≠ key x) :
    x ∈ dedupLoop key (pre ++ x :: post) seen := by
  induction pre generalizing seen with
  | nil => simp [dedupLoop, h1]
  | cons y pre ih =>
    rw [List.cons_append]
    unfold dedupLoop
    split
    · exact ih seen h1 (fun z hz => h2 z (List.mem_cons_of_mem _ hz))
    · refine List.mem_cons_of_mem _ (ih _ ?_ (fun z hz => h2 z (List.mem_cons_of_mem _ hz)))
      intro hh
      rcases List.mem_cons.1 hh with hh | hh
      · exact h2 y List.mem_cons_self hh.symm
      · exact h1 hh

/-- `dedup_by_key` (and `dedup`, the case of the identity key): a subsequence with pairwise different keys,
having all the keys, and keeping the first occurrence of each. -/
theorem c50_dedup [DecidableEq K] (c : Choice T) (key : T → K) :
    (c.dedupByKey key).toVec.Sublist c.toVec ∧ ((c.dedupByKey key).toVec.map key).Nodup ∧
    (∀ k, k ∈ (c.dedupByKey key).toVec.map key ↔ k ∈ c.toVec.map key) ∧
    (∀ pre x post, c.toVec = pre ++ x :: post → (∀ y ∈ pre, key y ≠ key x) →
      x ∈ (c.dedupByKey key).toVec) ∧
    (∀ [DecidableEq T], c.dedup = c.dedupByKey (fun v => v)) := by
  have he : (c.dedupByKey key).toVec = dedupLoop key c.values [] := by
    unfold dedupByKey
    obtain ⟨_ | ⟨v, vs⟩⟩ := c <;> rfl
  rw [he]
  refine ⟨dedupLoop_sublist _ _ _, dedupLoop_nodup _ _ _, fun k => ?_, ?_, fun {_} => rfl⟩
  · rw [dedupLoop_keys]; simp [toVec]
  · intro pre x post hc hpre
    show x ∈ dedupLoop key c.values []
    rw [show c.values = pre ++ x :: post from hc]
    exact dedupLoop_first key pre post x [] (by simp) hpre

/-- `sequence`: `Some` exactly when every value is, with the values in order. -/
theorem c50_sequence (c : Choice (Option T)) :
    (c.sequence = none ↔ none ∈ c.toVec) ∧
    (∀ xs : List T, (Choice.mk (xs.map some)).sequence = some ⟨xs⟩) := by
  have key : ∀ vs : List (Option T), Choice.sequence.collectOptions vs = none ↔ none ∈ vs := by
    intro vs
    induction vs with
    | nil => simp [Choice.sequence.collectOptions]
    | cons v vs ih =>
      cases v with
      | none => simp [Choice.sequence.collectOptions]
      | some x => simp [Choice.sequence.collectOptions, ih]
  have key2 : ∀ xs : List T, Choice.sequence.collectOptions (xs.map some) = some xs := by
    intro xs
    induction xs with
    | nil => rfl
    | cons x xs ih => simp [Choice.sequence.collectOptions, ih]
  constructor
  · unfold Choice.sequence
    rw [Option.map_eq_none_iff, key]; rfl
  · intro xs
    unfold Choice.sequence
    rw [key2]; rfl

example : (Choice.new 1 [2, 3]).removeAlternative 1 = .ok (Choice.new 1 [2]) ∧
    (Choice.new 1 [2, 3]).swapWithAlternative 1 = .ok (Choice.new 3 [2, 1]) ∧
    (Choice.new 1 [2, 1]).dedup = Choice.new 1 [2] := ⟨rfl, rfl, rfl⟩
example : (Choice.new [1] [[], [2, 3]]).flatten = .ok (Choice.new 1 [2, 3]) := rfl

end
end Rustica
