import Verif.Theorems.Semigroup

/-!
# `Choice` operations as list operations (lemmas used for C23–C26 and C50)
-/

namespace Rustica.Choice
variable {T U A B C D : Type}

theorem fmap_values (f : A → B) (c : Choice A) : (fmap f c).values = c.values.map f := by
  obtain ⟨_ | ⟨v, vs⟩⟩ := c <;> rfl

theorem fmapOwned_values (f : A → B) (c : Choice A) : (fmapOwned f c).values = c.values.map f := by
  obtain ⟨_ | ⟨v, vs⟩⟩ := c <;> rfl

theorem pure_values (a : A) : (RPure.pure a : Choice A).values = [a] := rfl

theorem apply_values (fs : Choice (A → B)) (xs : Choice A) :
    (apply fs xs).values = xs.values.flatMap (fun x => fs.values.map (fun f => f x)) := by
  obtain ⟨_ | ⟨f, fs⟩⟩ := fs <;> obtain ⟨_ | ⟨x, xs⟩⟩ := xs <;> simp [apply, new, newEmpty]

theorem filterMap_zipIdx_all (fs : List A) (k : Nat) (p : Nat → Bool) (h : A → B)
    (hp : ∀ i, k ≤ i → p i = false) :
    (fs.zipIdx k).filterMap (fun fj => if p fj.2 then none else some (h fj.1)) = fs.map h := by
  induction fs generalizing k with
  | nil => rfl
  | cons f fs ih =>
    rw [List.zipIdx_cons, List.filterMap_cons]
    simp only [hp k (Nat.le_refl k), Bool.false_eq_true, if_false, List.map_cons]
    rw [ih (k + 1) (fun i hi => hp i (by omega))]

theorem flatMap_zipIdx_all (xs : List A) (k : Nat) (hk : 1 ≤ k) (g : A → List B) (g' : A × Nat → List B)
    (hg : ∀ a i, 1 ≤ i → g' (a, i) = g a) : (xs.zipIdx k).flatMap g' = xs.flatMap g := by
  induction xs generalizing k with
  | nil => rfl
  | cons x xs ih =>
    rw [List.zipIdx_cons, List.flatMap_cons, List.flatMap_cons, hg x k hk, ih (k + 1) (by omega)]

theorem applyOwned_eq (fs : Choice (A → B)) (xs : Choice A) : applyOwned fs xs = apply fs xs := by
  apply ext'
  rw [apply_values]
  obtain ⟨_ | ⟨f, fs⟩⟩ := fs <;> obtain ⟨_ | ⟨x, xs⟩⟩ := xs <;> simp only [applyOwned, newEmpty, new]
  · rfl
  · simp
  · rfl
  · simp only [generateApplyAlternatives, List.zipIdx_cons, List.flatMap_cons, List.filterMap_cons,
      Nat.zero_add, List.map_cons]
    rw [flatMap_zipIdx_all xs 1 (Nat.le_refl 1) (fun y => f y :: fs.map (fun g => g y))]
    · have hfm := filterMap_zipIdx_all fs 1 (fun i => 0 == 0 && i == 0) (fun g => g x) (by
        intro i hi; simp; omega)
      rw [hfm]
      simp
    · intro a i hi
      have h0 : (i == 0) = false := by simp; omega
      simp only [h0, Bool.false_and, Bool.false_eq_true, if_false]
      congr 1
      exact filterMap_zipIdx_all fs 1 (fun _ => false) (fun g => g a) (fun _ _ => rfl)

theorem foldl_zipIdx_append (xs : List A) (k : Nat) (g : List B → A × Nat → List B) (h : A → List B)
    (hg : ∀ acc a i, k ≤ i → g acc (a, i) = acc ++ h a) (acc : List B) :
    (xs.zipIdx k).foldl g acc = acc ++ xs.flatMap h := by
  induction xs generalizing k acc with
  | nil => simp
  | cons x xs ih =>
    rw [List.zipIdx_cons, List.foldl_cons, hg acc x k (Nat.le_refl k),
      ih (k + 1) (fun acc a i hi => hg acc a i (by omega))]
    simp

theorem inner2 (f : A → B → C) (a : A) (i : Nat) (hi : 1 ≤ i) (bs : List B) (acc : List C) :
    bs.zipIdx.foldl (fun acc bj => if i == 0 && bj.2 == 0 then acc else acc ++ [f a bj.1]) acc
      = acc ++ bs.map (f a) := by
  rw [foldl_zipIdx_append bs 0 _ (fun b => [f a b])]
  · rw [← List.map_eq_flatMap]
  · intro acc b j _
    have h0 : (i == 0) = false := by simp; omega
    simp [h0]

theorem lift2_values (f : A → B → C) (fa : Choice A) (fb : Choice B) :
    (lift2 f fa fb).values = fa.values.flatMap (fun a => fb.values.map (f a)) := by
  obtain ⟨_ | ⟨a, as⟩⟩ := fa <;> obtain ⟨_ | ⟨b, bs⟩⟩ := fb <;> simp only [lift2, newEmpty, new]
  · rfl
  · rfl
  · simp
  · simp only [liftLoop2]
    rw [show (a :: as).zipIdx = (a, 0) :: as.zipIdx 1 from rfl, List.foldl_cons,
      foldl_zipIdx_append as _ _ (fun a => (b :: bs).map (f a))]
    · simp only [List.zipIdx_cons, List.foldl_cons, beq_self_eq_true, Bool.and_self, if_true]
      rw [foldl_zipIdx_append bs _ _ (fun b => [f a b])]
      · simp [← List.map_eq_flatMap]
      · intro acc b j hj
        have h0 : (j == 0) = false := by simp; omega
        simp [h0]
    · intro acc a i hi
      exact inner2 f a i (by omega) (b :: bs) acc

theorem inner3 (f : A → B → C → D) (a : A) (b : B) (i j : Nat) (hi : 1 ≤ i ∨ 1 ≤ j) (cs : List C)
    (acc : List D) :
    cs.zipIdx.foldl (fun acc ck => if i == 0 && j == 0 && ck.2 == 0 then acc else acc ++ [f a b ck.1]) acc
      = acc ++ cs.map (f a b) := by
  rw [foldl_zipIdx_append cs 0 _ (fun c => [f a b c])]
  · rw [← List.map_eq_flatMap]
  · intro acc c k _
    have h0 : (i == 0 && j == 0) = false := by
      rcases hi with h | h <;> simp <;> omega
    simp [h0]

theorem lift3_values (f : A → B → C → D) (fa : Choice A) (fb : Choice B) (fc : Choice C) :
    (lift3 f fa fb fc).values
      = fa.values.flatMap (fun a => fb.values.flatMap (fun b => fc.values.map (f a b))) := by
  obtain ⟨_ | ⟨a, as⟩⟩ := fa <;> obtain ⟨_ | ⟨b, bs⟩⟩ := fb <;> obtain ⟨_ | ⟨c, cs⟩⟩ := fc <;>
    simp only [lift3, newEmpty, new]
  all_goals first
    | rfl
    | (simp; done)
    | skip
  simp only [liftLoop3]
  rw [show (a :: as).zipIdx = (a, 0) :: as.zipIdx 1 from rfl, List.foldl_cons,
    foldl_zipIdx_append as _ _ (fun a => (b :: bs).flatMap (fun b => (c :: cs).map (f a b)))]
  · rw [show (b :: bs).zipIdx = (b, 0) :: bs.zipIdx 1 from rfl, List.foldl_cons,
      foldl_zipIdx_append bs _ _ (fun b => (c :: cs).map (f a b))]
    · simp only [List.zipIdx_cons, List.foldl_cons, beq_self_eq_true, Bool.and_self, if_true]
      rw [foldl_zipIdx_append cs _ _ (fun c => [f a b c])]
      · simp [← List.map_eq_flatMap]
      · intro acc c j hj
        have h0 : (j == 0) = false := by simp; omega
        simp [h0]
    · intro acc b j hj
      exact inner3 f a b 0 j (Or.inr (by omega)) (c :: cs) acc
  · intro acc a i hi
    rw [foldl_zipIdx_append (b :: bs) 0 _ (fun b => (c :: cs).map (f a b))]
    intro acc b j _
    exact inner3 f a b i j (Or.inl (by omega)) (c :: cs) acc

theorem foldl_append_flatMap (vs : List A) (f : A → List B) (acc : List B) :
    vs.foldl (fun acc v => acc ++ f v) acc = acc ++ vs.flatMap f := by
  induction vs generalizing acc with
  | nil => simp
  | cons v vs ih => rw [List.foldl_cons, ih]; simp

/-- `bind` on the list of values: empty if the primary's result is empty, otherwise `flat_map`. -/
theorem bind_values (c : Choice T) (f : T → Choice U) :
    (bind c f).values = match c.values with
      | [] => []
      | v :: vs => if (f v).values = [] then [] else (v :: vs).flatMap (fun v => (f v).values) := by
  obtain ⟨_ | ⟨v, vs⟩⟩ := c
  · rfl
  · simp only [bind]
    rcases hv : (f v).values with _ | ⟨y, ys⟩
    · simp [newEmpty]
    · simp only [new, foldl_append_flatMap, List.flatMap_cons, hv]
      simp

theorem bindOwned_eq (c : Choice T) (f : T → Choice U) : bindOwned c f = bind c f := rfl

theorem alternatives_eq (c : Choice T) : c.alternatives = c.values.drop 1 := by
  unfold alternatives
  split
  · rename_i h
    rw [List.drop_of_length_le h]
  · rfl

theorem join_eq (into : T → Choice U) (c : Choice T) : join into c = bind c into := by
  obtain ⟨_ | ⟨v, vs⟩⟩ := c
  · rfl
  · simp only [join, bind, alternatives_eq]
    rcases hv : (into v).values with _ | ⟨y, ys⟩ <;> simp

theorem joinOwned_eq (into : T → Choice U) (c : Choice T) : joinOwned into c = bind c into := by
  obtain ⟨_ | ⟨v, vs⟩⟩ := c
  · rfl
  · simp only [joinOwned, bind, alternatives_eq]
    rcases hv : (into v).values with _ | ⟨y, ys⟩ <;> simp

end Rustica.Choice
