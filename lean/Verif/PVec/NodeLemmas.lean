import Verif.PVec.Inv

/-!
# Lemmas about nodes: `get`, `update`, pushes and pops refine list operations
-/

namespace Rustica.PVec
namespace Node

variable {α : Type}

/-- Shorthand used in the lemmas: number of elements below a node. -/
abbrev flen (n : Node α) : Nat := n.flat.length

@[simp] theorem flat_leaf (es : List α) : (Node.leaf es).flat = es := by simp [flat]
@[simp] theorem flat_branch (cs : List (Node α)) (s) : (Node.branch cs s).flat = flatL cs := by
  simp [flat]
@[simp] theorem flatL_nil : flatL ([] : List (Node α)) = [] := by simp [flatL]
@[simp] theorem flatL_cons (c : Node α) (cs) : flatL (c :: cs) = c.flat ++ flatL cs := by
  simp [flatL]
@[simp] theorem flatL_append (as bs : List (Node α)) : flatL (as ++ bs) = flatL as ++ flatL bs := by
  induction as with
  | nil => simp
  | cons a as ih => simp [ih]

theorem flatL_eq (cs : List (Node α)) : flatL cs = (cs.map flat).flatten := by
  induction cs with
  | nil => simp
  | cons a as ih => simp [ih]

theorem sum_map_flen (cs : List (Node α)) : (cs.map flen).sum = (flatL cs).length := by
  induction cs with
  | nil => simp
  | cons a as ih => simp [flen] at ih ⊢; omega

theorem sizedL_iff (cs : List (Node α)) : SizedL cs ↔ ∀ c ∈ cs, Sized c := by
  induction cs with
  | nil => simp [SizedL]
  | cons a as ih => simp [SizedL, ih]

@[simp] theorem sized_leaf (es : List α) : (Node.leaf es).Sized := by simp [Sized]

theorem sized_branch (cs : List (Node α)) (s) :
    (Node.branch cs s).Sized ↔ cs ≠ [] ∧ s = some (cs.map flen) ∧ ∀ c ∈ cs, Sized c := by
  simp [Sized, sizedL_iff]

theorem calculateSize_eq {n : Node α} (h : n.Sized) : n.calculateSize = n.flat.length := by
  cases n with
  | leaf es => simp [calculateSize]
  | branch cs s =>
    obtain ⟨_, rfl, _⟩ := (sized_branch _ _).1 h
    simp [calculateSize, sum_map_flen]

theorem map_calculateSize {cs : List (Node α)} (h : ∀ c ∈ cs, Sized c) :
    cs.map calculateSize = cs.map flen :=
  List.map_congr_left fun c hc => calculateSize_eq (h c hc)

theorem sized_makeRelaxed {cs : List (Node α)} (hne : cs ≠ []) (h : ∀ c ∈ cs, Sized c) :
    (makeRelaxed cs).Sized :=
  (sized_branch _ _).2 ⟨hne, by rw [map_calculateSize h], h⟩

@[simp] theorem flat_makeRelaxed (cs : List (Node α)) : (makeRelaxed cs).flat = flatL cs := by
  simp [makeRelaxed]

/-! ### Searching the size table -/

theorem scan_spec (cs : List (Node α)) : ∀ (i cum idx : Nat), cum ≤ idx →
    (∃ pre c post r, cs = pre ++ c :: post ∧
      scanSizes (cs.map flen) i cum idx = some (i + pre.length, r) ∧
      idx = cum + (flatL pre).length + r ∧ r < c.flat.length) ∨
    (scanSizes (cs.map flen) i cum idx = none ∧ cum + (flatL cs).length ≤ idx) := by
  induction cs with
  | nil => intro i cum idx h; right; simp [scanSizes]; exact h
  | cons c cs ih =>
    intro i cum idx h
    by_cases hlt : idx < cum + c.flen
    · left
      refine ⟨[], c, cs, idx - cum, rfl, ?_, ?_, ?_⟩
      · simp [scanSizes, hlt]
      · simp; omega
      · simp only [flen] at hlt; omega
    · simp only [flen] at hlt
      rcases ih (i + 1) (cum + c.flat.length) idx (by omega) with
        ⟨pre, d, post, r, rfl, hs, hidx, hr⟩ | ⟨hs, hle⟩
      · left
        refine ⟨c :: pre, d, post, r, rfl, ?_, ?_, hr⟩
        · simp only [List.map_cons, scanSizes, hlt, if_false, hs, List.length_cons, flen]
          simp; omega
        · simp; omega
      · right
        refine ⟨?_, ?_⟩
        · simp only [List.map_cons, scanSizes, hlt, if_false, hs, flen]
        · simp; omega

/-- Scanning from the start of the table. -/
theorem scan_spec0 (cs : List (Node α)) (idx : Nat) :
    (∃ pre c post r, cs = pre ++ c :: post ∧
      scanSizes (cs.map flen) 0 0 idx = some (pre.length, r) ∧
      idx = (flatL pre).length + r ∧ r < c.flat.length) ∨
    (scanSizes (cs.map flen) 0 0 idx = none ∧ (flatL cs).length ≤ idx) := by
  simpa using scan_spec cs 0 0 idx (Nat.zero_le _)

theorem getL_append (pre : List (Node α)) (c : Node α) (post) (r : Nat) :
    getL (pre ++ c :: post) pre.length r = get c r := by
  induction pre with
  | nil => simp [getL]
  | cons p pre ih => simpa [getL] using ih

theorem get_eq (n : Node α) : n.Sized → ∀ i, n.get i = n.flat[i]? := by
  induction n using induct with
  | hleaf es => intro _ i; simp [get]
  | hbranch cs s ih =>
    intro hs i
    obtain ⟨_, rfl, hc⟩ := (sized_branch _ _).1 hs
    rcases scan_spec0 cs i with ⟨pre, c, post, r, rfl, hscan, hi, hr⟩ | ⟨hscan, hle⟩
    · rw [get]
      simp only [hscan, getL_append]
      rw [ih c (by simp) (hc c (by simp))]
      simp only [flat_branch, flatL_append, flatL_cons]
      rw [List.getElem?_append_right (by omega), List.getElem?_append_left (by omega)]
      congr 1; omega
    · rw [get]
      simp only [hscan, flat_branch]
      rw [List.getElem?_eq_none hle]

theorem updateL_append (pre : List (Node α)) (c : Node α) (post) (r : Nat) (x : α) :
    updateL (pre ++ c :: post) pre.length r x = pre ++ update c r x :: post := by
  induction pre with
  | nil => simp [updateL]
  | cons p pre ih => simpa [updateL] using ih

theorem update_spec (n : Node α) : n.Sized → ∀ i (x : α),
    (n.update i x).Sized ∧ (n.update i x).flat = n.flat.set i x := by
  induction n using induct with
  | hleaf es =>
    intro _ i x
    simp only [update, flat_leaf, sized_leaf, true_and]
    split
    · rfl
    · rw [List.set_eq_of_length_le (by omega)]
  | hbranch cs s ih =>
    intro hs i x
    obtain ⟨hne, rfl, hc⟩ := (sized_branch _ _).1 hs
    rcases scan_spec0 cs i with ⟨pre, c, post, r, rfl, hscan, hi, hr⟩ | ⟨hscan, hle⟩
    · rw [update]
      simp only [findChild, hscan, updateL_append]
      obtain ⟨h1, h2⟩ := ih c (by simp) (hc c (by simp)) r x
      constructor
      · refine (sized_branch _ _).2 ⟨by simp, ?_, ?_⟩
        · simp [flen, h2]
        · intro d hd
          simp only [List.mem_append, List.mem_cons] at hd
          rcases hd with hd | rfl | hd
          · exact hc d (by simp [hd])
          · exact h1
          · exact hc d (by simp [hd])
      · simp only [flat_branch, flatL_append, flatL_cons, h2]
        rw [List.set_append_right _ _ (by omega), List.set_append_left _ _ (by omega)]
        congr 3; omega
    · rw [update]
      simp only [findChild, hscan]
      exact ⟨(sized_branch _ _).2 ⟨hne, rfl, hc⟩, by
        simp only [flat_branch]; rw [List.set_eq_of_length_le hle]⟩

/-! ### Pushing leaves -/

theorem pushLeaf_spec {n l : Node α} (hn : n.Sized) (hl : l.Sized) :
    (n.pushLeaf l).Sized ∧ (n.pushLeaf l).flat = n.flat ++ l.flat := by
  cases n with
  | leaf es =>
    simp only [pushLeaf]
    refine ⟨(sized_branch _ _).2 ⟨by simp, ?_, ?_⟩, by simp⟩
    · simp [flen, calculateSize_eq hn, calculateSize_eq hl]
    · simp [hn, hl]
  | branch cs s =>
    obtain ⟨hne, rfl, hc⟩ := (sized_branch _ _).1 hn
    simp only [pushLeaf]
    split
    · refine ⟨(sized_branch _ _).2 ⟨by simp, ?_, ?_⟩, by simp⟩
      · simp [calculateSize_eq hl]
      · intro c h
        simp only [List.mem_append, List.mem_singleton] at h
        rcases h with h | rfl
        · exact hc c h
        · exact hl
    · refine ⟨(sized_branch _ _).2 ⟨by simp, ?_, ?_⟩, by simp⟩
      · simp [flen, calculateSize_eq hn, calculateSize_eq hl]
      · simp [hn, hl]

theorem pushFrontLeaf_spec {n l : Node α} (hn : n.Sized) (hl : l.Sized) :
    (n.pushFrontLeaf l).Sized ∧ (n.pushFrontLeaf l).flat = l.flat ++ n.flat := by
  cases n with
  | leaf es =>
    simp only [pushFrontLeaf]
    refine ⟨(sized_branch _ _).2 ⟨by simp, ?_, ?_⟩, by simp⟩
    · simp [flen, calculateSize_eq hn, calculateSize_eq hl]
    · simp [hn, hl]
  | branch cs s =>
    obtain ⟨hne, rfl, hc⟩ := (sized_branch _ _).1 hn
    simp only [pushFrontLeaf]
    split
    · refine ⟨(sized_branch _ _).2 ⟨by simp, ?_, ?_⟩, by simp⟩
      · simp [calculateSize_eq hl]
      · intro c h
        simp only [List.mem_cons] at h
        rcases h with rfl | h
        · exact hl
        · exact hc c h
    · refine ⟨(sized_branch _ _).2 ⟨by simp, ?_, ?_⟩, by simp⟩
      · simp [flen, calculateSize_eq hn, calculateSize_eq hl]
      · simp [hn, hl]

/-! ### Popping -/

theorem exists_eq_append_singleton {β : Type} {cs : List β} (h : cs ≠ []) :
    ∃ pre c, cs = pre ++ [c] :=
  ⟨cs.dropLast, cs.getLast h, (List.dropLast_concat_getLast h).symm⟩

theorem popBackLast_append (pre : List (Node α)) (c : Node α) :
    popBackLast (pre ++ [c]) = popBack c := by
  induction pre with
  | nil => simp [popBackLast]
  | cons p pre ih =>
    cases pre with
    | nil => simp [popBackLast]
    | cons q pre => simpa [popBackLast] using ih

theorem lastLeafL_append (pre : List (Node α)) (c : Node α) :
    lastLeafL (pre ++ [c]) = lastLeaf c := by
  induction pre with
  | nil => simp [lastLeafL]
  | cons p pre ih =>
    cases pre with
    | nil => simp [lastLeafL]
    | cons q pre => simpa [lastLeafL] using ih

@[simp] theorem lastLeaf_leaf (es : List α) : (Node.leaf es).lastLeaf = es := by simp [lastLeaf]
@[simp] theorem lastLeaf_branch (cs : List (Node α)) (s) :
    (Node.branch cs s).lastLeaf = lastLeafL cs := by simp [lastLeaf]
@[simp] theorem firstLeaf_leaf (es : List α) : (Node.leaf es).firstLeaf = es := by simp [firstLeaf]
@[simp] theorem firstLeaf_branch (c : Node α) (cs : List (Node α)) (s) :
    (Node.branch (c :: cs) s).firstLeaf = c.firstLeaf := by simp [firstLeaf]

/-- `pop_back` on a sized node: it succeeds exactly when the rightmost leaf is
not empty, and then removes the last element. -/
theorem popBack_spec (n : Node α) : n.Sized →
    (n.lastLeaf ≠ [] ∧ ∃ n' x, n.popBack = some (n', x) ∧ n'.Sized ∧ n.flat = n'.flat ++ [x]) ∨
    (n.lastLeaf = [] ∧ n.popBack = none) := by
  induction n using induct with
  | hleaf es =>
    intro _
    by_cases h : es = []
    · right; subst h; simp [popBack]
    · left
      refine ⟨by simpa using h, .leaf es.dropLast, es.getLast h, ?_, by simp, ?_⟩
      · simp [popBack, List.getLast?_eq_some_getLast h]
      · simp [List.dropLast_concat_getLast h]
  | hbranch cs s ih =>
    intro hs
    obtain ⟨hne, rfl, hc⟩ := (sized_branch _ _).1 hs
    obtain ⟨pre, c, rfl⟩ := exists_eq_append_singleton hne
    simp only [lastLeaf_branch, lastLeafL_append]
    rcases ih c (by simp) (hc c (by simp)) with ⟨h1, c', x, hp, hs', hf⟩ | ⟨h1, hp⟩
    · left
      refine ⟨h1, ?_⟩
      rw [popBack]
      simp only [popBackLast_append, hp]
      rw [calculateSize_eq hs']
      have hlen : (pre ++ [c]).length - 1 = pre.length := by simp
      rw [hlen]
      by_cases h0 : c'.flat.length = 0
      · have hcnil : c'.flat = [] := List.length_eq_zero_iff.1 h0
        simp only [h0, if_true, List.dropLast_concat]
        by_cases hpre : pre = []
        · subst hpre
          refine ⟨.leaf [], x, by simp, by simp, ?_⟩
          simp [hf, hcnil]
        · refine ⟨.branch pre (some (pre.map flen)), x, ?_, ?_, ?_⟩
          · simp [hpre, updateSizeTableAfterRemoval]
          · exact (sized_branch _ _).2 ⟨hpre, rfl, fun d hd => hc d (by simp [hd])⟩
          · simp [hf, hcnil]
      · simp only [h0, if_false]
        refine ⟨.branch (pre ++ [c']) (some ((pre ++ [c']).map flen)), x, ?_, ?_, ?_⟩
        · simp [updateSizeTableAfterUpdate, flen]
        · refine (sized_branch _ _).2 ⟨by simp, rfl, ?_⟩
          intro d hd
          simp only [List.mem_append, List.mem_singleton] at hd
          rcases hd with hd | rfl
          · exact hc d (by simp [hd])
          · exact hs'
        · simp [hf]
    · right
      refine ⟨h1, ?_⟩
      rw [popBack]
      simp only [popBackLast_append, hp]

/-- `pop_front` on a sized node: it succeeds exactly when the leftmost leaf is
not empty, and then removes the first element. -/
theorem popFront_spec (n : Node α) : n.Sized →
    (n.firstLeaf ≠ [] ∧ ∃ n' x, n.popFront = some (n', x) ∧ n'.Sized ∧ n.flat = x :: n'.flat) ∨
    (n.firstLeaf = [] ∧ n.popFront = none) := by
  induction n using induct with
  | hleaf es =>
    intro _
    cases es with
    | nil => right; simp [popFront]
    | cons e es => left; exact ⟨by simp, .leaf es, e, by simp [popFront], by simp, by simp⟩
  | hbranch cs s ih =>
    intro hs
    obtain ⟨hne, rfl, hc⟩ := (sized_branch _ _).1 hs
    cases cs with
    | nil => exact absurd rfl hne
    | cons c post =>
      simp only [firstLeaf_branch]
      rcases ih c (by simp) (hc c (by simp)) with ⟨h1, c', x, hp, hs', hf⟩ | ⟨h1, hp⟩
      · left
        refine ⟨h1, ?_⟩
        rw [popFront]
        simp only [hp]
        rw [calculateSize_eq hs']
        by_cases h0 : c'.flat.length = 0
        · have hcnil : c'.flat = [] := List.length_eq_zero_iff.1 h0
          simp only [h0, if_true]
          by_cases hpost : post = []
          · subst hpost
            refine ⟨.leaf [], x, by simp, by simp, ?_⟩
            simp [hf, hcnil]
          · refine ⟨.branch post (some (post.map flen)), x, ?_, ?_, ?_⟩
            · simp [hpost, updateSizeTableAfterRemoval]
            · exact (sized_branch _ _).2 ⟨hpost, rfl, fun d hd => hc d (by simp [hd])⟩
            · simp [hf, hcnil]
        · simp only [h0, if_false]
          refine ⟨.branch (c' :: post) (some ((c' :: post).map flen)), x, ?_, ?_, ?_⟩
          · simp [updateSizeTableAfterUpdate, flen]
          · refine (sized_branch _ _).2 ⟨by simp, rfl, ?_⟩
            intro d hd
            simp only [List.mem_cons] at hd
            rcases hd with rfl | hd
            · exact hs'
            · exact hc d (by simp [hd])
          · simp [hf]
      · right
        refine ⟨h1, ?_⟩
        rw [popFront]
        simp only [hp]

end Node
end Rustica.PVec
