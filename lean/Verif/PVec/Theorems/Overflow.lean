import Verif.PVec.Machine
import Verif.PVec.Theorems.Elements
import Verif.PVec.Theorems.Intact

/-!
# C85: lengths and machine words

The additions of lengths and of size tables do not overflow as long as the result has fewer elements than a machine word
can count.  But `concat` shares the subtrees of its operands, so a vector can have more elements than that in little
memory, and a short program reaches the overflow.
-/

namespace Rustica.PVec

variable {α : Type}

theorem addC_eq {W a b : Nat} (h : a + b < W) : addC W a b = .ok (a + b) := by simp [addC, h]

theorem addC_iff {W a b c : Nat} : addC W a b = .ok c ↔ a + b < W ∧ c = a + b := by
  unfold addC
  split
  · simp_all [eq_comm]
  · simp_all; omega

theorem sumC_eq {W : Nat} (xs : List Nat) : ∀ {acc : Nat}, acc + xs.sum < W → sumC W acc xs = .ok (acc + xs.sum) := by
  induction xs with
  | nil => intro acc _; simp [sumC]
  | cons x xs ih =>
    intro acc h
    simp only [List.sum_cons] at h ⊢
    rw [sumC, addC_eq (by omega)]
    show sumC W (acc + x) xs = _
    rw [ih (by omega)]
    congr 1; omega

theorem bind_ok {β γ ε : Type} {x : Except ε β} {f : β → Except ε γ} {c : γ} :
    (x >>= f) = .ok c ↔ ∃ b, x = .ok b ∧ f b = .ok c := by
  cases x with
  | error e => constructor <;> intro h <;> simp_all [bind, Except.bind]
  | ok b => constructor <;> intro h <;> simp_all [bind, Except.bind]

namespace Node

theorem calculateSizeU_eq {W : Nat} {n : Node α} (h : n.Sized) (hl : n.flat.length < W) :
    n.calculateSizeU W = .ok n.calculateSize := by
  cases n with
  | leaf es => simp [calculateSizeU, calculateSize]
  | branch cs s =>
    obtain ⟨_, rfl, _⟩ := (sized_branch _ _).1 h
    rw [calculateSizeU, calculateSize, sumC_eq _ (by simpa [sum_map_flen] using hl)]
    simp

/-- C85: `calculate_size` of any node, with size tables or without, right or wrong, returns what the unlimited function
returns when this fits into a word. -/
theorem c85_size {W : Nat} (n : Node α) (h : n.calculateSize < W) : n.calculateSizeU W = .ok n.calculateSize := by
  induction n using Node.induct with
  | hleaf es => simp [calculateSizeU, calculateSize]
  | hbranch cs s ih =>
    cases s with
    | some s =>
      rw [calculateSizeU, calculateSize, sumC_eq _ (by simpa [calculateSize] using h)]
      simp
    | none =>
      rw [calculateSize] at h
      rw [calculateSizeU, calculateSize]
      have key : ∀ (cs : List (Node α)) (acc : Nat),
          (∀ c ∈ cs, c.calculateSize < W → c.calculateSizeU W = .ok c.calculateSize) →
          acc + calculateSizeL cs < W → calculateSizeLU W acc cs = .ok (acc + calculateSizeL cs) := by
        intro cs
        induction cs with
        | nil => intro acc _ _; rfl
        | cons c cs ihl =>
          intro acc hc hl
          rw [calculateSizeL] at hl ⊢
          rw [calculateSizeLU, hc c (by simp) (by omega)]
          show (addC W acc c.calculateSize >>= fun a => calculateSizeLU W a cs) = _
          rw [addC_eq (by omega)]
          show calculateSizeLU W (acc + c.calculateSize) cs = _
          rw [ihl _ (fun d hd => hc d (by simp [hd])) (by omega)]
          congr 1; omega
      simpa using key cs 0 ih (by simpa using h)

example : (Node.branch [.leaf [1, 2], .branch [.leaf [3]] none] none).calculateSizeU 4 = .ok 3 := c85_size _ (by decide)

theorem sizesU_eq {W : Nat} : ∀ {cs : List (Node α)}, (∀ c ∈ cs, Sized c) → (flatL cs).length < W →
    sizesU W cs = .ok (cs.map calculateSize) := by
  intro cs
  induction cs with
  | nil => intro _ _; rfl
  | cons c cs ih =>
    intro hc hl
    simp only [flatL_cons, List.length_append] at hl
    rw [sizesU, calculateSizeU_eq (hc c (by simp)) (by omega), ih (fun d hd => hc d (by simp [hd])) (by omega)]
    rfl

theorem makeRelaxedU_eq {W : Nat} {cs : List (Node α)} (hc : ∀ c ∈ cs, Sized c) (hl : (flatL cs).length < W) :
    makeRelaxedU W cs = .ok (makeRelaxed cs) := by
  rw [makeRelaxedU, sizesU_eq hc hl]; rfl

theorem pushLeafU_eq {W : Nat} {n l : Node α} (hn : n.Sized) (hl : l.Sized)
    (h : n.flat.length + l.flat.length < W) : n.pushLeafU W l = .ok (n.pushLeaf l) := by
  have e1 := calculateSizeU_eq (W := W) hn (by omega)
  have e2 := calculateSizeU_eq (W := W) hl (by omega)
  cases n with
  | leaf es => simp only [pushLeafU, pushLeaf, e1, e2]; rfl
  | branch cs s =>
    obtain ⟨hne, rfl, hc⟩ := (sized_branch _ _).1 hn
    simp only [pushLeafU, pushLeaf, e1, e2]
    split <;> rfl

theorem pushFrontLeafU_eq {W : Nat} {n l : Node α} (hn : n.Sized) (hl : l.Sized)
    (h : n.flat.length + l.flat.length < W) : n.pushFrontLeafU W l = .ok (n.pushFrontLeaf l) := by
  have e1 := calculateSizeU_eq (W := W) hn (by omega)
  have e2 := calculateSizeU_eq (W := W) hl (by omega)
  cases n with
  | leaf es => simp only [pushFrontLeafU, pushFrontLeaf, e1, e2]; rfl
  | branch cs s =>
    obtain ⟨hne, rfl, hc⟩ := (sized_branch _ _).1 hn
    simp only [pushFrontLeafU, pushFrontLeaf, e1, e2]
    split <;> rfl

end Node

namespace Tree

open Node

theorem pushTailToTreeU_eq {W : Nat} {t : Tree α} (h : t.root.Sized) (hl : t.toList.length < W) :
    t.pushTailToTreeU W = .ok t.pushTailToTree := by
  unfold pushTailToTreeU pushTailToTree
  split
  · rfl
  · rw [pushLeafU_eq h (leaf_sized _) (by simp [toList] at hl ⊢; omega)]; rfl

theorem pushHeadToTreeU_eq {W : Nat} {t : Tree α} (h : t.root.Sized) (hl : t.toList.length < W) :
    t.pushHeadToTreeU W = .ok t.pushHeadToTree := by
  unfold pushHeadToTreeU pushHeadToTree
  split
  · rfl
  · rw [pushFrontLeafU_eq h (leaf_sized _) (by simp [toList] at hl ⊢; omega)]; rfl

theorem pushBackU_eq {W : Nat} {t : Tree α} (h : t.root.Sized) (hl : t.toList.length < W) (hw : t.len + 1 < W)
    (x : α) : t.pushBackU W x = .ok (t.pushBack x) := by
  have hlen : t.pushTailToTree.len = t.len := by unfold pushTailToTree; split <;> rfl
  unfold pushBackU pushBack
  split
  · rw [addC_eq hw]; rfl
  · rw [pushTailToTreeU_eq h hl]
    show (addC W t.pushTailToTree.len 1 >>= _) = _
    rw [addC_eq (by omega)]; rfl

theorem pushFrontU_eq {W : Nat} {t : Tree α} (h : t.root.Sized) (hl : t.toList.length < W) (hw : t.len + 1 < W)
    (x : α) : t.pushFrontU W x = .ok (t.pushFront x) := by
  have hlen : t.pushHeadToTree.len = t.len := by unfold pushHeadToTree; split <;> rfl
  unfold pushFrontU pushFront
  split
  · rw [addC_eq hw]; rfl
  · rw [pushHeadToTreeU_eq h hl]
    show (addC W t.pushHeadToTree.len 1 >>= _) = _
    rw [addC_eq (by omega)]; rfl

theorem concatLastU_append {W : Nat} (pre : List (Node α)) (c r : Node α) :
    concatLastU W (pre ++ [c]) r = (concatNodesU W c r >>= fun n => .ok (some n)) := by
  induction pre with
  | nil => simp [concatLastU]
  | cons p pre ih =>
    cases pre with
    | nil => simp [concatLastU]
    | cons q pre => simpa [concatLastU] using ih

theorem concatNodesU_eq {W : Nat} (l : Node α) : l.Sized → ∀ r : Node α, r.Sized →
    l.flat.length + r.flat.length < W → concatNodesU W l r = .ok (concatNodes l r) := by
  induction l using Node.induct with
  | hleaf es =>
    intro _ r hr hw
    cases r with
    | leaf fs =>
      simp only [flat_leaf] at hw
      simp only [concatNodesU, concatNodes]
      split
      · rfl
      · exact makeRelaxedU_eq (by simp) (by simp; omega)
    | branch cs s =>
      obtain ⟨hne, rfl, hc⟩ := (sized_branch _ _).1 hr
      simp only [concatNodesU, concatNodes]
      exact makeRelaxedU_eq (by simpa using hc) (by simpa using hw)
  | hbranch cs s ih =>
    intro hl r hr hw
    obtain ⟨hne, rfl, hc⟩ := (sized_branch _ _).1 hl
    cases r with
    | leaf fs =>
      simp only [concatNodesU, concatNodes]
      refine makeRelaxedU_eq ?_ (by simpa using hw)
      intro c h
      simp only [List.mem_append, List.mem_singleton] at h
      rcases h with h | rfl
      · exact hc c h
      · simp
    | branch ds s =>
      obtain ⟨hne', rfl, hd⟩ := (sized_branch _ _).1 hr
      obtain ⟨pre, c, rfl⟩ := exists_eq_append_singleton hne
      cases ds with
      | nil => exact absurd rfl hne'
      | cons d ds =>
        obtain ⟨h1, h2⟩ := concatNodes_spec c (hc c (by simp)) d (hd d (by simp))
        simp only [flat_branch, flatL_append, flatL_cons, flatL_nil, List.append_nil, List.length_append] at hw
        have e := ih c (by simp) (hc c (by simp)) d (hd d (by simp)) (by omega)
        simp only [concatNodesU, concatNodes, concatLast_append, concatLastU_append, e]
        refine makeRelaxedU_eq ?_ ?_
        · intro x hx
          simp only [List.dropLast_concat, Option.toList_some, List.mem_append, List.mem_singleton,
            List.drop_succ_cons, List.drop_zero] at hx
          rcases hx with (hx | rfl) | hx
          · exact hc x (by simp [hx])
          · exact h1
          · exact hd x (by simp [hx])
        · simp [h2]; omega

theorem elevateRootU_eq {W : Nat} : ∀ (k : Nat) (n : Node α), n.Sized → n.flat.length < W →
    elevateRootU W k n = .ok (elevateRoot k n) := by
  intro k
  induction k with
  | zero => intro n _ _; rfl
  | succ k ih =>
    intro n h hl
    rw [elevateRootU, calculateSizeU_eq h hl]
    exact ih _ ((sized_branch _ _).2 ⟨by simp, by simp [calculateSize_eq h], by simpa using h⟩) (by simpa using hl)

theorem elevateTreeU_eq {W : Nat} {t : Tree α} (h : t.root.Sized) (hl : t.toList.length < W) (k : Nat) :
    elevateTreeU W t k = .ok (elevateTree t k) := by
  rw [elevateTreeU, elevateRootU_eq _ _ h (by simp [toList] at hl; omega)]; rfl

theorem concatSameHeightU_eq {W : Nat} {a b : Tree α} (ha : a.root.Sized) (hb : b.root.Sized)
    (hl : a.toList.length + b.toList.length < W) (hw : a.len + b.len < W) :
    a.concatSameHeightU W b = .ok (a.concatSameHeight b) := by
  have e1 : a.flushTailU W = .ok (if !a.tail.isEmpty then a.pushTailToTree else a) := by
    unfold flushTailU
    split
    · exact pushTailToTreeU_eq ha (by omega)
    · rfl
  have e2 : b.flushHeadU W = .ok (if !b.head.isEmpty then b.pushHeadToTree else b) := by
    unfold flushHeadU
    split
    · exact pushHeadToTreeU_eq hb (by omega)
    · rfl
  have f1 : (if !a.tail.isEmpty then a.pushTailToTree else a).root.flat.length ≤ a.toList.length := by
    split
    · have := congrArg List.length (pushTail_flat ha).1; simp [toList] at this ⊢; omega
    · simp [toList]; omega
  have f2 : (if !b.head.isEmpty then b.pushHeadToTree else b).root.flat.length ≤ b.toList.length := by
    split
    · have := congrArg List.length (pushHead_flat hb).1; simp [toList] at this ⊢; omega
    · simp [toList]; omega
  have s1 : (if !a.tail.isEmpty then a.pushTailToTree else a).root.Sized := by
    split
    · exact pushTail_sized ha
    · exact ha
  have s2 : (if !b.head.isEmpty then b.pushHeadToTree else b).root.Sized := by
    split
    · exact pushHead_sized hb
    · exact hb
  unfold concatSameHeightU concatSameHeight
  rw [e1, e2]
  generalize (if !a.tail.isEmpty then a.pushTailToTree else a) = l at *
  generalize (if !b.head.isEmpty then b.pushHeadToTree else b) = r at *
  show (concatNodesU W l.root r.root >>= _) = _
  rw [concatNodesU_eq _ s1 _ s2 (by omega)]
  show (addC W a.len b.len >>= _) = _
  rw [addC_eq hw]; rfl

theorem concatU_eq {W : Nat} {a b : Tree α} (ha : a.root.Sized) (hb : b.root.Sized)
    (hl : a.toList.length + b.toList.length < W) (hw : a.len + b.len < W) :
    a.concatU W b = .ok (a.concat b) := by
  have hel : ∀ (t : Tree α) (k : Nat), t.root.Sized →
      (elevateTree t k).root.Sized ∧ (elevateTree t k).toList = t.toList ∧ (elevateTree t k).len = t.len := by
    intro t k h
    obtain ⟨h1, h2⟩ := elevateRoot_spec (k - t.height) t.root h
    exact ⟨h1, by simp [toList, elevateTree, h2], rfl⟩
  simp only [concatU, concat, concatDifferentHeightU, concatDifferentHeight]
  split
  · rfl
  · split
    · rfl
    · split
      · exact concatSameHeightU_eq ha hb hl hw
      · split
        · simp only [Bool.false_eq_true, if_false]
          obtain ⟨h1, h2, h3⟩ := hel b a.height hb
          rw [elevateTreeU_eq hb (by omega)]
          exact concatSameHeightU_eq h1 ha (by rw [h2]; omega) (by rw [h3]; omega)
        · simp only [if_true]
          obtain ⟨h1, h2, h3⟩ := hel b a.height hb
          rw [elevateTreeU_eq hb (by omega)]
          exact concatSameHeightU_eq ha h1 (by rw [h2]; omega) (by rw [h3]; omega)

end Tree

namespace PV

/-! ## When the additions fit -/

/-- The length that the tree of a vector records. -/
def tlen (v : PV α) : Nat :=
  match v.inner with
  | .inline es => es.length
  | .tree t => t.len

theorem pushBackU_eq {W : Nat} {v : PV α} (h : v.Lax) (hl : v.len + 1 < W) (ht : v.tlen + 1 < W)
    (ha : v.abs.length < W) (x : α) : v.pushBackU W x = .ok (v.pushBack x) := by
  unfold Lax at h; unfold tlen at ht; unfold abs at ha
  unfold pushBackU pushBack
  cases hin : v.inner with
  | inline es =>
    simp only [hin] at h ht ha ⊢
    split
    · rw [addC_eq hl]; rfl
    · obtain ⟨f1, f2, f3, _⟩ := Tree.fromElements_spec es
      simp only [treePushBackU, transitionToTree, hin, treePushBack]
      rw [Tree.pushBackU_eq f1.sized (by rw [f2]; exact ha) (by rw [f3]; exact ht)]
      show (addC W v.len 1 >>= _) = _
      rw [addC_eq hl]; rfl
  | tree t =>
    simp only [hin] at h ht ha ⊢
    simp only [treePushBackU, hin, treePushBack]
    rw [Tree.pushBackU_eq h ha ht]
    show (addC W v.len 1 >>= _) = _
    rw [addC_eq hl]; rfl

theorem pushFrontU_eq {W : Nat} {v : PV α} (h : v.Lax) (hl : v.len + 1 < W) (ht : v.tlen + 1 < W)
    (ha : v.abs.length < W) (x : α) : v.pushFrontU W x = .ok (v.pushFront x) := by
  unfold Lax at h; unfold tlen at ht; unfold abs at ha
  unfold pushFrontU pushFront
  cases hin : v.inner with
  | inline es =>
    simp only [hin] at h ht ha ⊢
    split
    · rw [addC_eq hl]; rfl
    · obtain ⟨f1, f2, f3, _⟩ := Tree.fromElements_spec es
      simp only [treePushFrontU, transitionToTree, hin, treePushFront]
      rw [Tree.pushFrontU_eq f1.sized (by rw [f2]; exact ha) (by rw [f3]; exact ht)]
      show (addC W v.len 1 >>= _) = _
      rw [addC_eq hl]; rfl
  | tree t =>
    simp only [hin] at h ht ha ⊢
    simp only [treePushFrontU, hin, treePushFront]
    rw [Tree.pushFrontU_eq h ha ht]
    show (addC W v.len 1 >>= _) = _
    rw [addC_eq hl]; rfl

theorem concatU_eq {W : Nat} {v w : PV α} (hv : v.Lax) (hw : w.Lax) (hl : v.len + w.len < W)
    (ht : v.tlen + w.tlen < W) (ha : v.abs.length + w.abs.length < W) :
    v.concatU W w = .ok (v.concat w) := by
  unfold Lax at hv hw; unfold tlen at ht; unfold abs at ha
  unfold concatU concat
  cases e1 : v.inner with
  | inline es =>
    obtain ⟨f1, f2, f3, _⟩ := Tree.fromElements_spec es
    cases e2 : w.inner with
    | inline fs => rfl
    | tree u =>
      simp only [e1, e2] at hv hw ht ha ⊢
      rw [Tree.concatU_eq f1.sized hw (by rw [f2]; exact ha) (by rw [f3]; exact ht)]
      show (addC W v.len w.len >>= _) = _
      rw [addC_eq hl]; rfl
  | tree t =>
    cases e2 : w.inner with
    | inline fs =>
      obtain ⟨f1, f2, f3, _⟩ := Tree.fromElements_spec fs
      simp only [e1, e2] at hv hw ht ha ⊢
      rw [Tree.concatU_eq hv f1.sized (by rw [f2]; exact ha) (by rw [f3]; exact ht)]
      show (addC W v.len w.len >>= _) = _
      rw [addC_eq hl]; rfl
    | tree u =>
      simp only [e1, e2] at hv hw ht ha ⊢
      rw [Tree.concatU_eq hv hw ha ht]
      show (addC W v.len w.len >>= _) = _
      rw [addC_eq hl]; rfl

/-! ## When they do not -/

theorem overflow_of_not_ok {β : Type} {x : Except Overflow β} (h : ∀ b, x ≠ .ok b) : x = .error .overflow := by
  cases x with
  | error e => cases e; rfl
  | ok b => exact absurd rfl (h b)

theorem pushBackU_len {W : Nat} {v w : PV α} {x : α} (h : v.pushBackU W x = .ok w) : v.len + 1 < W := by
  unfold pushBackU at h
  cases hin : v.inner with
  | inline es =>
    simp only [hin] at h
    split at h
    · obtain ⟨b, h1, _⟩ := bind_ok.1 h; exact (addC_iff.1 h1).1
    · simp only [treePushBackU, transitionToTree, hin] at h
      obtain ⟨_, _, h⟩ := bind_ok.1 h
      obtain ⟨b, h1, _⟩ := bind_ok.1 h; exact (addC_iff.1 h1).1
  | tree t =>
    simp only [hin, treePushBackU] at h
    obtain ⟨_, _, h⟩ := bind_ok.1 h
    obtain ⟨b, h1, _⟩ := bind_ok.1 h; exact (addC_iff.1 h1).1

theorem concatU_len {W : Nat} {v w r : PV α} (h : v.concatU W w = .ok r) :
    v.isTree = false ∧ w.isTree = false ∨ v.len + w.len < W := by
  unfold concatU at h
  unfold isTree
  cases e1 : v.inner with
  | inline es =>
    cases e2 : w.inner with
    | inline fs => exact .inl ⟨rfl, rfl⟩
    | tree u =>
      simp only [e1, e2] at h
      obtain ⟨_, _, h⟩ := bind_ok.1 h
      obtain ⟨b, h1, _⟩ := bind_ok.1 h; exact .inr (addC_iff.1 h1).1
  | tree t =>
    cases e2 : w.inner with
    | inline fs =>
      simp only [e1, e2] at h
      obtain ⟨_, _, h⟩ := bind_ok.1 h
      obtain ⟨b, h1, _⟩ := bind_ok.1 h; exact .inr (addC_iff.1 h1).1
    | tree u =>
      simp only [e1, e2] at h
      obtain ⟨_, _, h⟩ := bind_ok.1 h
      obtain ⟨b, h1, _⟩ := bind_ok.1 h; exact .inr (addC_iff.1 h1).1

theorem pushFrontU_len {W : Nat} {v w : PV α} {x : α} (h : v.pushFrontU W x = .ok w) : v.len + 1 < W := by
  unfold pushFrontU at h
  cases hin : v.inner with
  | inline es =>
    simp only [hin] at h
    split at h
    · obtain ⟨b, h1, _⟩ := bind_ok.1 h; exact (addC_iff.1 h1).1
    · simp only [treePushFrontU, transitionToTree, hin] at h
      obtain ⟨_, _, h⟩ := bind_ok.1 h
      obtain ⟨b, h1, _⟩ := bind_ok.1 h; exact (addC_iff.1 h1).1
  | tree t =>
    simp only [hin, treePushFrontU] at h
    obtain ⟨_, _, h⟩ := bind_ok.1 h
    obtain ⟨b, h1, _⟩ := bind_ok.1 h; exact (addC_iff.1 h1).1

theorem intact_lens {v : PV α} (h : Intact v) :
    v.len = v.toVec.length ∧ v.tlen = v.toVec.length ∧ v.abs.length = v.toVec.length := by
  have hw := h.wf
  rw [toVec_eq hw]
  unfold WF at hw
  unfold tlen abs
  cases hin : v.inner with
  | inline es => rw [hin] at hw; exact ⟨hw.1, rfl, rfl⟩
  | tree t =>
    rw [hin] at hw
    have := hw.1.len
    simp only [Tree.toList, List.length_append]
    exact ⟨by omega, by omega, trivial⟩

/-- C85, `push_back` on a machine: on every intact vector it does what the unlimited model does if the new length fits
into a word, and overflows otherwise. -/
theorem c85_push_back_iff {v : PV α} (h : Intact v) (W : Nat) (x : α) :
    v.pushBackU W x = if v.toVec.length + 1 < W then .ok (v.pushBack x) else .error .overflow := by
  obtain ⟨h1, h2, h3⟩ := intact_lens h
  split
  · exact pushBackU_eq h.wf.lax (by omega) (by omega) (by omega) x
  · refine overflow_of_not_ok fun b hb => ?_
    have := pushBackU_len hb
    omega

/-- A word of 7 bits, 126 and 127 elements. -/
example : (PV.fromIter (List.range 126)).pushBackU 128 7 = .ok ((PV.fromIter (List.range 126)).pushBack 7) ∧
    (PV.fromIter (List.range 127)).pushBackU 128 7 = .error .overflow :=
  ⟨by rw [c85_push_back_iff (intact_fromIter _), if_pos (by decide +kernel)],
   by rw [c85_push_back_iff (intact_fromIter _), if_neg (by decide +kernel)]⟩

/-- The same for `push_front`. -/
theorem c85_push_front_iff {v : PV α} (h : Intact v) (W : Nat) (x : α) :
    v.pushFrontU W x = if v.toVec.length + 1 < W then .ok (v.pushFront x) else .error .overflow := by
  obtain ⟨h1, h2, h3⟩ := intact_lens h
  split
  · exact pushFrontU_eq h.wf.lax (by omega) (by omega) (by omega) x
  · refine overflow_of_not_ok fun b hb => ?_
    have := pushFrontU_len hb
    omega

example : (PV.fromIter (List.range 126)).pushFrontU 128 7 = .ok ((PV.fromIter (List.range 126)).pushFront 7) ∧
    (PV.fromIter (List.range 127)).pushFrontU 128 7 = .error .overflow :=
  ⟨by rw [c85_push_front_iff (intact_fromIter _), if_pos (by decide +kernel)],
   by rw [c85_push_front_iff (intact_fromIter _), if_neg (by decide +kernel)]⟩

/-- C85, `concat` on a machine: on intact vectors it does what the unlimited model does if the two lengths together fit
into a word, and overflows otherwise. -/
theorem c85_concat_iff {v w : PV α} (hv : Intact v) (hw : Intact w) {W : Nat} (hW : 128 < W) :
    v.concatU W w = if v.toVec.length + w.toVec.length < W then .ok (v.concat w) else .error .overflow := by
  obtain ⟨h1, h2, h3⟩ := intact_lens hv
  obtain ⟨g1, g2, g3⟩ := intact_lens hw
  split
  · exact concatU_eq hv.wf.lax hw.wf.lax (by omega) (by omega) (by omega)
  · rename_i hge
    refine overflow_of_not_ok fun b hb => ?_
    rcases concatU_len hb with ⟨i1, i2⟩ | hl
    · have s1 := hv.wf; have s2 := hw.wf
      unfold WF at s1 s2; unfold isTree at i1 i2
      cases e1 : v.inner with
      | tree t => simp [e1] at i1
      | inline es =>
        cases e2 : w.inner with
        | tree t => simp [e2] at i2
        | inline fs =>
          simp only [e1, e2] at s1 s2
          have := s1.2; have := s2.2
          simp only [ADAPTIVE_INLINE_SIZE] at *
          omega
    · omega

/-- A word of 8 bits: 100 and 155 elements, 100 and 156 elements. -/
example : (PV.fromIter (List.range 100)).concatU 256 (PV.fromIter (List.range 155)) =
      .ok ((PV.fromIter (List.range 100)).concat (PV.fromIter (List.range 155))) ∧
    (PV.fromIter (List.range 100)).concatU 256 (PV.fromIter (List.range 156)) = .error .overflow :=
  ⟨by rw [c85_concat_iff (intact_fromIter _) (intact_fromIter _) (by decide), if_pos (by decide +kernel)],
   by rw [c85_concat_iff (intact_fromIter _) (intact_fromIter _) (by decide), if_neg (by decide +kernel)]⟩

/-! ## Lengths and elements supplied -/

/-- A way to measure vectors that the calls respect: a call adds at most the elements it is given. -/
structure Measure (m : PV α → Nat) : Prop where
  fromIter : ∀ xs, m (PV.fromIter xs) ≤ xs.length
  new : m PV.new = 0
  pushBack : ∀ v x, v.Lax → m (v.pushBack x) ≤ m v + 1
  pushFront : ∀ v x, v.Lax → m (v.pushFront x) ≤ m v + 1
  update : ∀ v i x, v.Lax → m (v.update i x) ≤ m v
  concat : ∀ v w, v.Lax → w.Lax → m (v.concat w) ≤ m v + m w
  popBack : ∀ v w x, v.Lax → v.popBack = some (w, x) → m w ≤ m v
  popFront : ∀ v w x, v.Lax → v.popFront = some (w, x) → m w ≤ m v
  splitAt : ∀ v i, v.Lax → m (v.splitAt i).1 + m (v.splitAt i).2 ≤ m v

namespace Measure

variable {m : PV α → Nat} (hm : Measure m)
include hm

theorem extend (v : PV α) (xs : List α) (h : v.Lax) : m (v.extend xs) ≤ m v + xs.length := by
  unfold PV.extend
  induction xs generalizing v with
  | nil => simp
  | cons x xs ih =>
    have h1 := ih (v.pushBack x) (h.pushBack x)
    have h2 := hm.pushBack v x h
    simp only [List.foldl_cons, List.length_cons]; omega

theorem take (v : PV α) (n : Nat) (h : v.Lax) : m (v.take n) ≤ m v := by
  have := hm.splitAt v n h
  unfold PV.take; split <;> omega

theorem skip (v : PV α) (n : Nat) (h : v.Lax) : m (v.skip n) ≤ m v := by
  have := hm.splitAt v n h
  have := hm.new
  unfold PV.skip; split <;> omega

theorem insert (v : PV α) (i : Nat) (x : α) (h : v.Lax) : m (v.insert i x) ≤ m v + 1 := by
  obtain ⟨l1, l2⟩ := h.splitAt i
  have h1 := hm.splitAt v i h
  have h2 := hm.pushBack _ x l1
  have h3 := hm.concat _ _ (l1.pushBack x) l2
  unfold PV.insert; split
  · exact hm.pushBack v x h
  · split
    · exact hm.pushFront v x h
    · simp only; omega

theorem remove (v w : PV α) (i : Nat) (h : v.Lax) (hp : v.remove i = some w) : m w ≤ m v := by
  obtain ⟨l1, l2⟩ := h.splitAt i
  have h1 := hm.splitAt v i h
  have h2 := hm.skip _ 1 l2
  have h3 := hm.concat _ _ l1 (l2.skip 1)
  have h4 := hm.new
  unfold PV.remove at hp
  split at hp
  · cases hp
  · split at hp
    · cases hp; omega
    · simp only [Option.some.injEq] at hp; subst hp; omega

end Measure

theorem measure_len : Measure (α := α) PV.len where
  fromIter xs := Nat.le_of_eq (fromIter_spec xs).2.2
  new := rfl
  pushBack v x h := by
    unfold PV.pushBack; cases hin : v.inner with
    | inline es => simp only; split <;> simp [treePushBack, transitionToTree, hin]
    | tree t => simp [treePushBack, hin]
  pushFront v x h := by
    unfold PV.pushFront; cases hin : v.inner with
    | inline es => simp only; split <;> simp [treePushFront, transitionToTree, hin]
    | tree t => simp [treePushFront, hin]
  update v i x h := by
    unfold PV.update; split
    · exact Nat.le_refl _
    · cases v.inner <;> exact Nat.le_refl _
  concat v w hv hw := by
    unfold Lax at hv hw
    unfold PV.concat
    cases e1 : v.inner with
    | inline es =>
      cases e2 : w.inner with
      | inline fs =>
        rw [e1] at hv; rw [e2] at hw
        simp only [(fromIter_spec _).2.2, List.length_append]; omega
      | tree u => exact Nat.le_refl _
    | tree t => cases e2 : w.inner <;> exact Nat.le_refl _
  popBack v w x h hp := by
    unfold PV.popBack at hp
    split at hp
    · cases hp
    · cases hin : v.inner with
      | inline es =>
        simp only [hin] at hp
        split at hp
        · simp only [Option.some.injEq, Prod.mk.injEq] at hp
          obtain ⟨rfl, rfl⟩ := hp; simp
        · cases hp
      | tree t =>
        simp only [hin, Option.map_eq_some_iff, Prod.mk.injEq] at hp
        obtain ⟨⟨t', y⟩, e, rfl, rfl⟩ := hp; simp
  popFront v w x h hp := by
    unfold PV.popFront at hp
    split at hp
    · cases hp
    · cases hin : v.inner with
      | inline es =>
        simp only [hin] at hp
        split at hp
        · simp only [Option.some.injEq, Prod.mk.injEq] at hp
          obtain ⟨rfl, rfl⟩ := hp; simp
        · cases hp
      | tree t =>
        simp only [hin, Option.map_eq_some_iff, Prod.mk.injEq] at hp
        obtain ⟨⟨t', y⟩, e, rfl, rfl⟩ := hp; simp
  splitAt v i h := by
    unfold PV.splitAt; split
    · simp [PV.new]
    · split
      · simp [PV.new]
      · cases v.inner <;> simp <;> omega

/-- The larger of the length that the tree records and the number of elements stored. -/
def top (v : PV α) : Nat := max v.tlen v.abs.length

theorem top_inline {v : PV α} {es : List α} (h : v.inner = .inline es) : v.top = es.length := by
  simp [top, tlen, abs, h]

theorem top_tree {v : PV α} {t : Tree α} (h : v.inner = .tree t) : v.top = max t.len t.toList.length := by
  simp [top, tlen, abs, h]

end PV

theorem Tree.split_top {t : Tree α} (h : t.root.Sized) (i : Nat) :
    max (t.splitAt i).1.len (t.splitAt i).1.toList.length + max (t.splitAt i).2.len (t.splitAt i).2.toList.length ≤
      max t.len t.toList.length := by
  have hsub := (splitAt_sub t i).length_le
  obtain ⟨s1, s2⟩ := splitAt_sized h i
  simp only [List.length_append] at hsub
  have key : (t.splitAt i).1.len = (t.splitAt i).1.toList.length ∧ (t.splitAt i).2.len = (t.splitAt i).2.toList.length ∨
      t.splitAt i = (Tree.empty, t) ∨ t.splitAt i = (t, Tree.empty) := by
    have f : ∀ (hd : List α) (n : Node α) (tl : List α) (k : Nat), n.Sized →
        (fromHeadAndTreeAndTail hd n tl k).len = (fromHeadAndTreeAndTail hd n tl k).toList.length := by
      intro hd n tl k hn; simp [fromHeadAndTreeAndTail, toList, Node.calculateSize_eq hn]; omega
    have f1 : ∀ (hd : List α) (n : Node α), n.Sized → (fromHeadAndRoot hd n).len = (fromHeadAndRoot hd n).toList.length := by
      intro hd n hn; simp [fromHeadAndRoot, toList, Node.calculateSize_eq hn]
    have f2 : ∀ (tl : List α) (n : Node α), n.Sized → (fromRootAndTail n tl).len = (fromRootAndTail n tl).toList.length := by
      intro tl n hn; simp [fromRootAndTail, toList, Node.calculateSize_eq hn]
    simp only [splitAt] at s1 s2 ⊢
    split at s1
    · rename_i h1; exact .inr (.inl (by rw [if_pos h1]))
    · split at s1
      · rename_i h1 h2; exact .inr (.inr (by rw [if_neg h1, if_pos h2]))
      · split at s1
        · rename_i h1 h2 h3
          simp only [h1, h2, h3, if_true, if_false] at s2 ⊢
          exact .inl ⟨by simp [fromHead, toList], f _ _ _ _ s2⟩
        · split at s1
          · rename_i h1 h2 h3 h4
            simp only [h1, h2, h3, h4, if_true, if_false] at s2 ⊢
            exact .inl ⟨f _ _ _ _ s1, by simp [fromTail, toList]⟩
          · rename_i h1 h2 h3 h4
            simp only [h1, h2, h3, h4, if_false] at s2 ⊢
            exact .inl ⟨f1 _ _ s1, f2 _ _ s2⟩
  rcases key with ⟨k1, k2⟩ | k | k
  · omega
  · rw [k]; simp [Tree.empty, toList]
  · rw [k]; simp [Tree.empty, toList]

theorem Tree.concat_len (a b : Tree α) : (a.concat b).len = a.len + b.len := by
  simp only [concat, concatSameHeight, concatDifferentHeight, elevateTree]
  split
  · omega
  · split
    · omega
    · split
      · rfl
      · split
        · simp; omega
        · simp

theorem Tree.pushBack_len (t : Tree α) (x : α) : (t.pushBack x).len = t.len + 1 := by
  have hlen : t.pushTailToTree.len = t.len := by unfold pushTailToTree; split <;> rfl
  unfold pushBack; split
  · rfl
  · exact congrArg (· + 1) hlen

theorem Tree.pushFront_len (t : Tree α) (x : α) : (t.pushFront x).len = t.len + 1 := by
  have hlen : t.pushHeadToTree.len = t.len := by unfold pushHeadToTree; split <;> rfl
  unfold pushFront; split
  · rfl
  · exact congrArg (· + 1) hlen

theorem Tree.update_len (t : Tree α) (i : Nat) (x : α) : (t.update i x).len = t.len := by
  unfold update; split
  · rfl
  · split
    · rfl
    · simp only; split <;> rfl

theorem Tree.update_flat_length {t : Tree α} (h : t.root.Sized) (i : Nat) (x : α) :
    (t.update i x).toList.length = t.toList.length := by
  have hu := (Node.update_spec t.root h (i - t.head.length) x).2
  unfold update; split
  · rfl
  · split
    · simp [toList]
    · simp only; split
      · simp [toList, hu]
      · simp only [toList]; split <;> simp

theorem Tree.popBack_len {t t' : Tree α} {x : α} (h : t.popBack = some (t', x)) : t'.len ≤ t.len := by
  unfold popBack at h
  split at h
  · cases h
  · split at h
    · cases h; simp
    · unfold popFromTree at h
      split at h
      · cases h
      · simp only at h
        split at h
        · cases h
        · split at h
          · cases h
          · cases h; simp

theorem Tree.popFront_len {t t' : Tree α} {x : α} (h : t.popFront = some (t', x)) : t'.len ≤ t.len := by
  have tail : ∀ {t t' : Tree α}, t.popFrontFromTail = some (t', x) → t'.len ≤ t.len := by
    intro t t' h
    unfold popFrontFromTail at h
    simp only at h
    split at h
    · cases h; simp
    · cases h
  unfold popFront at h
  split at h
  · cases h
  · split at h
    · cases h; simp
    · unfold popFrontFromTree at h
      split at h
      · split at h
        · cases h; simp
        · exact tail h
      · exact tail h

namespace PV

theorem measure_top : Measure (α := α) PV.top where
  fromIter xs := by
    obtain ⟨h1, h2, _⟩ := intact_lens (intact_fromIter xs)
    have := congrArg List.length (fromIter_spec xs).2.1
    unfold top; omega
  new := rfl
  pushBack v x h := by
    have ha := congrArg List.length (pushBack_abs h x)
    have ht : (v.pushBack x).tlen = v.tlen + 1 := by
      unfold tlen PV.pushBack; cases hin : v.inner with
      | inline es =>
        by_cases hc : es.length < ADAPTIVE_INLINE_SIZE
        · simp [hc]
        · simp [hc, treePushBack, transitionToTree, hin, Tree.pushBack_len, (Tree.fromElements_spec es).2.2.1]
      | tree t => simp [treePushBack, hin, Tree.pushBack_len]
    simp only [List.length_append, List.length_singleton] at ha
    unfold top; omega
  pushFront v x h := by
    have ha := congrArg List.length (pushFront_abs h x)
    have ht : (v.pushFront x).tlen = v.tlen + 1 := by
      unfold tlen PV.pushFront; cases hin : v.inner with
      | inline es =>
        by_cases hc : es.length < ADAPTIVE_INLINE_SIZE
        · simp [hc]
        · simp [hc, treePushFront, transitionToTree, hin, Tree.pushFront_len, (Tree.fromElements_spec es).2.2.1]
      | tree t => simp [treePushFront, hin, Tree.pushFront_len]
    simp only [List.length_cons] at ha
    unfold top; omega
  update v i x h := by
    have key : (v.update i x).tlen = v.tlen ∧ (v.update i x).abs.length = v.abs.length := by
      unfold Lax at h
      unfold PV.update; split
      · exact ⟨rfl, rfl⟩
      · unfold tlen abs
        cases hin : v.inner with
        | inline es => simp
        | tree t =>
          rw [hin] at h
          exact ⟨Tree.update_len t i x, Tree.update_flat_length h i x⟩
    unfold top; omega
  concat v w hv hw := by
    have ha := (concat_abs hv hw).length_le
    have ht : (v.concat w).tlen = v.tlen + w.tlen := by
      unfold PV.concat
      cases e1 : v.inner with
      | inline es =>
        cases e2 : w.inner with
        | inline fs =>
          have := (intact_lens (intact_fromIter (es ++ fs))).2.1
          have h2 := congrArg List.length (toVec_eq (fromIter_spec (es ++ fs)).1)
          rw [(fromIter_spec (es ++ fs)).2.1] at h2
          simp only [List.length_append] at h2
          simp only [this, h2]; simp [tlen, e1, e2]
        | tree u => simp [tlen, e1, e2, Tree.concat_len, (Tree.fromElements_spec es).2.2.1]
      | tree t =>
        cases e2 : w.inner with
        | inline fs => simp [tlen, e1, e2, Tree.concat_len, (Tree.fromElements_spec fs).2.2.1]
        | tree u => simp [tlen, e1, e2, Tree.concat_len]
    simp only [List.length_append] at ha
    unfold top; omega
  popBack v w x h hp := by
    have ha := (popBack_abs h hp).1.length_le
    have ht : w.tlen ≤ v.tlen := by
      unfold PV.popBack at hp
      split at hp
      · cases hp
      · cases hin : v.inner with
        | inline es =>
          simp only [hin] at hp
          split at hp
          · simp only [Option.some.injEq, Prod.mk.injEq] at hp
            obtain ⟨rfl, rfl⟩ := hp; simp [tlen, hin]
          · cases hp
        | tree t =>
          simp only [hin, Option.map_eq_some_iff, Prod.mk.injEq] at hp
          obtain ⟨⟨t', y⟩, e, rfl, rfl⟩ := hp
          simpa [tlen, hin] using Tree.popBack_len e
    unfold top; omega
  popFront v w x h hp := by
    have ha := (popFront_abs h hp).length_le
    have ht : w.tlen ≤ v.tlen := by
      unfold PV.popFront at hp
      split at hp
      · cases hp
      · cases hin : v.inner with
        | inline es =>
          simp only [hin] at hp
          split at hp
          · simp only [Option.some.injEq, Prod.mk.injEq] at hp
            obtain ⟨rfl, rfl⟩ := hp; simp [tlen, hin]
          · cases hp
        | tree t =>
          simp only [hin, Option.map_eq_some_iff, Prod.mk.injEq] at hp
          obtain ⟨⟨t', y⟩, e, rfl, rfl⟩ := hp
          simpa [tlen, hin] using Tree.popFront_len e
    simp only [List.length_cons] at ha
    unfold top; omega
  splitAt v i h := by
    unfold Lax at h
    unfold PV.splitAt; split
    · simp [top, tlen, abs, PV.new]
    · split
      · simp [top, tlen, abs, PV.new]
      · cases hin : v.inner with
        | inline es => simp [top, tlen, abs, hin]; omega
        | tree t =>
          rw [hin] at h
          simpa [top, tlen, abs, hin] using Tree.split_top h i

end PV

/-! ## Programs: when lengths fit -/

namespace Instr

open PV

theorem ver_snoc (pool : List (PV α)) (v : PV α) (k : Nat) :
    ver (pool ++ [v]) k = if k = pool.length then v else ver pool k := by
  unfold ver
  split
  · rename_i h; subst h; simp
  · rename_i h
    rcases Nat.lt_or_ge k pool.length with hk | hk
    · rw [List.getElem?_append_left hk]
    · rw [List.getElem?_eq_none (by simp; omega), List.getElem?_eq_none hk]

theorem step_reach {pool : List (PV α)} (h : ∀ k, Reach (ver pool k)) (c : Instr α) : Reach (c.step pool) := by
  cases c with
  | fromIter xs => exact .fromIter xs
  | pushBack k x => exact .pushBack x (h k)
  | pushFront k x => exact .pushFront x (h k)
  | extend k xs => exact .extend xs (h k)
  | update k i x => exact .update i x (h k)
  | concat k l => exact .concat (h k) (h l)
  | popBack k =>
    simp only [step]
    cases e : (ver pool k).popBack with
    | none => exact h k
    | some p => exact .popBack (x := p.2) (h k) (by rw [e]; rfl)
  | popFront k =>
    simp only [step]
    cases e : (ver pool k).popFront with
    | none => exact h k
    | some p => exact .popFront (x := p.2) (h k) (by rw [e]; rfl)
  | splitLeft k i => exact .splitLeft i (h k)
  | splitRight k i => exact .splitRight i (h k)
  | take k n => exact .take n (h k)
  | skip k n => exact .skip n (h k)
  | insert k i x => exact .insert i x (h k)
  | remove k i =>
    simp only [step]
    cases e : (ver pool k).remove i with
    | none => exact h k
    | some p => exact .remove i (h k) e

/-- What a call can make of lengths up to `M`. -/
def grow (M : Nat) (c : Instr α) : Nat := if c.joins then 2 * M else M + c.supplied

theorem step_grow {m : PV α → Nat} (hm : Measure m) {pool : List (PV α)} (h : ∀ k, Reach (ver pool k)) {M : Nat}
    (hb : ∀ k, m (ver pool k) ≤ M) (c : Instr α) : m (c.step pool) ≤ c.grow M := by
  have l := fun k => (h k).lax
  cases c with
  | fromIter xs => have := hm.fromIter xs; simp only [step, grow, joins, supplied]; simp; omega
  | pushBack k x => have := hm.pushBack _ x (l k); have := hb k; simp only [step, grow, joins, supplied]; simp; omega
  | pushFront k x => have := hm.pushFront _ x (l k); have := hb k; simp only [step, grow, joins, supplied]; simp; omega
  | extend k xs => have := hm.extend _ xs (l k); have := hb k; simp only [step, grow, joins, supplied]; simp; omega
  | update k i x => have := hm.update _ i x (l k); have := hb k; simp only [step, grow, joins, supplied]; simp; omega
  | concat k j =>
    have := hm.concat _ _ (l k) (l j); have := hb k; have := hb j
    simp only [step, grow, joins, supplied]; simp; omega
  | popBack k =>
    have := hb k
    simp only [step, grow, joins, supplied]
    cases e : (ver pool k).popBack with
    | none => simpa using this
    | some p => have := hm.popBack _ p.1 p.2 (l k) (by rw [e]); simp; omega
  | popFront k =>
    have := hb k
    simp only [step, grow, joins, supplied]
    cases e : (ver pool k).popFront with
    | none => simpa using this
    | some p => have := hm.popFront _ p.1 p.2 (l k) (by rw [e]); simp; omega
  | splitLeft k i => have := hm.splitAt _ i (l k); have := hb k; simp only [step, grow, joins, supplied]; simp; omega
  | splitRight k i => have := hm.splitAt _ i (l k); have := hb k; simp only [step, grow, joins, supplied]; simp; omega
  | take k n => have := hm.take _ n (l k); have := hb k; simp only [step, grow, joins, supplied]; simp; omega
  | skip k n => have := hm.skip _ n (l k); have := hb k; simp only [step, grow, joins, supplied]; simp; omega
  | insert k i x => have := hm.insert _ i x (l k); have := hb k; simp only [step, grow, joins, supplied]; simp; omega
  | remove k i =>
    have := hb k
    simp only [step, grow, joins, supplied]
    cases e : (ver pool k).remove i with
    | none => simpa using this
    | some p => have := hm.remove _ p i (l k) e; simp; omega

theorem extendU_eq {W : Nat} (xs : List α) : ∀ {v : PV α}, v.Lax → v.len + xs.length < W → v.top + xs.length < W →
    v.extendU W xs = .ok (v.extend xs) := by
  induction xs with
  | nil => intro v _ _ _; rfl
  | cons x xs ih =>
    intro v h h1 h2
    simp only [List.length_cons] at h1 h2
    have g1 := measure_len.pushBack v x h
    have g2 := measure_top.pushBack v x h
    have : v.tlen ≤ v.top ∧ v.abs.length ≤ v.top := ⟨Nat.le_max_left _ _, Nat.le_max_right _ _⟩
    rw [extendU, pushBackU_eq h (by omega) (by omega) (by omega)]
    exact ih (h.pushBack x) (by omega) (by omega)

theorem stepU_eq {W : Nat} {pool : List (PV α)} (h : ∀ k, Reach (ver pool k)) {M : Nat}
    (h1 : ∀ k, (ver pool k).len ≤ M) (h2 : ∀ k, (ver pool k).top ≤ M) (c : Instr α) (hW : c.grow M < W) :
    c.stepU W pool = .ok (c.step pool) := by
  have l := fun k => (h k).lax
  have t : ∀ v : PV α, v.tlen ≤ v.top ∧ v.abs.length ≤ v.top :=
    fun v => ⟨Nat.le_max_left _ _, Nat.le_max_right _ _⟩
  have cat : ∀ {v w : PV α}, v.Lax → w.Lax → v.len + w.len < W → v.top + w.top < W →
      v.concatU W w = .ok (v.concat w) := by
    intro v w hv hw hl ht
    have := t v; have := t w
    exact concatU_eq hv hw hl (by omega) (by omega)
  have push : ∀ {v : PV α} (x : α), v.Lax → v.len + 1 < W → v.top + 1 < W →
      v.pushBackU W x = .ok (v.pushBack x) := by
    intro v x hv hl ht
    have := t v
    exact pushBackU_eq hv hl (by omega) (by omega) x
  cases c with
  | pushBack k x =>
    have := h1 k; have := h2 k
    simp only [grow, joins, supplied] at hW; simp at hW
    exact push x (l k) (by omega) (by omega)
  | pushFront k x =>
    have := h1 k; have := h2 k; have := t (ver pool k)
    simp only [grow, joins, supplied] at hW; simp at hW
    exact pushFrontU_eq (l k) (by omega) (by omega) (by omega) x
  | extend k xs =>
    have := h1 k; have := h2 k
    simp only [grow, joins, supplied] at hW; simp at hW
    exact extendU_eq xs (l k) (by omega) (by omega)
  | concat k j =>
    have := h1 k; have := h2 k; have := h1 j; have := h2 j
    simp only [grow, joins] at hW; simp at hW
    exact cat (l k) (l j) (by omega) (by omega)
  | insert k i x =>
    have := h1 k; have := h2 k; have := t (ver pool k)
    simp only [grow, joins, supplied] at hW; simp at hW
    simp only [stepU, step, insertU, PV.insert]
    obtain ⟨l1, l2⟩ := (l k).splitAt i
    have s1 := measure_len.splitAt _ i (l k)
    have s2 := measure_top.splitAt _ i (l k)
    split
    · exact push x (l k) (by omega) (by omega)
    · split
      · exact pushFrontU_eq (l k) (by omega) (by omega) (by omega) x
      · have g1 := measure_len.pushBack _ x l1
        have g2 := measure_top.pushBack _ x l1
        rw [push x l1 (by omega) (by omega)]
        exact cat (l1.pushBack x) l2 (by omega) (by omega)
  | remove k i =>
    have := h1 k; have := h2 k
    simp only [grow, joins, supplied] at hW; simp at hW
    simp only [stepU, step, removeU, PV.remove]
    obtain ⟨l1, l2⟩ := (l k).splitAt i
    have s1 := measure_len.splitAt _ i (l k)
    have s2 := measure_top.splitAt _ i (l k)
    split
    · rfl
    · split
      · rfl
      · have g1 := measure_len.skip _ 1 l2
        have g2 := measure_top.skip _ 1 l2
        rw [cat l1 (l2.skip 1) (by omega) (by omega)]
        rfl
  | _ => rfl

/-- What a program can make of lengths up to `M`. -/
def growAll (M : Nat) (prog : List (Instr α)) : Nat := prog.foldl grow M

theorem grow_mono {M N : Nat} (h : M ≤ N) (c : Instr α) : c.grow M ≤ c.grow N := by
  unfold grow; split <;> omega

theorem le_grow (M : Nat) (c : Instr α) : M ≤ c.grow M := by unfold grow; split <;> omega

theorem le_growAll (prog : List (Instr α)) : ∀ M, M ≤ growAll M prog := by
  induction prog with
  | nil => intro M; exact Nat.le_refl _
  | cons c prog ih => intro M; exact Nat.le_trans (le_grow M c) (ih _)

theorem growAll_le (prog : List (Instr α)) :
    ∀ M, growAll M prog ≤ (M + Rustica.PVec.supplied prog) * 2 ^ Rustica.PVec.joins prog := by
  induction prog with
  | nil => intro M; simp [growAll, Rustica.PVec.supplied, Rustica.PVec.joins]
  | cons c prog ih =>
    intro M
    refine Nat.le_trans (ih (c.grow M)) ?_
    simp only [Rustica.PVec.supplied, Rustica.PVec.joins, List.map_cons, List.sum_cons, List.countP_cons]
    unfold grow
    cases hj : c.joins with
    | true =>
      simp only [if_true, Nat.pow_succ]
      rw [← Nat.mul_assoc, Nat.mul_right_comm]
      refine Nat.mul_le_mul_right _ ?_
      omega
    | false =>
      simp only [Bool.false_eq_true, if_false, Nat.add_zero]
      refine Nat.mul_le_mul_right _ ?_
      omega

theorem runU_eq {W : Nat} (prog : List (Instr α)) : ∀ {pool : List (PV α)} {M : Nat}, (∀ k, Reach (ver pool k)) →
    (∀ k, (ver pool k).len ≤ M) → (∀ k, (ver pool k).top ≤ M) → growAll M prog < W →
    runU W pool prog = .ok (run pool prog) ∧ ∀ k, (ver (run pool prog) k).len ≤ growAll M prog := by
  induction prog with
  | nil => intro pool M _ h1 _ _; exact ⟨rfl, h1⟩
  | cons c prog ih =>
    intro pool M h h1 h2 hW
    have hc : c.grow M < W := Nat.lt_of_le_of_lt (le_growAll prog _) hW
    have r := step_reach h c
    have g1 := step_grow measure_len h h1 c
    have g2 := step_grow measure_top h h2 c
    have hM := le_grow M c
    rw [runU, stepU_eq h h1 h2 c hc]
    refine ih ?_ ?_ ?_ hW
    · intro k; rw [ver_snoc]; split
      · exact r
      · exact h k
    · intro k; rw [ver_snoc]; split
      · exact g1
      · exact Nat.le_trans (h1 k) hM
    · intro k; rw [ver_snoc]; split
      · exact g2
      · exact Nat.le_trans (h2 k) hM

end Instr

/-- C85, what holds: a program that supplies `m` elements and calls `concat` `k` times, on whatever versions and with any
other calls in between, has no overflow on a machine whose words have more than `m * 2 ^ k` values.  It makes the
versions that it makes with unlimited lengths.  (Missing: programs with more calls of `concat`; see `c85_overflow`.) -/
theorem c85_program_partial {W : Nat} (prog : List (Instr α)) (h : supplied prog * 2 ^ joins prog < W) :
    runU W [] prog = .ok (run [] prog) ∧
      ∀ k, (Instr.ver (run [] prog) k).len ≤ supplied prog * 2 ^ joins prog := by
  have hg := Instr.growAll_le prog 0
  simp only [Nat.zero_add] at hg
  obtain ⟨h1, h2⟩ := Instr.runU_eq (W := W) (pool := []) (M := 0) prog (by intro k; exact .new)
    (by intro k; exact Nat.le_refl _) (by intro k; exact Nat.le_refl _) (by omega)
  exact ⟨h1, fun k => Nat.le_trans (h2 k) hg⟩

/-- Four thousand elements doubled forty times fit into 64 bits. -/
example : runU (2 ^ 64) [] (Instr.fromIter (List.range 4000) :: (List.range 40).map fun k => Instr.concat k k) =
    .ok (run [] (Instr.fromIter (List.range 4000) :: (List.range 40).map fun k => Instr.concat k k)) :=
  (c85_program_partial _ (by decide +kernel)).1

/-! ## A short program that overflows -/

namespace Node

mutual
/-- What `concat_nodes` allocates for the left edge of a right operand, at most. -/
def leftEdge : Node α → Nat
  | .leaf es => 122 + 2 * es.length
  | .branch cs _ => 80 + 3 * cs.length + leftEdgeL cs
def leftEdgeL : List (Node α) → Nat
  | [] => 0
  | c :: _ => leftEdge c
end

mutual
/-- What `concat_nodes` allocates for the right edge of a left operand, at most. -/
def rightEdge : Node α → Nat
  | .leaf es => 122 + 2 * es.length
  | .branch cs _ => 80 + 3 * cs.length + rightEdgeL cs
def rightEdgeL : List (Node α) → Nat
  | [] => 0
  | [c] => rightEdge c
  | _ :: c :: cs => rightEdgeL (c :: cs)
end

theorem rightEdgeL_append (pre : List (Node α)) (c : Node α) : rightEdgeL (pre ++ [c]) = rightEdge c := by
  induction pre with
  | nil => simp [rightEdgeL]
  | cons p pre ih =>
    cases pre with
    | nil => simp [rightEdgeL]
    | cons q pre => simpa [rightEdgeL] using ih

end Node

namespace Tree

open Node

theorem concatLastSlots_append (pre : List (Node α)) (c r : Node α) :
    concatLastSlots (pre ++ [c]) r = concatNodesSlots c r := by
  induction pre with
  | nil => simp [concatLastSlots]
  | cons p pre ih =>
    cases pre with
    | nil => simp [concatLastSlots]
    | cons q pre => simpa [concatLastSlots] using ih

theorem concatNodesSlots_le (l : Node α) : ∀ r : Node α, concatNodesSlots l r ≤ rightEdge l + leftEdge r := by
  induction l using Node.induct with
  | hleaf es =>
    intro r
    cases r with
    | leaf fs => simp only [concatNodesSlots, rightEdge, leftEdge]; omega
    | branch cs s => simp only [concatNodesSlots, rightEdge, leftEdge]; omega
  | hbranch cs s ih =>
    intro r
    cases r with
    | leaf fs => simp only [concatNodesSlots, rightEdge, leftEdge]; omega
    | branch ds s =>
      cases ds with
      | nil => simp only [concatNodesSlots, rightEdge, leftEdge]; omega
      | cons d ds =>
        simp only [concatNodesSlots, rightEdge, leftEdge, leftEdgeL]
        by_cases hne : cs = []
        · subst hne; simp [concatLastSlots]; omega
        · obtain ⟨pre, c, rfl⟩ := exists_eq_append_singleton hne
          have := ih c (by simp) d
          rw [concatLastSlots_append, rightEdgeL_append]
          omega

/-- A branch with at least two children joined with itself. -/
theorem concatNodes_self (a b : Node α) (mid : List (Node α)) (s : Option (List Nat)) :
    ∃ m, concatNodes (.branch (a :: mid ++ [b]) s) (.branch (a :: mid ++ [b]) s) =
      makeRelaxed (a :: mid ++ m :: mid ++ [b]) := by
  refine ⟨concatNodes b a, ?_⟩
  have h1 : concatLast (a :: (mid ++ [b])) a = some (concatNodes b a) := concatLast_append (a :: mid) b a
  have h2 : (a :: (mid ++ [b])).dropLast = a :: mid := by rw [← List.cons_append, List.dropLast_concat]
  simp only [List.cons_append, concatNodes, h1, h2]
  simp

end Tree

/-- A run of `n` calls on a machine, without panic, whose last version is `v`; the calls supply `e` elements and allocate
at most `s` slots. -/
def Ends (W n s e : Nat) (v : PV α) : Prop :=
  ∃ (prog : List (Instr α)) (pool : List (PV α)) (m : Nat), runU W [] prog = .ok (pool ++ [v]) ∧
    run [] prog = pool ++ [v] ∧ prog.length = n ∧ pool.length + 1 = n ∧ memory [] prog = some m ∧ m ≤ s ∧
    supplied prog = e

theorem run_snoc (prog : List (Instr α)) (c : Instr α) : ∀ pool : List (PV α),
    run pool (prog ++ [c]) = run pool prog ++ [c.step (run pool prog)] := by
  induction prog with
  | nil => intro pool; rfl
  | cons d prog ih => intro pool; exact ih _

theorem runU_snoc {W : Nat} (prog : List (Instr α)) (c : Instr α) : ∀ pool : List (PV α),
    runU W pool (prog ++ [c]) = (runU W pool prog >>= fun p => c.stepU W p >>= fun v => .ok (p ++ [v])) := by
  induction prog with
  | nil => intro pool; rfl
  | cons d prog ih =>
    intro pool
    simp only [List.cons_append, runU]
    cases d.stepU W pool with
    | error e => rfl
    | ok v => exact ih _

theorem memory_snoc (prog : List (Instr α)) (c : Instr α) : ∀ (pool : List (PV α)) {m n : Nat},
    memory pool prog = some m → c.memory (run pool prog) = some n → memory pool (prog ++ [c]) = some (m + n) := by
  induction prog with
  | nil => intro pool m n h1 h2; cases h1; simp [memory, show c.memory pool = some n from h2]
  | cons d prog ih =>
    intro pool m n h1 h2
    simp only [memory, Option.bind_eq_bind, Option.bind_eq_some_iff] at h1
    obtain ⟨a, ha, b, hb, e⟩ := h1
    cases e
    simp only [List.cons_append, memory, ha, ih _ hb h2, Option.bind_eq_bind, Option.bind_some]
    congr 1; omega

namespace Ends

variable {W n s e : Nat} {v w : PV α}

theorem snoc (h : Ends W n s e v) (c : Instr α) {d : Nat}
    (hc : ∀ pool, Instr.ver pool (n - 1) = v →
      c.stepU W pool = .ok w ∧ c.step pool = w ∧ ∃ m, c.memory pool = some m ∧ m ≤ d) :
    Ends W (n + 1) (s + d) (e + c.supplied) w := by
  obtain ⟨prog, pool, m, h1, h2, h3, h4, h5, h6, h7⟩ := h
  obtain ⟨c1, c2, k, c3, c4⟩ := hc (pool ++ [v]) (by rw [Instr.ver_snoc, if_pos (by omega)])
  refine ⟨prog ++ [c], pool ++ [v], m + k, ?_, ?_, by simp [h3], by simp; omega, ?_, by omega, ?_⟩
  · rw [runU_snoc, h1]
    show (c.stepU W (pool ++ [v]) >>= _) = _
    rw [c1]; rfl
  · rw [run_snoc, h2, c2]
  · exact memory_snoc prog c [] h5 (by rw [h2]; exact c3)
  · simp [supplied] at h7 ⊢; omega

theorem pushBack (h : Ends W n s e v) (hv : Intact v) (hl : v.len + 1 < W) {t : Tree α} (ht : v.inner = .tree t)
    (x : α) {d : Nat} (hd : t.pushBackSlots x ≤ d) : Ends W (n + 1) (s + d) (e + 1) (v.pushBack x) := by
  refine h.snoc (.pushBack (n - 1) x) fun pool hp => ⟨?_, ?_, t.pushBackSlots x, ?_, hd⟩
  · simp only [Instr.stepU, hp, PV.c85_push_back_iff hv, ← (PV.intact_lens hv).1, hl, if_true]
  · simp only [Instr.step, hp]
  · simp only [Instr.memory, hp, PV.pushBackSlots, ht]

theorem popBack (h : Ends W n s e v) {t : Tree α} (ht : v.inner = .tree t) (hne : t.tail ≠ []) {x : α}
    (hp : v.popBack = some (w, x)) {d : Nat} (hd : t.slots ≤ d) : Ends W (n + 1) (s + d) e w := by
  refine h.snoc (.popBack (n - 1)) fun pool hv => ⟨?_, ?_, t.slots, ?_, hd⟩
  · simp only [Instr.stepU, Instr.step, hv, hp]; rfl
  · simp only [Instr.step, hv, hp]; rfl
  · simp [Instr.memory, hv, PV.popBackSlots, ht, hne]

end Ends

/-- A tree with `w` children below the root, all `L` elements in the tree, and edges of weight `l` and `r`. -/
def Good (w l r L : Nat) (v : PV α) : Prop :=
  Intact v ∧ v.len = L ∧ ∃ t cs s, v.inner = .tree t ∧ t.head = [] ∧ t.tail = [] ∧ t.root = .branch cs s ∧
    cs.length = w ∧ t.root.leftEdge = l ∧ t.root.rightEdge = r

theorem two_le_split {β : Type} {xs : List β} (h : 2 ≤ xs.length) : ∃ a mid b, xs = a :: mid ++ [b] := by
  cases xs with
  | nil => simp at h
  | cons a xs =>
    have : xs ≠ [] := by intro e; subst e; simp at h
    obtain ⟨mid, b, rfl⟩ := Node.exists_eq_append_singleton this
    exact ⟨a, mid, b, rfl⟩

theorem Good.double {W n s e w l r L : Nat} {v : PV α} (h : Good w l r L v) (hE : Ends W n s e v) (hw : 2 ≤ w)
    (h0 : 0 < L) (hW : 128 < W) (hl : 2 * L < W) :
    ∃ u : PV α, Good (2 * w - 1) (l + 3 * (w - 1)) (r + 3 * (w - 1)) (2 * L) u ∧
      Ends W (n + 1) (s + (800 + l + r)) e u := by
  obtain ⟨hi, hlen, t, cs, sz, ht, hh, htl, hr, hc, hle, hre⟩ := h
  have hlen' := (PV.intact_lens hi).1
  obtain ⟨htw, htlen, _⟩ := PV.Intact.tree hi ht
  have hcat : t.concat t = t.concatSameHeight t := by
    unfold Tree.concat
    rw [if_neg (by omega), if_neg (by omega), if_pos rfl]
  have hsame : t.concatSameHeight t = ⟨Tree.concatNodes t.root t.root, [], [], t.height, t.len + t.len⟩ := by
    simp [Tree.concatSameHeight, hh, htl]
  have hin : (v.concat v).inner = .tree ⟨Tree.concatNodes t.root t.root, [], [], t.height, t.len + t.len⟩ := by
    unfold PV.concat; rw [ht]; simp only; rw [hcat, hsame]
  have hIn : Intact (v.concat v) := ⟨(PV.concat_spec hi.wf hi.wf).1⟩
  obtain ⟨a, mid, b, rfl⟩ := two_le_split (hc ▸ hw)
  obtain ⟨m, hm⟩ := Tree.concatNodes_self a b mid sz
  rw [← hr] at hm
  refine ⟨v.concat v, ⟨hIn, ?_, _, a :: mid ++ m :: mid ++ [b], _, hin, rfl, rfl, hm, ?_, ?_, ?_⟩, ?_⟩
  · have := (PV.Intact.tree hIn hin).2.1
    simp only at this; omega
  · simp at hc ⊢; omega
  · show (Tree.concatNodes t.root t.root).leftEdge = _
    rw [hr] at hle
    rw [hm, ← hle]
    simp [Node.makeRelaxed, Node.leftEdge, Node.leftEdgeL] at hc ⊢; omega
  · show (Tree.concatNodes t.root t.root).rightEdge = _
    rw [hr] at hre
    rw [hm, ← hre]
    simp only [Node.makeRelaxed, Node.rightEdge, Node.rightEdgeL_append]
    simp at hc ⊢; omega
  · refine hE.snoc (.concat (n - 1) (n - 1)) fun pool hp => ⟨?_, ?_, ?_⟩
    · simp only [Instr.stepU, hp, PV.c85_concat_iff hi hi hW]
      rw [if_pos (by omega)]
    · simp only [Instr.step, hp]
    · have := Tree.concatNodesSlots_le t.root t.root
      refine ⟨_, by simp only [Instr.memory, hp, PV.concatSlots, ht, hh, htl, List.isEmpty_nil, Bool.and_self,
        BEq.rfl, if_true]; rfl, ?_⟩
      rw [hcat, hsame]
      simp only [Tree.slots, hh, htl, List.length_nil]
      omega

theorem Good.double_to {W n s e w l r L w' l' r' L' : Nat} {v : PV α} (h : Good w l r L v) (hE : Ends W n s e v)
    (hw : 2 ≤ w) (h0 : 0 < L) (hW : 128 < W) (hl : L' < W) (e1 : w' = 2 * w - 1) (e2 : l' = l + 3 * (w - 1))
    (e3 : r' = r + 3 * (w - 1)) (e4 : L' = 2 * L) :
    ∃ u : PV α, Good w' l' r' L' u ∧ Ends W (n + 1) (s + (800 + l + r)) e u := by
  subst e1 e2 e3 e4
  exact h.double hE hw h0 hW hl

theorem Good.pushes {W n s e : Nat} {v : PV α} {t : Tree α} (hi : Intact v) (ht : v.inner = .tree t)
    (htl : t.tail = []) (hh : t.head = []) (hE : Ends W n s e v) (hl : v.len + 64 < W) (x : α) : ∀ k, k ≤ 64 →
    ∃ u : PV α, Ends W (n + k) (s + k * 224) (e + k) u ∧ Intact u ∧ u.len = v.len + k ∧
      u.inner = .tree ⟨t.root, List.replicate k x, [], t.height, t.len + k⟩ := by
  intro k
  induction k with
  | zero =>
    intro _
    refine ⟨v, by simpa using hE, hi, rfl, ?_⟩
    rw [ht]; cases t; simp_all
  | succ k ih =>
    intro hk
    obtain ⟨u, h1, h2, h3, h4⟩ := ih (by omega)
    have htree : (Tree.mk t.root (List.replicate k x) [] t.height (t.len + k)).pushBack x =
        ⟨t.root, List.replicate (k + 1) x, [], t.height, t.len + (k + 1)⟩ := by
      simp only [Tree.pushBack, List.length_replicate, LEAF_CAPACITY]
      rw [if_pos (by omega), List.replicate_succ']
      rfl
    have hin : (u.pushBack x).inner = .tree ⟨t.root, List.replicate (k + 1) x, [], t.height, t.len + (k + 1)⟩ := by
      simp only [PV.pushBack, PV.treePushBack, h4, htree]
    have hI : Intact (u.pushBack x) := ⟨(PV.pushBack_spec h2.wf x).1⟩
    refine ⟨u.pushBack x, ?_, hI, ?_, hin⟩
    · have := h1.pushBack h2 (by omega) h4 x (d := 224) (by
        simp only [Tree.pushBackSlots, htree, Tree.slots, List.length_replicate, LEAF_CAPACITY]
        rw [if_pos (by omega)]; simp; omega)
      have e1 : s + k * 224 + 224 = s + (k + 1) * 224 := by omega
      rw [e1] at this; exact this
    · have g1 := (PV.Intact.tree hI hin).2.1
      have g2 := (PV.Intact.tree h2 h4).2.1
      simp only at g1 g2; omega

/-- The root after a full tail is pushed onto a full root (node.rs:245-255). -/
def raised (root : Node α) (x : α) : Node α :=
  .branch [root, .leaf (List.replicate 64 x)] (some [root.calculateSize, 64])

theorem Good.raise {W n s e w l r L : Nat} {v : PV α} (h : Good w l r L v) (hE : Ends W n s e v)
    (hw : 32 ≤ w) (hw' : w ≤ 33) (hl : L + 65 < W) (x : α) :
    ∃ u : PV α, Good 2 (86 + l) 336 (L + 64) u ∧ Ends W (n + 66) (s + 15276) (e + 65) u := by
  obtain ⟨hi, hlen, t, cs, sz, ht, hh, htl, hr, hc, hle, hre⟩ := h
  obtain ⟨htw, htlen, _⟩ := PV.Intact.tree hi ht
  obtain ⟨u, h1, h2, h3, h4⟩ := Good.pushes hi ht htl hh hE (by omega) x 64 (by omega)
  have hsz := htw.sized
  rw [hr] at hsz
  obtain ⟨hne, rfl, hcs⟩ := (Node.sized_branch _ _).1 hsz
  have hlt : ¬ cs.length < BRANCHING_FACTOR := by simp only [BRANCHING_FACTOR]; omega
  have hpl : t.root.pushLeaf (.leaf (List.replicate 64 x)) =
      raised t.root x := by
    rw [hr]; simp only [raised, Node.pushLeaf, hlt, if_false, Node.calculateSize, List.length_replicate]
  have htail : (Tree.mk t.root (List.replicate 64 x) [] t.height (t.len + 64)).pushTailToTree =
      ⟨raised t.root x, [], [],
        Tree.calculateHeight (raised t.root x),
        t.len + 64⟩ := by
    simp only [Tree.pushTailToTree, hpl]; rfl
  have hpush : (Tree.mk t.root (List.replicate 64 x) [] t.height (t.len + 64)).pushBack x =
      ⟨raised t.root x, [x], [],
        Tree.calculateHeight (raised t.root x),
        t.len + 65⟩ := by
    simp only [Tree.pushBack, List.length_replicate, LEAF_CAPACITY, htail]; rfl
  have hin : (u.pushBack x).inner = .tree ⟨raised t.root x, [x], [],
        Tree.calculateHeight (raised t.root x),
        t.len + 65⟩ := by
    simp only [PV.pushBack, PV.treePushBack, h4, hpush]
  have hI : Intact (u.pushBack x) := ⟨(PV.pushBack_spec h2.wf x).1⟩
  have hE2 := h1.pushBack h2 (by omega) h4 x (d := 713 + 2 * w) (by
    simp only [Tree.pushBackSlots, hpush, htail, Tree.slots, List.length_replicate, LEAF_CAPACITY, Node.pushLeafSlots,
      hpl, raised, Node.slots]
    rw [hr]
    simp [hc]; omega)
  have hulen := (PV.Intact.tree hI hin).2.1
  simp only at hulen
  have hpop : ∃ z, (u.pushBack x).popBack = some (z, x) ∧ Intact z ∧ z.len = L + 64 ∧
      z.inner = .tree ⟨raised t.root x, [], [],
        Tree.calculateHeight (raised t.root x),
        t.len + 64⟩ := by
    have hp : (u.pushBack x).popBack = some (⟨.tree ⟨raised t.root x, [], [],
        Tree.calculateHeight (raised t.root x),
        t.len + 64⟩, (u.pushBack x).len - 1, (u.pushBack x).generation + 1⟩, x) := by
      unfold PV.popBack
      rw [if_neg (by simp [PV.isEmpty]; omega)]
      simp only [hin, Tree.popBack]
      rw [if_neg (by omega)]
      rfl
    refine ⟨_, hp, ?_, ?_, rfl⟩
    · refine (PV.intact_tree rfl).2 ⟨⟨?_, ?_⟩, ?_⟩
      · exact (PV.Intact.tree hI hin).1.sized
      · have := (PV.Intact.tree hI hin).1.len
        simp only [List.length_nil, List.length_singleton] at this ⊢; omega
      · simp only; omega
    · simp only; omega
  obtain ⟨z, hp, hz, hzl, hzi⟩ := hpop
  refine ⟨z, ⟨hz, hzl, _, _, _, hzi, rfl, rfl, rfl, rfl, ?_, ?_⟩, ?_⟩
  · simp only [raised, Node.leftEdge, Node.leftEdgeL, hle]; simp
  · simp only [raised, Node.rightEdge, Node.rightEdgeL]; simp
  · obtain ⟨prog, pool, m, a1, a2, a3, a4, a5, a6, a7⟩ := hE2.popBack hin (by simp) hp (d := 161) (by simp [Tree.slots])
    exact ⟨prog, pool, m, a1, a2, a3, a4, a5, by omega, a7⟩

/-- The length after `k` rounds, each of which raises the root and doubles five times. -/
def roundLen : Nat → Nat
  | 0 => 2048
  | k + 1 => 32 * (roundLen k + 64)

theorem Good.round {W n s e w l r L : Nat} {v : PV α} (h : Good w l r L v) (hE : Ends W n s e v)
    (hw : 32 ≤ w) (hw' : w ≤ 33) (h0 : 0 < L) (hW : 128 < W) (hl : 32 * (L + 64) < W) (x : α) :
    ∃ u : PV α, Good 33 (l + 179) 429 (32 * (L + 64)) u ∧ Ends W (n + 71) (s + (22316 + 5 * l)) (e + 65) u := by
  obtain ⟨v0, g0, e0⟩ := h.raise hE hw hw' (by omega) x
  obtain ⟨v1, g1, e1⟩ := g0.double_to (w' := 3) (l' := l + 89) (r' := 339) (L' := 2 * (L + 64)) e0 (by omega) (by omega)
    hW (by omega) (by omega) (by omega) (by omega) (by omega)
  obtain ⟨v2, g2, e2⟩ := g1.double_to (w' := 5) (l' := l + 95) (r' := 345) (L' := 4 * (L + 64)) e1 (by omega) (by omega)
    hW (by omega) (by omega) (by omega) (by omega) (by omega)
  obtain ⟨v3, g3, e3⟩ := g2.double_to (w' := 9) (l' := l + 107) (r' := 357) (L' := 8 * (L + 64)) e2 (by omega) (by omega)
    hW (by omega) (by omega) (by omega) (by omega) (by omega)
  obtain ⟨v4, g4, e4⟩ := g3.double_to (w' := 17) (l' := l + 131) (r' := 381) (L' := 16 * (L + 64)) e3 (by omega)
    (by omega) hW (by omega) (by omega) (by omega) (by omega) (by omega)
  obtain ⟨v5, g5, e5⟩ := g4.double_to (w' := 33) (l' := l + 179) (r' := 429) (L' := 32 * (L + 64)) e4 (by omega)
    (by omega) hW (by omega) (by omega) (by omega) (by omega) (by omega)
  refine ⟨v5, g5, ?_⟩
  obtain ⟨prog, pool, m, b1, b2, b3, b4, b5, b6, b7⟩ := e5
  exact ⟨prog, pool, m, b1, b2, by omega, by omega, b5, by omega, by omega⟩

/-- The shape of the vector that the program starts with. -/
def baseOk (v : PV Nat) : Bool :=
  match v.inner with
  | .inline _ => false
  | .tree t =>
    t.head.isEmpty && t.tail.isEmpty && (t.root.leftEdge == 426) && (t.root.rightEdge == 426) &&
      match t.root with
      | .leaf _ => false
      | .branch cs _ => cs.length == 32

theorem base_shape {v : PV Nat} (h : baseOk v = true) : ∃ t cs s, v.inner = .tree t ∧ t.head = [] ∧ t.tail = [] ∧
    t.root = .branch cs s ∧ cs.length = 32 ∧ t.root.leftEdge = 426 ∧ t.root.rightEdge = 426 := by
  unfold baseOk at h
  cases hin : v.inner with
  | inline es => rw [hin] at h; cases h
  | tree t =>
    rw [hin] at h
    simp only [Bool.and_eq_true, List.isEmpty_iff, beq_iff_eq] at h
    obtain ⟨⟨⟨⟨h1, h2⟩, h3⟩, h4⟩, h5⟩ := h
    cases hr : t.root with
    | leaf es => rw [hr] at h5; cases h5
    | branch cs s =>
      rw [hr] at h5
      exact ⟨t, cs, s, rfl, h1, h2, hr, by simpa using h5, h3, h4⟩

theorem rounds (W : Nat) (hW : 128 < W) (k : Nat) (hl : roundLen k < W) : ∃ (v : PV Nat) (w l r : Nat),
    Good w l r (roundLen k) v ∧ 32 ≤ w ∧ w ≤ 33 ∧ l ≤ 427 + 179 * k ∧ r ≤ 429 ∧
    Ends W (1 + 71 * k) (16000 + k * (22316 + 5 * (427 + 179 * k))) (2048 + 65 * k) v := by
  induction k with
  | zero =>
    have hI : Intact (PV.fromIter (List.replicate 2048 7)) := PV.intact_fromIter _
    have hlen := (PV.fromIter_spec (List.replicate 2048 7)).2.2
    have key := base_shape (v := PV.fromIter (List.replicate 2048 7)) (by decide +kernel)
    refine ⟨PV.fromIter (List.replicate 2048 7), 32, 426, 426, ⟨hI, by rw [hlen, List.length_replicate]; rfl, key⟩, by omega,
      by omega, by omega, by omega, [.fromIter (List.replicate 2048 7)], [], 15280, rfl, rfl, rfl, rfl, ?_, by omega, ?_⟩
    · decide +kernel
    · decide +kernel
  | succ k ih =>
    have : roundLen k < roundLen (k + 1) := by simp only [roundLen]; omega
    obtain ⟨v, w, l, r, h1, h2, h3, h4, h5, h6⟩ := ih (by omega)
    have h0 : 0 < roundLen k := by cases k <;> simp [roundLen]
    obtain ⟨u, g, prog, pool, m, b1, b2, b3, b4, b5, b6, b7⟩ := h1.round h6 h2 h3 h0 hW hl 7
    refine ⟨u, 33, l + 179, 429, g, by omega, by omega, by omega, by omega, prog, pool, m, b1, b2, by omega, by omega,
      b5, ?_, by omega⟩
    have e1 : k * (22316 + 5 * (427 + 179 * k)) ≤ k * (22316 + 5 * (427 + 179 * (k + 1))) :=
      Nat.mul_le_mul_left _ (by omega)
    rw [Nat.succ_mul]
    omega

/-- C85, the claim fails: a program of fewer than 1000 calls, which supplies fewer than 3000 elements and allocates less
than 2^20 words, overflows the 64 bits of a length.  It starts with 2048 elements, and repeats: 65 calls of `push_back`
and one of `pop_back`, which put a new root with two children on top; five times `concat` of the vector with itself,
which shares all subtrees except those along the seam. -/
theorem c85_overflow : ∃ (prog : List (Instr Nat)) (m : Nat), prog.length < 1000 ∧ supplied prog < 3000 ∧
    memory [] prog = some m ∧ m < 2 ^ 20 ∧ runU (2 ^ 64) [] prog = .error .overflow := by
  have hW : 128 < 2 ^ 64 := by decide
  obtain ⟨v, w, l, r, h1, h2, h3, h4, h5, h6⟩ := rounds (2 ^ 64) hW 10 (by decide +kernel)
  obtain ⟨v0, g0, e0⟩ := h1.raise h6 h2 h3 (by decide +kernel) 7
  obtain ⟨v1, g1, e1⟩ := g0.double_to (w' := 3) (l' := l + 89) (r' := 339) (L' := 2 * (roundLen 10 + 64)) e0 (by omega)
    (by omega) hW (by decide +kernel) (by omega) (by omega) (by omega) (by omega)
  obtain ⟨v2, g2, e2⟩ := g1.double_to (w' := 5) (l' := l + 95) (r' := 345) (L' := 4 * (roundLen 10 + 64)) e1 (by omega)
    (by omega) hW (by decide +kernel) (by omega) (by omega) (by omega) (by omega)
  obtain ⟨prog, pool, m, b1, b2, b3, b4, b5, b6, b7⟩ := e2
  obtain ⟨hi, hlen, t, cs, sz, ht, hh, htl, hr, hc, hle, hre⟩ := g2
  have hver : Instr.ver (pool ++ [v2]) (prog.length - 1) = v2 := by rw [Instr.ver_snoc, if_pos (by omega)]
  have hmem := Tree.concatNodesSlots_le t.root t.root
  have hcat : (t.concat t).slots = 160 := by
    have h0 : t.len ≠ 0 := by
      have := (PV.Intact.tree hi ht).2.1
      omega
    unfold Tree.concat
    rw [if_neg h0, if_neg h0, if_pos rfl]
    simp [Tree.slots, Tree.concatSameHeight, hh, htl]
  refine ⟨prog ++ [.concat (prog.length - 1) (prog.length - 1)],
    m + (2 * t.slots + 2 * t.slots + Tree.concatNodesSlots t.root t.root + (t.concat t).slots), ?_, ?_, ?_, ?_, ?_⟩
  · simp [b3]
  · simp only [supplied, List.map_append, List.sum_append] at b7 ⊢
    rw [b7]; simp [Instr.supplied]
  · refine memory_snoc prog _ [] b5 ?_
    simp only [Instr.memory, b2, hver, PV.concatSlots, ht, hh, htl, List.isEmpty_nil, Bool.and_self, BEq.rfl, if_true]
  · have : t.slots = 160 := by simp [Tree.slots, hh, htl]
    omega
  · rw [runU_snoc, b1]
    show (Instr.stepU (2 ^ 64) (pool ++ [v2]) _ >>= _) = _
    have hov : ¬ v2.toVec.length + v2.toVec.length < 2 ^ 64 := by
      rw [← (PV.intact_lens hi).1, hlen]; decide +kernel
    simp only [Instr.stepU, hver, PV.c85_concat_iff hi hi hW]
    rw [if_neg hov]
    rfl

/-- C85, builds without overflow checks: a vector that records the wrapped length does not read as the elements of the
two operands, whatever else it contains. -/
theorem c85_wrapped {v w u : PV α} {W : Nat} (h0 : 0 < W)
    (hW : W ≤ v.toVec.length + w.toVec.length) (hu : u.len = (v.len + w.len) % W) :
    ¬ u.Shows (v.toVec ++ w.toVec) := by
  intro h
  have h1 := h.len
  have h2 := Nat.mod_lt (v.len + w.len) h0
  simp only [List.length_append] at h1
  omega

/-- On words of 7 bits, 100 elements and 100 elements. -/
example : ¬ (PV.fromIter (List.range 72)).Shows
    ((PV.fromIter (List.range 100)).toVec ++ (PV.fromIter (List.range 100)).toVec) :=
  c85_wrapped (W := 128) (by decide) (by decide +kernel) (by decide +kernel)

end Rustica.PVec
