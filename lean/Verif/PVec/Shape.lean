import Verif.PVec.PopSplit

/-!
# Shape invariants

`Bal d` are the trees produced by `build_tree_recursive`: all leaves at depth `d`
and non-empty.  `LD` ("left-deep") are the roots produced by any history of
`from_iter`, `push_back`, `update`, `pop_back` and `split_at`.  For those the
height that the code recomputes along the leftmost spine is the real depth, and
the rightmost leaf is not empty.
-/

namespace Rustica.PVec
open Node Tree

variable {α : Type}

/-- All leaves are at depth `d` and hold at least one element. -/
inductive Bal : Nat → Node α → Prop where
  | leaf {es : List α} : es ≠ [] → Bal 0 (.leaf es)
  | branch {d : Nat} {cs : List (Node α)} {s} : cs ≠ [] → (∀ c ∈ cs, Bal d c) →
      Bal (d + 1) (.branch cs s)

/-- Left-deep roots: a leaf; or a left-deep first child followed by non-empty
leaves; or balanced children of equal depth followed by non-empty leaves. -/
inductive LD : Node α → Prop where
  | leaf (es : List α) : LD (.leaf es)
  | spine {c : Node α} {ls : List (Node α)} {s} : LD c → (∀ l ∈ ls, Bal 0 l) →
      LD (.branch (c :: ls) s)
  | wide {d : Nat} {cs ls : List (Node α)} {s} : cs ≠ [] → (∀ c ∈ cs, Bal d c) →
      (∀ l ∈ ls, Bal 0 l) → LD (.branch (cs ++ ls) s)

theorem depthL_const {cs : List (Node α)} {d : Nat} (hne : cs ≠ []) (h : ∀ c ∈ cs, c.depth = d) :
    depthL cs = d := by
  induction cs with
  | nil => exact absurd rfl hne
  | cons c cs ih =>
    simp only [depthL, h c (by simp)]
    by_cases hcs : cs = []
    · simp [hcs, depthL]
    · rw [ih hcs fun x hx => h x (by simp [hx])]; omega

theorem depthL_append (as bs : List (Node α)) : depthL (as ++ bs) = max (depthL as) (depthL bs) := by
  induction as with
  | nil => simp [depthL]
  | cons a as ih => simp only [List.cons_append, depthL, ih]; omega

theorem Bal.depth {d : Nat} {n : Node α} (h : Bal d n) : n.depth = d := by
  induction h with
  | leaf _ => simp
  | branch hne _ ih => simp [depthL_const hne ih]; omega

theorem Bal.height {d : Nat} {n : Node α} (h : Bal d n) : calculateHeight n = d := by
  induction h with
  | leaf _ => simp [calculateHeight]
  | @branch d cs s hne _ ih =>
    cases cs with
    | nil => exact absurd rfl hne
    | cons c cs => simp [calculateHeight, ih c (by simp)]; omega

theorem Bal.flat_ne {d : Nat} {n : Node α} (h : Bal d n) : n.flat ≠ [] := by
  induction h with
  | leaf h => simpa using h
  | @branch d cs s hne _ ih =>
    cases cs with
    | nil => exact absurd rfl hne
    | cons c cs => simp [ih c (by simp)]

theorem Bal.lastLeaf_ne {d : Nat} {n : Node α} (h : Bal d n) : n.lastLeaf ≠ [] := by
  induction h with
  | leaf h => simpa using h
  | @branch d cs s hne _ ih =>
    obtain ⟨pre, c, rfl⟩ := exists_eq_append_singleton hne
    simpa [lastLeafL_append] using ih c (by simp)

theorem Bal.firstLeaf_ne {d : Nat} {n : Node α} (h : Bal d n) : n.firstLeaf ≠ [] := by
  induction h with
  | leaf h => simpa using h
  | @branch d cs s hne _ ih =>
    cases cs with
    | nil => exact absurd rfl hne
    | cons c cs => simpa using ih c (by simp)

theorem Bal.zero {n : Node α} (h : Bal 0 n) : ∃ es, n = .leaf es ∧ es ≠ [] := by
  cases h with
  | leaf h => exact ⟨_, rfl, h⟩

theorem Bal.ld {d : Nat} {n : Node α} (h : Bal d n) : LD n := by
  cases h with
  | leaf _ => exact .leaf _
  | @branch d cs s hne hc =>
    have := LD.wide (s := s) (ls := []) hne hc (by simp)
    simpa using this

theorem LD.height {n : Node α} (h : LD n) : calculateHeight n = n.depth := by
  induction h with
  | leaf es => simp [calculateHeight]
  | @spine c ls s _ hl ih =>
    simp only [calculateHeight, depth_branch, depthL, ih]
    have : depthL ls ≤ 0 := depthL_le.2 fun l hl' => by simp [(hl l hl').depth]
    omega
  | @wide d cs ls s hne hc hl =>
    cases cs with
    | nil => exact absurd rfl hne
    | cons c cs =>
      simp only [List.cons_append, calculateHeight, depth_branch, depthL, (hc c (by simp)).height,
        (hc c (by simp)).depth, depthL_append]
      have h1 : depthL ls ≤ 0 := depthL_le.2 fun l hl' => by simp [(hl l hl').depth]
      have h2 : depthL cs ≤ d := depthL_le.2 fun l hl' => by simp [(hc l (by simp [hl'])).depth]
      omega

theorem LD.lastLeaf_ne {n : Node α} (h : LD n) (hf : n.flat ≠ []) : n.lastLeaf ≠ [] := by
  induction h with
  | leaf es => simpa using hf
  | @spine c ls s _ hl ih =>
    by_cases hls : ls = []
    · subst hls
      simp only [flat_branch, flatL_cons, flatL_nil, List.append_nil] at hf
      simpa [lastLeafL] using ih hf
    · obtain ⟨pre, l, rfl⟩ := exists_eq_append_singleton hls
      have := (hl l (by simp)).lastLeaf_ne
      have h2 := lastLeafL_append (c :: pre) l
      simp only [List.cons_append] at h2
      simpa [h2] using this
  | @wide d cs ls s hne hc hl =>
    by_cases hls : ls = []
    · subst hls
      obtain ⟨pre, c, rfl⟩ := exists_eq_append_singleton hne
      simpa [lastLeafL_append] using (hc c (by simp)).lastLeaf_ne
    · obtain ⟨pre, l, rfl⟩ := exists_eq_append_singleton hls
      have := (hl l (by simp)).lastLeaf_ne
      have h2 := lastLeafL_append (cs ++ pre) l
      simp only [List.append_assoc] at h2
      simpa [h2] using this

/-! ### Shape under `push_leaf` -/

theorem LD.pushLeaf {n : Node α} (h : LD n) {es : List α} (hes : es ≠ []) :
    LD (n.pushLeaf (.leaf es)) := by
  have hb : Bal 0 (.leaf es) := .leaf hes
  have hsp : ∀ m : Node α, LD m → ∀ s, LD (.branch [m, .leaf es] s) := fun m hm s =>
    .spine hm (by simpa using hb)
  cases h with
  | leaf fs => exact hsp _ (.leaf fs) _
  | @spine c ls s hc hl =>
    simp only [Node.pushLeaf]
    split
    · rw [List.cons_append]
      exact .spine hc (by
        intro l hl'
        simp only [List.mem_append, List.mem_singleton] at hl'
        rcases hl' with hl' | rfl
        · exact hl l hl'
        · exact hb)
    · exact hsp _ (.spine hc hl) _
  | @wide d cs ls s hne hc hl =>
    simp only [Node.pushLeaf]
    split
    · rw [List.append_assoc]
      exact .wide hne hc (by
        intro l hl'
        simp only [List.mem_append, List.mem_singleton] at hl'
        rcases hl' with hl' | rfl
        · exact hl l hl'
        · exact hb)
    · exact hsp _ (.wide hne hc hl) _

/-! ### Shape under `update` -/

theorem updateL_mem (cs : List (Node α)) (P : Node α → Prop) (x : α) (hP : ∀ c ∈ cs, P c)
    (hupd : ∀ c ∈ cs, ∀ j, P (c.update j x)) :
    ∀ i j, ∀ c ∈ updateL cs i j x, P c := by
  induction cs with
  | nil => intro i j c h; simp [updateL] at h
  | cons d ds ih =>
    intro i j c h
    cases i with
    | zero =>
      simp only [updateL, List.mem_cons] at h
      rcases h with rfl | h
      · exact hupd d (by simp) j
      · exact hP c (by simp [h])
    | succ i =>
      simp only [updateL, List.mem_cons] at h
      rcases h with rfl | h
      · exact hP c (by simp)
      · exact ih (fun c hc => hP c (by simp [hc])) (fun c hc => hupd c (by simp [hc])) i j c h

theorem updateL_length (cs : List (Node α)) (x : α) : ∀ i j, (updateL cs i j x).length = cs.length := by
  induction cs with
  | nil => intro i j; simp [updateL]
  | cons d ds ih => intro i j; cases i <;> simp [updateL, ih]

theorem updateL_append_split (as bs : List (Node α)) (x : α) : ∀ i j,
    updateL (as ++ bs) i j x =
      if i < as.length then updateL as i j x ++ bs else as ++ updateL bs (i - as.length) j x := by
  induction as with
  | nil => intro i j; simp
  | cons a as ih =>
    intro i j
    cases i with
    | zero => simp [updateL]
    | succ i =>
      simp only [List.cons_append, updateL, ih, List.length_cons, Nat.add_lt_add_iff_right]
      split
      · simp
      · simp

theorem Bal.update {d : Nat} {n : Node α} (h : Bal d n) (x : α) : ∀ i, Bal d (n.update i x) := by
  induction h with
  | leaf h =>
    intro i
    simp only [Node.update]
    split
    · exact .leaf (by simpa using h)
    · exact .leaf h
  | @branch d cs s hne hc ih =>
    intro i
    rw [Node.update]
    split
    · rename_i ci si _
      refine .branch ?_ (updateL_mem cs (Bal d) x hc (fun c hc' j => ih c hc' j) ci si)
      intro h0
      have := congrArg List.length h0
      rw [updateL_length] at this
      exact hne (List.length_eq_zero_iff.1 this)
    · exact .branch hne hc

theorem LD.update {n : Node α} (h : LD n) (x : α) : ∀ i, LD (n.update i x) := by
  induction h with
  | leaf es => intro i; simp only [Node.update]; exact .leaf _
  | @spine c ls s hc hl ih =>
    intro i
    rw [Node.update]
    split
    · rename_i ci si _
      cases ci with
      | zero => simp only [updateL]; exact .spine (ih si) hl
      | succ ci =>
        simp only [updateL]
        exact .spine hc (updateL_mem ls (Bal 0) x hl (fun c hc' j => (hl c hc').update x j) ci si)
    · exact .spine hc hl
  | @wide d cs ls s hne hc hl =>
    intro i
    rw [Node.update]
    split
    · rename_i ci si _
      rw [updateL_append_split]
      split
      · refine .wide ?_ (updateL_mem cs (Bal d) x hc (fun c hc' j => (hc c hc').update x j) ci si) hl
        intro h0
        have := congrArg List.length h0
        rw [updateL_length] at this
        exact hne (List.length_eq_zero_iff.1 this)
      · exact .wide hne hc
          (updateL_mem ls (Bal 0) x hl (fun c hc' j => (hl c hc').update x j) _ si)
    · exact .wide hne hc hl

theorem updateL_depth (cs : List (Node α)) (x : α) (h : ∀ c ∈ cs, ∀ j, (c.update j x).depth = c.depth) :
    ∀ i j, depthL (updateL cs i j x) = depthL cs := by
  induction cs with
  | nil => intro i j; simp [updateL]
  | cons d ds ih =>
    intro i j
    cases i with
    | zero => simp [updateL, depthL, h d (by simp) j]
    | succ i => simp [updateL, depthL, ih (fun c hc => h c (by simp [hc])) i j]

theorem update_depth (n : Node α) (x : α) : ∀ i, (n.update i x).depth = n.depth := by
  induction n using Node.induct with
  | hleaf es => intro i; simp [Node.update]
  | hbranch cs s ih =>
    intro i
    rw [Node.update]
    split
    · simp [updateL_depth cs x ih]
    · rfl

/-! ### Shape under `pop_back` -/

theorem popBack_branch_append (pre : List (Node α)) (c c' : Node α) (s) (x : α)
    (hp : c.popBack = some (c', x)) :
    ∃ s' : Option (List Nat), (Node.branch (pre ++ [c]) s).popBack = some
      (if c'.calculateSize = 0 then (if pre = [] then .leaf [] else .branch pre s')
       else .branch (pre ++ [c']) s', x) := by
  rw [Node.popBack]
  simp only [popBackLast_append, hp]
  have hlen : (pre ++ [c]).length - 1 = pre.length := by simp
  rw [hlen]
  by_cases h0 : c'.calculateSize = 0
  · simp only [h0, if_true, List.dropLast_concat]
    by_cases hpre : pre = []
    · simp [hpre]
    · simp [hpre]
  · simp only [h0, if_false]
    refine ⟨updateSizeTableAfterUpdate s pre.length c'.calculateSize, ?_⟩
    rw [List.set_append_right _ _ (Nat.le_refl _)]
    simp

theorem Bal.popBack {d : Nat} {n : Node α} (h : Bal d n) : n.Sized → ∀ n' x,
    n.popBack = some (n', x) → n'.flat = [] ∨ Bal d n' := by
  induction h with
  | @leaf es h =>
    intro _ n' x hp
    simp only [Node.popBack, List.getLast?_eq_some_getLast h, Option.some.injEq, Prod.mk.injEq] at hp
    obtain ⟨rfl, _⟩ := hp
    by_cases h0 : es.dropLast = []
    · left; simpa using h0
    · right; exact .leaf h0
  | @branch d cs s hne hc ih =>
    intro hs n' x hp
    obtain ⟨_, rfl, hsc⟩ := (sized_branch _ _).1 hs
    obtain ⟨pre, c, rfl⟩ := exists_eq_append_singleton hne
    rcases Node.popBack_spec c (hsc c (by simp)) with ⟨_, c', y, hpc, hs', hf⟩ | ⟨hbad, _⟩
    · obtain ⟨s', he⟩ := popBack_branch_append pre c c' _ y hpc
      rw [he] at hp
      simp only [Option.some.injEq, Prod.mk.injEq] at hp
      obtain ⟨rfl, rfl⟩ := hp
      rw [calculateSize_eq hs']
      rcases ih c (by simp) (hsc c (by simp)) c' _ hpc with hnil | hb
      · simp only [hnil, List.length_nil, if_true]
        by_cases hpre : pre = []
        · simp [hpre]
        · right
          simp only [hpre, if_false]
          exact .branch hpre fun d hd => hc d (by simp [hd])
      · have h0 : ¬ c'.flat.length = 0 := fun h => hb.flat_ne (List.length_eq_zero_iff.1 h)
        simp only [h0, if_false]
        right
        refine .branch (by simp) ?_
        intro z hz
        simp only [List.mem_append, List.mem_singleton] at hz
        rcases hz with hz | rfl
        · exact hc z (by simp [hz])
        · exact hb
    · exact absurd hbad (hc c (by simp)).lastLeaf_ne

theorem depthL_mono {cs : List (Node α)} {c : Node α} (h : c ∈ cs) : c.depth ≤ depthL cs :=
  depthL_le.1 (Nat.le_refl _) c h

theorem popBack_depth (n : Node α) : ∀ n' x, n.popBack = some (n', x) → n'.depth ≤ n.depth := by
  induction n using Node.induct with
  | hleaf es =>
    intro n' x hp
    rw [Node.popBack] at hp
    split at hp
    · simp at hp
    · simp only [Option.some.injEq, Prod.mk.injEq] at hp
      obtain ⟨rfl, _⟩ := hp; simp
  | hbranch cs s ih =>
    intro n' x hp
    by_cases hne : cs = []
    · subst hne; simp [Node.popBack, popBackLast] at hp
    · obtain ⟨pre, c, rfl⟩ := exists_eq_append_singleton hne
      cases hpc : c.popBack with
      | none =>
        rw [Node.popBack] at hp
        simp [popBackLast_append, hpc] at hp
      | some p =>
        obtain ⟨c', y⟩ := p
        obtain ⟨s', he⟩ := popBack_branch_append pre c c' s y hpc
        rw [he] at hp
        simp only [Option.some.injEq, Prod.mk.injEq] at hp
        obtain ⟨rfl, rfl⟩ := hp
        have hcc := ih c (by simp) c' _ hpc
        split
        · split
          · simp
          · simp only [depth_branch, depthL_append]; omega
        · simp only [depth_branch, depthL_append, depthL]; omega

theorem LD.popBack {n : Node α} (h : LD n) : n.Sized → ∀ n' x,
    n.popBack = some (n', x) → LD n' := by
  -- removing from a final run of leaves
  have leafCase : ∀ (l l' : Node α) (x : α), l.Sized → Bal 0 l → l.popBack = some (l', x) →
      l'.flat = [] ∨ Bal 0 l' := fun l l' x hs hb hp => hb.popBack hs l' x hp
  induction h with
  | leaf es =>
    intro _ n' x hp
    rw [Node.popBack] at hp
    split at hp
    · simp at hp
    · simp only [Option.some.injEq, Prod.mk.injEq] at hp
      obtain ⟨rfl, _⟩ := hp; exact .leaf _
  | @spine c ls s hc hl ih =>
    intro hs n' x hp
    obtain ⟨_, rfl, hsc⟩ := (sized_branch _ _).1 hs
    by_cases hls : ls = []
    · subst hls
      cases hpc : c.popBack with
      | none =>
        rw [Node.popBack] at hp
        simp [popBackLast, hpc] at hp
      | some p =>
        obtain ⟨c', y⟩ := p
        obtain ⟨s', he⟩ := popBack_branch_append [] c c' (some ([c].map flen)) y hpc
        rw [List.nil_append] at he
        rw [he] at hp
        simp only [Option.some.injEq, Prod.mk.injEq] at hp
        obtain ⟨rfl, rfl⟩ := hp
        simp only [if_true, List.nil_append]
        split
        · exact .leaf _
        · exact .spine (ih (hsc c (by simp)) c' _ hpc) (by simp)
    · obtain ⟨pre, l, rfl⟩ := exists_eq_append_singleton hls
      cases hpc : l.popBack with
      | none =>
        rcases Node.popBack_spec l (hsc l (by simp)) with ⟨_, c', y, hpc', _⟩ | ⟨hbad, _⟩
        · rw [hpc] at hpc'; simp at hpc'
        · exact absurd hbad (hl l (by simp)).lastLeaf_ne
      | some p =>
        obtain ⟨l', y⟩ := p
        obtain ⟨s', he⟩ := popBack_branch_append (c :: pre) l l'
          (some ((c :: (pre ++ [l])).map flen)) y hpc
        rw [List.cons_append] at he
        rw [he] at hp
        simp only [Option.some.injEq, Prod.mk.injEq] at hp
        obtain ⟨rfl, rfl⟩ := hp
        have hs' : l'.Sized := by
          rcases Node.popBack_spec l (hsc l (by simp)) with ⟨_, c', y, hpc', h1, _⟩ | ⟨_, h2⟩
          · rw [hpc] at hpc'; simp at hpc'; obtain ⟨rfl, _⟩ := hpc'; exact h1
          · rw [hpc] at h2; simp at h2
        rw [calculateSize_eq hs']
        split
        · simp only [reduceCtorEq, if_false]
          exact .spine hc fun d hd => hl d (by simp [hd])
        · rename_i h0
          rcases leafCase l l' _ (hsc l (by simp)) (hl l (by simp)) hpc with hnil | hb
          · exact absurd (by simp [hnil]) h0
          · rw [List.cons_append]
            refine .spine hc ?_
            intro z hz
            simp only [List.mem_append, List.mem_singleton] at hz
            rcases hz with hz | rfl
            · exact hl z (by simp [hz])
            · exact hb
  | @wide d cs ls s hne hc hl =>
    intro hs n' x hp
    obtain ⟨_, rfl, hsc⟩ := (sized_branch _ _).1 hs
    by_cases hls : ls = []
    · subst hls
      have hbal : Bal (d + 1) (Node.branch (cs ++ []) (some ((cs ++ []).map flen))) :=
        .branch (by simpa using hne) (by simpa using hc)
      rcases hbal.popBack hs n' x hp with hnil | hb
      · -- an emptied balanced node is the empty leaf
        obtain ⟨pre, c, rfl⟩ := exists_eq_append_singleton hne
        simp only [List.append_nil] at hp hsc
        rcases Node.popBack_spec c (hsc c (by simp)) with ⟨_, c', y, hpc, hs', hf⟩ | ⟨hbad, _⟩
        · obtain ⟨s', he⟩ := popBack_branch_append pre c c' _ y hpc
          rw [he] at hp
          simp only [Option.some.injEq, Prod.mk.injEq] at hp
          obtain ⟨rfl, rfl⟩ := hp
          rw [calculateSize_eq hs'] at hnil ⊢
          split at hnil
          · split at hnil
            · simp_all; exact .leaf _
            · rename_i h0 hpre
              exfalso
              obtain ⟨p, ps, rfl⟩ : ∃ p ps, pre = p :: ps := by
                cases pre with
                | nil => exact absurd rfl hpre
                | cons p ps => exact ⟨p, ps, rfl⟩
              simp only [flat_branch, flatL_cons, List.append_eq_nil_iff] at hnil
              exact (hc p (by simp)).flat_ne hnil.1
          · rename_i h0
            exfalso
            simp only [flat_branch, flatL_append, flatL_cons, List.append_eq_nil_iff] at hnil
            exact h0 (by simp [hnil.2.1])
        · exact absurd hbad (hc c (by simp)).lastLeaf_ne
      · exact hb.ld
    · obtain ⟨pre, l, rfl⟩ := exists_eq_append_singleton hls
      cases hpc : l.popBack with
      | none =>
        rcases Node.popBack_spec l (hsc l (by simp)) with ⟨_, c', y, hpc', _⟩ | ⟨hbad, _⟩
        · rw [hpc] at hpc'; simp at hpc'
        · exact absurd hbad (hl l (by simp)).lastLeaf_ne
      | some p =>
        obtain ⟨l', y⟩ := p
        obtain ⟨s', he⟩ := popBack_branch_append (cs ++ pre) l l'
          (some ((cs ++ (pre ++ [l])).map flen)) y hpc
        rw [List.append_assoc] at he
        rw [he] at hp
        simp only [Option.some.injEq, Prod.mk.injEq] at hp
        obtain ⟨rfl, rfl⟩ := hp
        have hs' : l'.Sized := by
          rcases Node.popBack_spec l (hsc l (by simp)) with ⟨_, c', y, hpc', h1, _⟩ | ⟨_, h2⟩
          · rw [hpc] at hpc'; simp at hpc'; obtain ⟨rfl, _⟩ := hpc'; exact h1
          · rw [hpc] at h2; simp at h2
        rw [calculateSize_eq hs']
        split
        · have hne' : cs ++ pre ≠ [] := by simp [hne]
          simp only [hne', if_false]
          exact .wide hne hc fun d hd => hl d (by simp [hd])
        · rename_i h0
          rcases leafCase l l' _ (hsc l (by simp)) (hl l (by simp)) hpc with hnil | hb
          · exact absurd (by simp [hnil]) h0
          · rw [List.append_assoc]
            refine .wide hne hc ?_
            intro z hz
            simp only [List.mem_append, List.mem_singleton] at hz
            rcases hz with hz | rfl
            · exact hl z (by simp [hz])
            · exact hb

end Rustica.PVec
