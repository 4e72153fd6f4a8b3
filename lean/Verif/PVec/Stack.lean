import Verif.PVec.Shape

/-!
# The class of trees on which `pop_back` and `split_at` are exact

`Tree.Stack` is preserved by building, `push_back`, `update`, `pop_back` and
`split_at`.
-/

namespace Rustica.PVec
open Node Tree

variable {α : Type}

/-! ### Shape under `split` -/

theorem createLeft_append (pre rest : List (Node α)) (l : Node α) :
    createLeftBranch (pre ++ rest) pre.length l =
      if l.calculateSize > 0 then makeRelaxed (pre ++ [l])
      else if pre = [] then .leaf [] else makeRelaxed pre := by
  simp only [createLeftBranch, List.take_left]
  split
  · simp
  · by_cases h : pre = [] <;> simp [h]

theorem createRight_append (pre post : List (Node α)) (c r : Node α) :
    createRightBranch (pre ++ c :: post) pre.length r =
      if r.calculateSize > 0 then makeRelaxed (r :: post)
      else if post = [] then .leaf [] else makeRelaxed post := by
  have hdrop : (pre ++ c :: post).drop (pre.length + 1) = post := by
    rw [List.drop_append]; simp
  simp only [createRightBranch, hdrop]
  split
  · simp
  · by_cases h : post = [] <;> simp [h]

/-- Splitting a balanced node strictly inside gives balanced nodes of the same
depth (or nothing on the left). -/
theorem Bal.split {d : Nat} {n : Node α} (hb : Bal d n) : n.Sized → ∀ h i, d ≤ h →
    i < n.flat.length →
    (i = 0 ∨ Bal d (splitAlongPath n (findPath n h i) i h).1) ∧
    Bal d (splitAlongPath n (findPath n h i) i h).2 := by
  induction hb with
  | @leaf es hes =>
    intro _ h i _ hi
    simp only [flat_leaf] at hi
    simp only [splitAlongPath]
    refine ⟨?_, .leaf ?_⟩
    · by_cases h0 : i = 0
      · exact .inl h0
      · right
        refine .leaf ?_
        intro h; have := congrArg List.length h
        simp only [List.length_take, List.length_nil] at this; omega
    · intro h; have := congrArg List.length h
      simp only [List.length_drop, List.length_nil] at this; omega
  | @branch d cs s hne hc ih =>
    intro hs h i hd hi
    have hs0 := hs
    obtain ⟨_, rfl, hsc⟩ := (sized_branch _ _).1 hs
    obtain ⟨pre, c, post, r, rfl, hidx, hr, heq⟩ := split_branch hs0 (h := h) (by omega)
      (by simpa using hi)
    obtain ⟨b1, b2⟩ := ih c (by simp) (hsc c (by simp)) (h - 1) r (by omega) hr
    have hdep : c.depth ≤ h - 1 := by rw [(hc c (by simp)).depth]; omega
    obtain ⟨s1, s2, f1, f2⟩ := splitAlongPath_spec c (hsc c (by simp)) (h - 1) r hdep hr
    rw [heq, createLeft_append, createRight_append, calculateSize_eq s1, calculateSize_eq s2]
    constructor
    · by_cases h0 : i = 0
      · exact .inl h0
      · right
        rcases b1 with hr0 | b1
        · have hnil : (splitAlongPath c (findPath c (h - 1) r) r (h - 1)).1.flat = [] := by
            rw [f1, hr0]; simp
          have hpre : pre ≠ [] := by
            intro hp; subst hp; simp at hidx; omega
          simp only [hnil, List.length_nil, gt_iff_lt, Nat.lt_irrefl, if_false, hpre]
          exact .branch hpre fun d hd => hc d (by simp [hd])
        · have hpos := List.length_pos_iff.2 b1.flat_ne
          simp only [gt_iff_lt, hpos, if_true]
          refine .branch (by simp) ?_
          intro z hz
          simp only [List.mem_append, List.mem_singleton] at hz
          rcases hz with hz | rfl
          · exact hc z (by simp [hz])
          · exact b1
    · have hpos := List.length_pos_iff.2 b2.flat_ne
      simp only [gt_iff_lt, hpos, if_true]
      refine .branch (by simp) ?_
      intro z hz
      simp only [List.mem_cons] at hz
      rcases hz with rfl | hz
      · exact b2
      · exact hc z (by simp [hz])

theorem append_eq_append_cons_cases {β : Type} {as bs pre post : List β} {c : β}
    (h : as ++ bs = pre ++ c :: post) :
    (∃ post', as = pre ++ c :: post' ∧ post = post' ++ bs) ∨
    (∃ pre', pre = as ++ pre' ∧ bs = pre' ++ c :: post) := by
  rw [List.append_eq_append_iff] at h
  rcases h with ⟨as', h1, h2⟩ | ⟨bs', h1, h2⟩
  · right; exact ⟨as', h1, h2⟩
  · cases bs' with
    | nil => right; simp at h1 h2; exact ⟨[], by simp [h1], by simp [h2]⟩
    | cons b bs' =>
      simp only [List.cons_append, List.cons.injEq] at h2
      obtain ⟨rfl, rfl⟩ := h2
      left; exact ⟨bs', h1, rfl⟩

theorem LD.ofLeaves {ls : List (Node α)} (h : ∀ l ∈ ls, Bal 0 l) (hne : ls ≠ []) :
    LD (makeRelaxed ls) := by
  have := LD.wide (s := some (ls.map calculateSize)) (ls := []) hne h (by simp)
  simpa [makeRelaxed] using this

/-- Splitting a left-deep node inside gives left-deep nodes. -/
theorem LD.split {n : Node α} (hb : LD n) : n.Sized → ∀ h i, n.depth ≤ h →
    i < n.flat.length →
    LD (splitAlongPath n (findPath n h i) i h).1 ∧
    LD (splitAlongPath n (findPath n h i) i h).2 := by
  induction hb with
  | leaf es => intro _ h i _ _; simp only [splitAlongPath]; exact ⟨.leaf _, .leaf _⟩
  | @spine c ls s hc hl ih =>
    intro hs h i hd hi
    have hs0 := hs
    obtain ⟨_, rfl, hsc⟩ := (sized_branch _ _).1 hs
    simp only [depth_branch] at hd
    obtain ⟨pre, e, post, r, hcs, hidx, hr, heq⟩ := split_branch hs0 (h := h) (by omega)
      (by simpa using hi)
    have hse : e.Sized := hsc e (by rw [hcs]; simp)
    have hde : e.depth ≤ h - 1 := by
      have := depthL_mono (cs := c :: ls) (c := e) (by rw [hcs]; simp)
      omega
    obtain ⟨s1, s2, f1, f2⟩ := splitAlongPath_spec e hse (h - 1) r hde hr
    rw [heq, hcs, createLeft_append, createRight_append, calculateSize_eq s1, calculateSize_eq s2]
    have hpos2 : (splitAlongPath e (findPath e (h - 1) r) r (h - 1)).2.flat.length > 0 := by
      rw [f2]; simp; omega
    simp only [hpos2, if_true]
    cases pre with
    | nil =>
      simp only [List.nil_append, List.cons.injEq] at hcs
      obtain ⟨rfl, rfl⟩ := hcs
      obtain ⟨l1, l2⟩ := ih hse (h - 1) r hde hr
      refine ⟨?_, ?_⟩
      · split
        · simp only [List.nil_append, makeRelaxed]; exact .spine l1 (by simp)
        · simp only [if_true]; exact .leaf _
      · exact .spine l2 hl
    | cons p pre =>
      simp only [List.cons_append, List.cons.injEq] at hcs
      obtain ⟨rfl, rfl⟩ := hcs
      obtain ⟨b1, b2⟩ := (hl e (by simp)).split hse (h - 1) r (by omega) hr
      refine ⟨?_, ?_⟩
      · split
        · rename_i hpos
          simp only [List.cons_append, makeRelaxed]
          refine .spine hc ?_
          intro z hz
          simp only [List.mem_append, List.mem_singleton] at hz
          rcases hz with hz | rfl
          · exact hl z (by simp [hz])
          · rcases b1 with h0 | b1
            · rw [f1, h0] at hpos; simp at hpos
            · exact b1
        · simp only [reduceCtorEq, if_false, makeRelaxed]
          exact .spine hc fun z hz => hl z (by simp [hz])
      · refine .spine b2.ld fun z hz => hl z (by simp [hz])
  | @wide d cs ls s hne hc hl =>
    intro hs h i hd hi
    have hs0 := hs
    obtain ⟨_, rfl, hsc⟩ := (sized_branch _ _).1 hs
    simp only [depth_branch] at hd
    obtain ⟨pre, e, post, r, hcs, hidx, hr, heq⟩ := split_branch hs0 (h := h) (by omega)
      (by simpa using hi)
    have hse : e.Sized := hsc e (by rw [hcs]; simp)
    have hde : e.depth ≤ h - 1 := by
      have := depthL_mono (cs := cs ++ ls) (c := e) (by rw [hcs]; simp)
      omega
    obtain ⟨s1, s2, f1, f2⟩ := splitAlongPath_spec e hse (h - 1) r hde hr
    rw [heq, hcs, createLeft_append, createRight_append, calculateSize_eq s1, calculateSize_eq s2]
    have hpos2 : (splitAlongPath e (findPath e (h - 1) r) r (h - 1)).2.flat.length > 0 := by
      rw [f2]; simp; omega
    simp only [hpos2, if_true]
    rcases append_eq_append_cons_cases hcs with ⟨post', rfl, rfl⟩ | ⟨pre', rfl, rfl⟩
    · -- the cut falls into one of the balanced children
      obtain ⟨b1, b2⟩ := (hc e (by simp)).split hse (h - 1) r
        (by rw [(hc e (by simp)).depth] at hde; exact hde) hr
      refine ⟨?_, ?_⟩
      · split
        · rename_i hpos
          have := LD.wide (d := d) (cs := pre ++ [(splitAlongPath e (findPath e (h - 1) r) r (h - 1)).1])
            (ls := []) (s := some ((pre ++ [(splitAlongPath e (findPath e (h - 1) r) r (h - 1)).1]).map
              calculateSize)) (by simp) (by
              intro z hz
              simp only [List.mem_append, List.mem_singleton] at hz
              rcases hz with hz | rfl
              · exact hc z (by simp [hz])
              · rcases b1 with h0 | b1
                · rw [f1, h0] at hpos; simp at hpos
                · exact b1) (by simp)
          simpa [makeRelaxed] using this
        · split
          · exact .leaf _
          · rename_i hpre
            have := LD.wide (d := d) (cs := pre) (ls := []) (s := some (pre.map calculateSize)) hpre
              (fun z hz => hc z (by simp [hz])) (by simp)
            simpa [makeRelaxed] using this
      · have := LD.wide (d := d)
          (cs := (splitAlongPath e (findPath e (h - 1) r) r (h - 1)).2 :: post') (ls := ls)
          (s := some (((splitAlongPath e (findPath e (h - 1) r) r (h - 1)).2 :: (post' ++ ls)).map
            calculateSize)) (by simp) (by
            intro z hz
            simp only [List.mem_cons] at hz
            rcases hz with rfl | hz
            · exact b2
            · exact hc z (by simp [hz])) hl
        simpa [makeRelaxed] using this
    · -- the cut falls into one of the trailing leaves
      obtain ⟨b1, b2⟩ := (hl e (by simp)).split hse (h - 1) r (by omega) hr
      refine ⟨?_, ?_⟩
      · split
        · rename_i hpos
          have := LD.wide (d := d) (cs := cs)
            (ls := pre' ++ [(splitAlongPath e (findPath e (h - 1) r) r (h - 1)).1])
            (s := some ((cs ++ (pre' ++ [(splitAlongPath e (findPath e (h - 1) r) r (h - 1)).1])).map
              calculateSize)) hne hc (by
              intro z hz
              simp only [List.mem_append, List.mem_singleton] at hz
              rcases hz with hz | rfl
              · exact hl z (by simp [hz])
              · rcases b1 with h0 | b1
                · rw [f1, h0] at hpos; simp at hpos
                · exact b1)
          simpa [makeRelaxed] using this
        · have hne' : cs ++ pre' ≠ [] := by simp [hne]
          simp only [hne', if_false]
          exact .wide hne hc fun z hz => hl z (by simp [hz])
      · refine LD.ofLeaves ?_ (by simp)
        intro z hz
        simp only [List.mem_cons] at hz
        rcases hz with rfl | hz
        · exact b2
        · exact hl z (by simp [hz])

/-! ### Shape of built trees -/

theorem buildTree_bal : ∀ (fuel : Nat) (nodes : List (Node α)) (d : Nat), nodes ≠ [] →
    nodes.length ≤ fuel → (∀ n ∈ nodes, Bal d n) →
    Bal (d + (buildTreeRecursive fuel nodes).2) (buildTreeRecursive fuel nodes).1 := by
  intro fuel
  induction fuel with
  | zero => intro nodes d hne hlen; exact absurd (List.length_eq_zero_iff.1 (by omega)) hne
  | succ fuel ih =>
    intro nodes d hne hlen hs
    match nodes, hne, hlen, hs with
    | [n], _, _, hs => simpa [buildTreeRecursive] using hs n (by simp)
    | n :: m :: rest, _, hlen, hs =>
      simp only [buildTreeRecursive]
      have hpos : 0 < BRANCHING_FACTOR := by decide
      have hcl := chunks_length hpos (n :: m :: rest)
      have hmem := chunks_mem hpos (n :: m :: rest)
      have hfl := chunks_flatten hpos (n :: m :: rest)
      generalize hcs : chunks BRANCHING_FACTOR (n :: m :: rest) = cs at hcl hmem hfl ⊢
      have hsub : ∀ c ∈ cs, ∀ x ∈ c, x ∈ n :: m :: rest := by
        intro c hc x hx
        rw [← hfl]; exact List.mem_flatten.2 ⟨c, hc, hx⟩
      have hne' : cs.map makeRelaxed ≠ [] := by
        intro h
        have : cs = [] := by simpa using h
        rw [this] at hfl; simp at hfl
      have := ih (cs.map makeRelaxed) (d + 1) hne' (by
          simp only [List.length_map, List.length_cons] at hcl hlen ⊢
          simp only [BRANCHING_FACTOR] at hcl
          omega) (by
          intro x hx
          obtain ⟨c, hc, rfl⟩ := List.mem_map.1 hx
          exact .branch (hmem c hc).1 fun y hy => hs y (hsub c hc y hy))
      have hadd : d + ((buildTreeRecursive fuel (cs.map makeRelaxed)).2 + 1) =
          d + 1 + (buildTreeRecursive fuel (cs.map makeRelaxed)).2 := by omega
      rw [hadd]
      exact this

namespace Tree

/-- Trees produced by histories of `from_iter`, `push_back`, `update`, `pop_back`,
`split_at`. -/
structure Stack (t : Tree α) : Prop where
  wf : t.WF
  head : t.head = []
  ld : LD t.root
  depth : t.root.depth ≤ t.height

/-- Shape of a freshly built tree. -/
theorem fromElements_shape (xs : List α) :
    (xs.length ≤ LEAF_CAPACITY ∧ (fromElements xs).root = .leaf xs ∧ (fromElements xs).tail = [] ∧
      (fromElements xs).height = 0) ∨
    (LEAF_CAPACITY < xs.length ∧ Bal (fromElements xs).height (fromElements xs).root ∧
      (fromElements xs).tail = xs.drop (xs.length / LEAF_CAPACITY * LEAF_CAPACITY)) := by
  simp only [fromElements]
  split
  · rename_i h; left; exact ⟨h, rfl, rfl, rfl⟩
  · rename_i hlen
    simp only [LEAF_CAPACITY] at hlen
    right
    simp only [buildTreeWithTail]
    have hk : 0 < (xs.length / LEAF_CAPACITY) * LEAF_CAPACITY ∧
        (xs.length / LEAF_CAPACITY) * LEAF_CAPACITY ≤ xs.length := by
      simp only [LEAF_CAPACITY]; omega
    generalize (xs.length / LEAF_CAPACITY) * LEAF_CAPACITY = k at hk
    have hne : xs.take k ≠ [] := by
      intro h; have := congrArg List.length h
      simp only [List.length_take, List.length_nil] at this; omega
    have he : (xs.take k).isEmpty = false := by simpa using hne
    simp only [he, Bool.false_eq_true, if_false]
    refine ⟨by simp only [LEAF_CAPACITY]; omega, ?_, by trivial⟩
    have hfl := chunks_flatten (n := LEAF_CAPACITY) (by decide) (xs.take k)
    have hmem := chunks_mem (n := LEAF_CAPACITY) (by decide) (xs.take k)
    generalize chunks LEAF_CAPACITY (xs.take k) = cs at hfl hmem ⊢
    have := buildTree_bal (cs.map Node.leaf).length (cs.map Node.leaf) 0 (by
      intro h
      have : cs = [] := by simpa using h
      rw [this] at hfl; exact hne (by simpa using hfl.symm)) (Nat.le_refl _) (by
      intro n hn
      obtain ⟨c, hc, rfl⟩ := List.mem_map.1 hn
      exact .leaf (hmem c hc).1)
    simpa using this

theorem stack_fromElements (xs : List α) : (fromElements xs).Stack := by
  obtain ⟨h1, _, _, h4⟩ := fromElements_spec xs
  rcases fromElements_shape xs with ⟨_, hr, _, hh⟩ | ⟨_, hb, _⟩
  · exact ⟨h1, h4, by rw [hr]; exact .leaf _, by rw [hr]; simp⟩
  · exact ⟨h1, h4, hb.ld, by rw [hb.depth]; omega⟩

theorem Stack.pushBack {t : Tree α} (h : t.Stack) (x : α) : (t.pushBack x).Stack := by
  have hwf := (pushBack_spec h.wf x).1
  refine ⟨hwf, ?_, ?_, ?_⟩ <;> simp only [Tree.pushBack] <;> split
  · exact h.head
  · simp [(pushTailToTree_spec h.wf).2.2.2.2, h.head]
  · exact h.ld
  · rename_i hlen
    simp only [pushTailToTree]
    split
    · exact h.ld
    · rename_i hne; exact h.ld.pushLeaf (by simpa using hne)
  · exact h.depth
  · simp only [pushTailToTree]
    split
    · exact h.depth
    · rename_i hne
      have : LD (t.root.pushLeaf (.leaf t.tail)) := h.ld.pushLeaf (by simpa using hne)
      simp [this.height]

theorem Stack.update {t : Tree α} (h : t.Stack) (i : Nat) (x : α) : (t.update i x).Stack := by
  have hwf := (update_spec h.wf i x).1
  refine ⟨hwf, ?_, ?_, ?_⟩
  · simp only [Tree.update, h.head]
    split
    · exact h.head
    · split
      · simp
      · split
        · rfl
        · rfl
  · simp only [Tree.update]
    split
    · exact h.ld
    · split
      · exact h.ld
      · split
        · exact h.ld.update x _
        · exact h.ld
  · simp only [Tree.update]
    split
    · exact h.depth
    · split
      · exact h.depth
      · split
        · simp only [update_depth]; exact h.depth
        · exact h.depth

theorem Stack.popBack {t : Tree α} (h : t.Stack) (h0 : t.len ≠ 0) :
    ∃ t' x, t.popBack = some (t', x) ∧ t'.Stack ∧ t.toList = t'.toList ++ [x] ∧
      t'.len = t.len - 1 := by
  have hl := h.wf.len
  have hcond : t.tail ≠ [] ∨ (t.head = [] ∧ (t.root.lastLeaf ≠ [] ∨ t.len = 1)) := by
    by_cases ht : t.tail = []
    · right
      refine ⟨h.head, .inl (h.ld.lastLeaf_ne ?_)⟩
      intro hf
      simp [h.head, ht, hf] at hl; omega
    · exact .inl ht
  obtain ⟨t', x, hp, hwf, hlist, hlen⟩ := popBack_ok h.wf h0 hcond
  refine ⟨t', x, hp, ⟨hwf, ?_, ?_, ?_⟩, hlist, hlen⟩ <;>
    (simp only [Tree.popBack, h0, if_false] at hp
     split at hp
     · simp only [Option.some.injEq, Prod.mk.injEq] at hp
       obtain ⟨rfl, _⟩ := hp
       first | exact h.head | exact h.ld | exact h.depth
     · simp only [popFromTree, h0, if_false] at hp
       split at hp
       · simp at hp
       · split at hp
         · simp at hp
         · simp only [Option.some.injEq, Prod.mk.injEq] at hp
           obtain ⟨rfl, _⟩ := hp
           first
           | exact h.head
           | (simp only
              split
              · exact .leaf _
              · split
                · rename_i heq
                  exact h.ld.popBack h.wf.sized _ _ heq
                · exact h.ld)
           | (simp only
              split
              · simp
              · split
                · rename_i heq
                  exact Nat.le_trans (popBack_depth _ _ _ heq) h.depth
                · exact h.depth))

theorem Stack.splitAt {t : Tree α} (h : t.Stack) (i : Nat) :
    (t.splitAt i).1.Stack ∧ (t.splitAt i).2.Stack ∧
    (t.splitAt i).1.toList = t.toList.take i ∧ (t.splitAt i).2.toList = t.toList.drop i := by
  obtain ⟨w1, w2, l1, l2⟩ := splitAt_ok h.wf i (.inl h.depth)
  have hl := h.wf.len
  have hempty : (Tree.empty : Tree α).Stack :=
    ⟨⟨by simp [empty], by simp [empty]⟩, rfl, .leaf _, by simp [empty]⟩
  refine ⟨⟨w1, ?_, ?_, ?_⟩, ⟨w2, ?_, ?_, ?_⟩, l1, l2⟩ <;> clear w1 w2 l1 l2 <;>
    simp only [Tree.splitAt, h.wf.treeSize] <;> split <;>
    first
    | exact hempty.head
    | exact hempty.ld
    | exact hempty.depth
    | exact h.head
    | exact h.ld
    | exact h.depth
    | skip
  all_goals split
  all_goals
    first
    | exact hempty.head
    | exact hempty.ld
    | exact hempty.depth
    | exact h.head
    | exact h.ld
    | exact h.depth
    | skip
  all_goals split
  all_goals
    first
    | (rename_i h1 h2 h3; simp [h.head] at h3; omega)
    | skip
  all_goals split
  all_goals
    first
    | exact h.head
    | exact h.ld
    | exact h.depth
    | rfl
    | exact .leaf _
    | exact Nat.le_refl _
    | exact (h.ld.split h.wf.sized t.height _ h.depth (by omega)).1
    | exact (h.ld.split h.wf.sized t.height _ h.depth (by omega)).2
    | (simp; done)
    | skip
  all_goals
    first
    | (simp only [fromHeadAndRoot, splitTreeAt]
       rw [(h.ld.split h.wf.sized t.height _ h.depth (by omega)).1.height]
       exact Nat.le_refl _)
    | (simp only [fromRootAndTail, splitTreeAt]
       rw [(h.ld.split h.wf.sized t.height _ h.depth (by omega)).2.height]
       exact Nat.le_refl _)

end Tree
end Rustica.PVec
