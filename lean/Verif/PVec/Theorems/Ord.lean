import Verif.PVec.Ord
import Verif.PVec.Theorems.Natural
import Verif.PVec.Theorems.Levels
import Verif.Theorems.Ord

/-!
# C86: the derived ordering of vectors
-/

namespace Rustica.PVec
open Node Tree

variable {α : Type}

/-! ## Nodes -/

theorem Node.cmpL_eq (cmp : α → α → Ordering) : ∀ cs ds : List (Node α),
    Node.cmpL cmp cs ds = sliceCmp (Node.cmp cmp) cs ds
  | [], [] => rfl
  | [], _ :: _ => rfl
  | _ :: _, [] => rfl
  | c :: cs, d :: ds => by rw [Node.cmpL, sliceCmp, Node.cmpL_eq cmp cs ds]

theorem tableLaws : ROrdLaws (Option (List Nat)) := ordLaws_option (ordLaws_list ordLaws_nat)

theorem Node.cmp_eq {cmp : α → α → Ordering} (h : LinCmp cmp) (n : Node α) :
    ∀ m, n.cmp cmp m = .eq ↔ n = m := by
  induction n using Node.induct with
  | hleaf es => intro m; cases m <;> simp [Node.cmp, h.slice.eq_iff]
  | hbranch cs s ih =>
    intro m
    cases m with
    | leaf fs => simp [Node.cmp]
    | branch ds t =>
      simp only [Node.cmp, cmpThen_eq, Node.cmpL_eq, Node.branch.injEq, tableLaws.eq_iff, sliceCmp_eq cs ds ih]

theorem Node.cmp_swap {cmp : α → α → Ordering} (h : LinCmp cmp) (n : Node α) :
    ∀ m, m.cmp cmp n = (n.cmp cmp m).swap := by
  induction n using Node.induct with
  | hleaf es =>
    intro m
    cases m with
    | leaf fs => simpa [Node.cmp] using h.slice.swap es fs
    | branch ds t => simp [Node.cmp]
  | hbranch cs s ih =>
    intro m
    cases m with
    | leaf fs => simp [Node.cmp]
    | branch ds t =>
      simp only [Node.cmp, Node.cmpL_eq, cmpThen_swap]
      rw [sliceCmp_swap cs ds ih, tableLaws.swap]

theorem Node.cmp_lt_trans {cmp : α → α → Ordering} (h : LinCmp cmp) (n : Node α) :
    ∀ m k, n.cmp cmp m = .lt → m.cmp cmp k = .lt → n.cmp cmp k = .lt := by
  induction n using Node.induct with
  | hleaf es =>
    intro m k
    cases m <;> cases k <;> simp [Node.cmp]
    exact h.slice.lt_trans _ _ _
  | hbranch cs s ih =>
    intro m k
    cases m with
    | leaf fs => cases k <;> simp [Node.cmp]
    | branch ds t =>
      cases k with
      | leaf fs => simp [Node.cmp]
      | branch es u =>
        simp only [Node.cmp, Node.cmpL_eq, cmpThen_lt, sliceCmp_eq _ _ fun x (_ : x ∈ cs) => Node.cmp_eq h x, sliceCmp_eq _ _ fun x (_ : x ∈ ds) => Node.cmp_eq h x]
        rintro (h1 | ⟨rfl, h1⟩) (h2 | ⟨rfl, h2⟩)
        · exact .inl (sliceCmp_lt_trans (Node.cmp_eq h) cs ds es ih h1 h2)
        · exact .inl h1
        · exact .inl h2
        · exact .inr ⟨rfl, tableLaws.lin.lt_trans _ _ _ h1 h2⟩

theorem Node.linCmp {cmp : α → α → Ordering} (h : LinCmp cmp) : LinCmp (Node.cmp cmp) :=
  ⟨Node.cmp_eq h, Node.cmp_swap h, Node.cmp_lt_trans h⟩

theorem Tree.linCmp {cmp : α → α → Ordering} (h : LinCmp cmp) : LinCmp (Tree.cmp cmp) :=
  ((Node.linCmp h).pair (h.slice.pair (h.slice.pair (ordLaws_nat.lin.pair ordLaws_nat.lin)))).pull
    (fun t : Tree α => (t.root, t.tail, t.head, t.height, t.len)) <| by
      rintro ⟨_, _, _, _, _⟩ ⟨_, _, _, _, _⟩ h
      cases h
      rfl

theorem VectorImpl.linCmp {cmp : α → α → Ordering} (h : LinCmp cmp) : LinCmp (VectorImpl.cmp cmp) := by
  have k := Tree.linCmp h
  refine ⟨?_, ?_, ?_⟩
  · intro a b; cases a <;> cases b <;> simp [VectorImpl.cmp, h.slice.eq_iff, k.eq_iff]
  · intro a b; cases a <;> cases b <;> first | rfl | exact h.slice.swap _ _ | exact k.swap _ _
  · intro a b c; cases a <;> cases b <;> cases c <;> simp [VectorImpl.cmp]
    · exact h.slice.lt_trans _ _ _
    · exact k.lt_trans _ _ _

namespace PV

/-- C86: the order of vectors is total and agrees with `==`. -/
theorem c86_vector_total [ROrd α] (h : ROrdLaws α) : ROrdLaws (PV α) :=
  LinCmp.laws <| ((VectorImpl.linCmp h.lin).pair (ordLaws_nat.lin.pair ordLaws_nat.lin)).pull
    (fun v : PV α => (v.inner, v.len, v.generation)) <| by
      rintro ⟨_, _, _⟩ ⟨_, _, _⟩ h
      cases h
      rfl

end PV

/-! ## `partial_cmp` -/

theorem Node.partialCmpL_eq (pc : α → α → Option Ordering) : ∀ cs ds : List (Node α),
    Node.partialCmpL pc cs ds = slicePartialCmp (Node.partialCmp pc) cs ds
  | [], [] => rfl
  | [], _ :: _ => rfl
  | _ :: _, [] => rfl
  | c :: cs, d :: ds => by rw [Node.partialCmpL, slicePartialCmp, Node.partialCmpL_eq pc cs ds]

theorem tableAgree : Agree (Option (List Nat)) := by
  intro a b
  cases a <;> cases b <;> first | rfl | exact slicePartialCmp_some _ _ fun _ _ _ => rfl

theorem Node.partialCmp_some {pc : α → α → Option Ordering} {cmp : α → α → Ordering}
    (h : ∀ a b, pc a b = some (cmp a b)) (n : Node α) : ∀ m, n.partialCmp pc m = some (n.cmp cmp m) := by
  induction n using Node.induct with
  | hleaf es =>
    intro m
    cases m with
    | leaf fs => exact slicePartialCmp_some _ _ fun x _ => h x
    | branch ds t => rfl
  | hbranch cs s ih =>
    intro m
    cases m with
    | leaf fs => rfl
    | branch ds t =>
      simp only [Node.partialCmp, Node.cmp, Node.partialCmpL_eq, Node.cmpL_eq]
      rw [slicePartialCmp_some cs ds ih, tableAgree, partialThen_some]

namespace PV

/-- C86: `partial_cmp` of vectors returns `Some` of what `cmp` returns, if that of the elements does. -/
theorem c86_vector_partial_cmp [ROrd α] [RPartialOrd α] (h : Agree α) : Agree (PV α) := by
  intro v w
  have hs : ∀ xs ys : List α, slicePartialCmp RPartialOrd.partialCmp xs ys = some (sliceCmp ROrd.cmp xs ys) :=
    fun xs ys => slicePartialCmp_some xs ys fun x _ => h x
  have hn : ∀ a b : Nat, RPartialOrd.partialCmp a b = some (ROrd.cmp a b) := fun _ _ => rfl
  have hi : v.inner.partialCmp RPartialOrd.partialCmp w.inner = some (v.inner.cmp ROrd.cmp w.inner) := by
    cases v.inner <;> cases w.inner <;> first | rfl | exact hs _ _ | skip
    simp only [VectorImpl.partialCmp, VectorImpl.cmp, Tree.partialCmp, Tree.cmp, hs, hn, partialThen_some,
      Node.partialCmp_some h]
  show partialThen _ (partialThen _ _) = some (cmpThen _ (cmpThen _ _))
  rw [hi, hn, hn, partialThen_some, partialThen_some]

/-! ## Vectors with one layout -/

end PV

theorem Node.cmp_flat {cmp : α → α → Ordering} (n : Node α) : ∀ m : Node α,
    (n.over fun _ => ()) = (m.over fun _ => ()) → n.cmp cmp m = sliceCmp cmp n.flat m.flat := by
  induction n using Node.induct with
  | hleaf es =>
    intro m hm
    cases m with
    | leaf fs => rfl
    | branch ds t => simp at hm
  | hbranch cs s ih =>
    intro m hm
    cases m with
    | leaf fs => simp at hm
    | branch ds t =>
      simp only [over_branch, Node.branch.injEq] at hm
      obtain ⟨hm, rfl⟩ := hm
      simp only [Node.cmp, Node.cmpL_eq, (tableLaws.eq_iff s s).2 rfl, flat]
      have : ∀ cs ds : List (Node α), (∀ c ∈ cs, ∀ m : Node α, (c.over fun _ => ()) = (m.over fun _ => ()) →
            c.cmp cmp m = sliceCmp cmp c.flat m.flat) →
          cs.map (Node.over fun _ => ()) = ds.map (Node.over fun _ => ()) →
          sliceCmp (Node.cmp cmp) cs ds = sliceCmp cmp (flatL cs) (flatL ds) := by
        intro cs
        induction cs with
        | nil =>
          intro ds _ h
          obtain rfl : ds = [] := by simpa using h.symm
          rfl
        | cons c cs ihl =>
          intro ds hc h
          cases ds with
          | nil => simp at h
          | cons d ds =>
            simp only [List.map_cons, List.cons.injEq] at h
            have hl : c.flat.length = d.flat.length := by
              have := congrArg (fun n : Node Unit => n.flat.length) h.1
              simpa [flat_over] using this
            rw [sliceCmp, flatL, flatL, sliceCmp_append _ _ _ _ hl, hc c (by simp) d h.1,
              ihl ds (fun x hx => hc x (by simp [hx])) h.2]
      rw [this cs ds ih hm]
      cases sliceCmp cmp (flatL cs) (flatL ds) <;> rfl

namespace PV

/-- How many elements are in the front buffer. -/
def frontLen (v : PV α) : Nat :=
  match v.inner with
  | .inline _ => 0
  | .tree t => t.head.length

/-- C86 for vectors with the same layout: they are in the order of a dictionary in which the elements of the front
buffer are read last. -/
theorem c86_same_layout [ROrd α] (h : ROrdLaws α) {v w : PV α} (hv : Intact v) (hw : Intact w)
    (hs : v.skeleton = w.skeleton) :
    v.frontLen = w.frontLen ∧
    (ROrd.cmp v w = .lt ↔ Before (fun a b => ROrd.cmp a b = .lt)
      (v.toVec.drop v.frontLen ++ v.toVec.take v.frontLen) (w.toVec.drop w.frontLen ++ w.toVec.take w.frontLen)) := by
  rw [toVec_eq hv.wf, toVec_eq hw.wf, skeleton_eq, skeleton_eq] at *
  rw [← sliceCmp_lt h.lin]
  rcases v with ⟨vi, vl, vg⟩
  rcases w with ⟨wi, wl, wg⟩
  cases vi with
  | inline es =>
    cases wi with
    | tree u => simp [over] at hs
    | inline fs =>
      simp only [over, PV.mk.injEq, VectorImpl.inline.injEq] at hs
      obtain ⟨hs, rfl, rfl⟩ := hs
      refine ⟨rfl, ?_⟩
      show cmpThen (sliceCmp ROrd.cmp es fs) (cmpThen (ROrd.cmp vl vl) (ROrd.cmp vg vg)) = .lt ↔ _
      simp only [frontLen, abs, List.drop_zero, List.take_zero, List.append_nil, (ordLaws_nat.eq_iff _ _).2 rfl,
        cmpThen_lt]
      simp
  | tree t =>
    cases wi with
    | inline fs => simp [over] at hs
    | tree u =>
      rcases t with ⟨tr, tt, th, thh, tl⟩
      rcases u with ⟨ur, ut, uh, uhh, ul⟩
      simp only [over, Tree.over, PV.mk.injEq, VectorImpl.tree.injEq, Tree.mk.injEq] at hs
      obtain ⟨⟨hr, ht, hh, rfl, rfl⟩, rfl, rfl⟩ := hs
      have lt' := units_eq ht
      have lh := units_eq hh
      refine ⟨lh, ?_⟩
      show cmpThen (cmpThen (tr.cmp ROrd.cmp ur) (cmpThen (sliceCmp ROrd.cmp tt ut) (cmpThen (sliceCmp ROrd.cmp th uh)
        (cmpThen (ROrd.cmp thh thh) (ROrd.cmp tl tl))))) (cmpThen (ROrd.cmp vl vl) (ROrd.cmp vg vg)) = .lt ↔ _
      have lr : tr.flat.length = ur.flat.length := by
        have := congrArg (fun n : Node Unit => n.flat.length) hr
        simpa [flat_over] using this
      simp only [frontLen, abs, Tree.toList, (ordLaws_nat.eq_iff _ _).2 rfl, Node.cmp_flat tr ur hr,
        List.append_assoc, List.drop_left, List.take_left]
      rw [sliceCmp_append _ _ _ _ lr, sliceCmp_append _ _ _ _ lt']
      cases sliceCmp ROrd.cmp tr.flat ur.flat <;> cases sliceCmp ROrd.cmp tt ut <;>
        cases sliceCmp ROrd.cmp th uh <;> simp [cmpThen]

/-- C86 for vectors with the same layout that were never extended at the front: they are in the order of a dictionary. -/
theorem c86_dictionary_partial [ROrd α] (h : ROrdLaws α) {v w : PV α} (hv : Tame v) (hw : Tame w)
    (hs : v.skeleton = w.skeleton) :
    ROrd.cmp v w = .lt ↔ Before (fun a b => ROrd.cmp a b = .lt) v.toVec w.toVec := by
  have h0 : ∀ {v : PV α}, Tame v → v.frontLen = 0 := by
    intro v hv
    have := hv.stack
    rcases v with ⟨vi, vl, vg⟩
    cases vi with
    | inline es => rfl
    | tree t => simp [frontLen, this.1.head]
  have := (c86_same_layout h (Intact.tame hv) (Intact.tame hw) hs).2
  rw [h0 hv, h0 hw] at this
  simpa using this

/-! ## Collected vectors -/

end PV

theorem sliceCmp_short {cmp : α → α → Ordering} (n : Nat) : ∀ xs ys : List α, xs.length < n → n ≤ ys.length →
    sliceCmp cmp xs (ys.take n) = sliceCmp cmp xs ys ∧ sliceCmp cmp (ys.take n) xs = sliceCmp cmp ys xs := by
  induction n with
  | zero => intro xs ys h; omega
  | succ n ih =>
    intro xs ys h1 h2
    cases ys with
    | nil => simp at h2
    | cons y ys =>
      cases xs with
      | nil => simp [sliceCmp]
      | cons x xs =>
        simp only [List.length_cons] at h1 h2
        have := ih xs ys (by omega) (by omega)
        simp [sliceCmp, this.1, this.2]

theorem sliceCmp_ne {cmp : α → α → Ordering} (h : LinCmp cmp) {xs ys : List α} (hl : xs.length ≠ ys.length) :
    sliceCmp cmp xs ys ≠ .eq := fun he => hl (congrArg List.length ((h.slice.eq_iff xs ys).1 he))

theorem cmpThen_ne {o p : Ordering} (h : o ≠ .eq) : cmpThen o p = o := by
  cases o <;> first | rfl | exact absurd rfl h

/-- Comparing piece by piece is comparing element by element. -/
theorem sliceCmp_chunksAux {cmp : α → α → Ordering} (h : LinCmp cmp) (n : Nat) (hn : 0 < n) :
    ∀ (k l : Nat) (xs ys : List α), xs.length ≤ k → ys.length ≤ l →
      sliceCmp (sliceCmp cmp) (chunksAux n k xs) (chunksAux n l ys) = sliceCmp cmp xs ys := by
  intro k
  induction k with
  | zero =>
    intro l xs ys hx hy
    obtain rfl : xs = [] := List.length_eq_zero_iff.1 (by omega)
    cases l with
    | zero =>
      obtain rfl : ys = [] := List.length_eq_zero_iff.1 (by omega)
      rfl
    | succ l => cases ys <;> simp [chunksAux, sliceCmp]
  | succ k ih =>
    intro l xs ys hx hy
    cases xs with
    | nil =>
      cases l with
      | zero =>
        obtain rfl : ys = [] := List.length_eq_zero_iff.1 (by omega)
        simp [chunksAux, sliceCmp]
      | succ l => cases ys <;> simp [chunksAux, sliceCmp]
    | cons x xs =>
      cases l with
      | zero =>
        obtain rfl : ys = [] := List.length_eq_zero_iff.1 (by omega)
        simp [chunksAux, sliceCmp]
      | succ l =>
        cases ys with
        | nil => simp [chunksAux, sliceCmp]
        | cons y ys =>
          simp only [chunksAux, List.isEmpty_cons, Bool.false_eq_true, if_false]
          rw [sliceCmp]
          generalize hxs : x :: xs = as at *
          generalize hys : y :: ys = bs at *
          have ha : 0 < as.length := by rw [← hxs]; simp
          have hb : 0 < bs.length := by rw [← hys]; simp
          rw [ih l (as.drop n) (bs.drop n) (by simp; omega) (by simp; omega)]
          by_cases h1 : as.length < n
          · by_cases h2 : bs.length < n
            · rw [List.take_of_length_le (by omega), List.take_of_length_le (by omega),
                List.drop_eq_nil_of_le (by omega), List.drop_eq_nil_of_le (by omega), sliceCmp]
              cases sliceCmp cmp as bs <;> rfl
            · rw [List.take_of_length_le (l := as) (by omega), (sliceCmp_short n as bs h1 (by omega)).1,
                cmpThen_ne (sliceCmp_ne h (by omega))]
          · by_cases h2 : bs.length < n
            · rw [List.take_of_length_le (l := bs) (by omega), (sliceCmp_short n bs as h2 (by omega)).2,
                cmpThen_ne (sliceCmp_ne h (by omega))]
            · rw [← sliceCmp_append _ _ _ _ (by simp only [List.length_take]; omega), List.take_append_drop,
                List.take_append_drop]

theorem sliceCmp_chunks {cmp : α → α → Ordering} (h : LinCmp cmp) {n : Nat} (hn : 0 < n) (xs ys : List α) :
    sliceCmp (sliceCmp cmp) (chunks n xs) (chunks n ys) = sliceCmp cmp xs ys :=
  sliceCmp_chunksAux h n hn _ _ xs ys (Nat.le_refl _) (Nat.le_refl _)

theorem sliceCmp_map {β : Type} {cmp : α → α → Ordering} {cmp' : β → β → Ordering} (f : α → β)
    (hf : ∀ a b, cmp' (f a) (f b) = cmp a b) : ∀ xs ys : List α,
    sliceCmp cmp' (xs.map f) (ys.map f) = sliceCmp cmp xs ys
  | [], [] => rfl
  | [], _ :: _ => rfl
  | _ :: _, [] => rfl
  | x :: xs, y :: ys => by rw [List.map_cons, List.map_cons, sliceCmp, sliceCmp, hf, sliceCmp_map f hf xs ys]

theorem makeRelaxed_cmp {cmp : α → α → Ordering} (h : LinCmp cmp) (cs ds : List (Node α)) :
    (makeRelaxed cs).cmp cmp (makeRelaxed ds) = sliceCmp (Node.cmp cmp) cs ds := by
  simp only [makeRelaxed, Node.cmp, Node.cmpL_eq]
  by_cases he : sliceCmp (Node.cmp cmp) cs ds = .eq
  · rw [he]
    rw [(Node.linCmp h).slice.eq_iff] at he
    rw [he]
    exact (tableLaws.eq_iff _ _).2 rfl
  · exact cmpThen_ne he

/-- Trees built to the same height compare like the lists of nodes they were built from. -/
theorem buildTree_cmp {cmp : α → α → Ordering} (h : LinCmp cmp) : ∀ (k l : Nat) (ns ms : List (Node α)),
    ns ≠ [] → ms ≠ [] → ns.length ≤ k → ms.length ≤ l →
    (buildTreeRecursive k ns).2 = (buildTreeRecursive l ms).2 →
    (buildTreeRecursive k ns).1.cmp cmp (buildTreeRecursive l ms).1 = sliceCmp (Node.cmp cmp) ns ms := by
  intro k
  induction k with
  | zero => intro l ns ms hn _ hk; exact absurd (List.length_eq_zero_iff.1 (by omega)) hn
  | succ k ih =>
    intro l ns ms hn hm hk hl heq
    cases l with
    | zero => exact absurd (List.length_eq_zero_iff.1 (by omega)) hm
    | succ l =>
      match ns, ms, hn, hm, hk, hl, heq with
      | [n], [m], _, _, _, _, _ => simp only [buildTreeRecursive, sliceCmp]; cases n.cmp cmp m <;> rfl
      | [n], m :: m' :: ms, _, _, _, _, heq => simp [buildTreeRecursive] at heq
      | n :: n' :: ns, [m], _, _, _, _, heq => simp [buildTreeRecursive] at heq
      | n :: n' :: ns, m :: m' :: ms, _, _, hk, hl, heq =>
        simp only [buildTreeRecursive, Nat.add_right_cancel_iff] at heq ⊢
        have hpos : 0 < BRANCHING_FACTOR := by decide
        have key := sliceCmp_chunks (Node.linCmp h) hpos (n :: n' :: ns) (m :: m' :: ms)
        have c1 := chunks_length hpos (n :: n' :: ns)
        have c2 := chunks_length hpos (m :: m' :: ms)
        have f1 := chunks_flatten hpos (n :: n' :: ns)
        have f2 := chunks_flatten hpos (m :: m' :: ms)
        generalize chunks BRANCHING_FACTOR (n :: n' :: ns) = as at *
        generalize chunks BRANCHING_FACTOR (m :: m' :: ms) = bs at *
        simp only [List.length_cons, BRANCHING_FACTOR] at c1 c2 hk hl
        rw [ih l (as.map makeRelaxed) (bs.map makeRelaxed)
          (by intro h0; rw [List.map_eq_nil_iff] at h0; subst h0; simp at f1)
          (by intro h0; rw [List.map_eq_nil_iff] at h0; subst h0; simp at f2)
          (by simp; omega) (by simp; omega) heq, sliceCmp_map makeRelaxed (makeRelaxed_cmp h), key]

/-- The deeper of two balanced nodes is the smaller. -/
theorem Bal.cmp {cmp : α → α → Ordering} {d : Nat} {n : Node α} (hn : Bal d n) : ∀ {e : Nat} {m : Node α},
    Bal e m → e < d → n.cmp cmp m = .lt := by
  induction hn with
  | leaf _ => intro e m _ h; omega
  | @branch d cs s hne hc ih =>
    intro e m hm hlt
    cases hm with
    | leaf _ => simp [Node.cmp]
    | @branch e ds t hne' hd =>
      cases cs with
      | nil => exact absurd rfl hne
      | cons c cs =>
        cases ds with
        | nil => exact absurd rfl hne'
        | cons d' ds =>
          have := ih c (by simp) (hd d' (by simp)) (by omega)
          simp [Node.cmp, Node.cmpL, this, cmpThen]

/-- The leaves that fit into a tree of height `d` and not into a lower one. -/
def Levels (leaves d : Nat) : Prop := leaves ≤ 32 ^ d ∧ ∀ e, e < d → 32 ^ e < leaves

theorem build_levels : ∀ (fuel : Nat) (nodes : List (Node α)), nodes ≠ [] → nodes.length ≤ fuel →
    Levels nodes.length (buildTreeRecursive fuel nodes).2 := by
  intro fuel nodes hne hlen
  refine ⟨?_, ?_⟩
  · induction fuel generalizing nodes with
    | zero => exact absurd (List.length_eq_zero_iff.1 (by omega)) hne
    | succ fuel ih =>
      match nodes, hne, hlen with
      | [n], _, _ => simp [buildTreeRecursive]
      | n :: m :: rest, _, hlen =>
        simp only [buildTreeRecursive]
        have hpos : 0 < BRANCHING_FACTOR := by decide
        have c1 := chunks_length hpos (n :: m :: rest)
        have f1 := chunks_flatten hpos (n :: m :: rest)
        generalize chunks BRANCHING_FACTOR (n :: m :: rest) = cs at *
        simp only [List.length_cons, BRANCHING_FACTOR] at c1 hlen ⊢
        have := ih (cs.map makeRelaxed) (by intro h0; rw [List.map_eq_nil_iff] at h0; subst h0; simp at f1)
          (by simp; omega)
        rw [List.length_map] at this
        rw [Nat.pow_succ]
        omega
  · intro e he
    rcases PV.build_height fuel nodes hne hlen with h | h
    · omega
    · exact Nat.lt_of_le_of_lt (Nat.pow_le_pow_right (by omega) (by omega)) h

theorem Levels.unique {n d e : Nat} (h : Levels n d) (k : Levels n e) : d = e := by
  rcases Nat.lt_trichotomy d e with hlt | heq | hgt
  · have := k.2 d hlt; have := h.1; omega
  · exact heq
  · have := h.2 e hgt; have := k.1; omega

/-- The elements that fill whole leaves. -/
def whole (xs : List α) : List α := xs.take (xs.length / 64 * 64)

/-- The elements left over. -/
def rest (xs : List α) : List α := xs.drop (xs.length / 64 * 64)

theorem fromElements_large (xs : List α) (h : 64 < xs.length) :
    ∃ leaves : List (Node α), leaves = (chunks 64 (whole xs)).map Node.leaf ∧ leaves ≠ [] ∧
      leaves.length = xs.length / 64 ∧
      fromElements xs = ⟨(buildTreeRecursive leaves.length leaves).1, rest xs, [],
        (buildTreeRecursive leaves.length leaves).2, xs.length⟩ := by
  refine ⟨_, rfl, ?_⟩
  have hlen : (whole xs).length = xs.length / 64 * 64 := by simp only [whole, List.length_take]; omega
  have hcl := chunks_length (n := 64) (by decide) (whole xs)
  have hfl := chunks_flatten (n := 64) (by decide) (whole xs)
  have hne : (whole xs).isEmpty = false := by
    rw [List.isEmpty_eq_false_iff]; intro h0
    rw [h0] at hlen; simp at hlen; omega
  refine ⟨?_, by simp only [List.length_map]; omega, ?_⟩
  · intro h0
    rw [List.map_eq_nil_iff] at h0
    rw [h0] at hfl
    rw [← hfl] at hlen
    simp at hlen
    omega
  · simp only [whole] at hne
    simp only [fromElements, buildTreeWithTail, LEAF_CAPACITY, show ¬ xs.length ≤ 64 by omega, if_false, hne,
      Bool.false_eq_true]
    rfl

namespace PV

/-- C86: exactly how collected vectors compare.  Vectors of at most 64 elements are in the order of a dictionary and
come before all others.  Among the others the deeper tree comes first; trees of the same height are compared by the
elements in whole leaves of 64, then by the remaining elements. -/
theorem c86_collected [ROrd α] (h : ROrdLaws α) (xs ys : List α) :
    (xs.length ≤ 64 → ys.length ≤ 64 →
      (ROrd.cmp (fromIter xs) (fromIter ys) = .lt ↔ Before (fun a b => ROrd.cmp a b = .lt) xs ys)) ∧
    (xs.length ≤ 64 → 64 < ys.length → ROrd.cmp (fromIter xs) (fromIter ys) = .lt) ∧
    (64 < xs.length → 64 < ys.length → ∀ d e, Levels (xs.length / 64) d → Levels (ys.length / 64) e →
      (e < d → ROrd.cmp (fromIter xs) (fromIter ys) = .lt) ∧
      (d = e → (ROrd.cmp (fromIter xs) (fromIter ys) = .lt ↔
        Before (fun a b => ROrd.cmp a b = .lt) (whole xs) (whole ys) ∨
        (whole xs = whole ys ∧ Before (fun a b => ROrd.cmp a b = .lt) (rest xs) (rest ys))))) := by
  have small : ∀ xs : List α, xs.length ≤ 64 → fromIter xs = ⟨.inline xs, xs.length, 0⟩ := by
    intro xs hx; simp [fromIter, ADAPTIVE_INLINE_SIZE, hx]
  have large : ∀ xs : List α, 64 < xs.length → fromIter xs = ⟨.tree (fromElements xs), xs.length, 0⟩ := by
    intro xs hx; simp [fromIter, ADAPTIVE_INLINE_SIZE, show ¬ xs.length ≤ 64 by omega]
  refine ⟨fun hx hy => ?_, fun hx hy => ?_, fun hx hy d e hd he => ?_⟩
  · rw [small xs hx, small ys hy, ← sliceCmp_lt h.lin]
    show cmpThen (sliceCmp ROrd.cmp xs ys) (cmpThen (ROrd.cmp xs.length ys.length) (ROrd.cmp 0 0)) = .lt ↔ _
    by_cases heq : sliceCmp ROrd.cmp xs ys = .eq
    · have := (h.lin.slice.eq_iff xs ys).1 heq
      subst this
      simp [heq, cmpThen, (ordLaws_nat.eq_iff _ _).2 rfl]
    · rw [cmpThen_ne heq]
  · rw [small xs hx, large ys hy]; rfl
  · rw [large xs hx, large ys hy]
    obtain ⟨as, has, nas, las, eas⟩ := fromElements_large xs hx
    obtain ⟨bs, hbs, nbs, lbs, ebs⟩ := fromElements_large ys hy
    have hd' := build_levels as.length as nas (Nat.le_refl _)
    have he' := build_levels bs.length bs nbs (Nat.le_refl _)
    rw [las] at hd'
    rw [lbs] at he'
    have hdd := hd.unique hd'
    have hee := he.unique he'
    show (e < d → cmpThen (Tree.cmp ROrd.cmp _ _) (cmpThen (ROrd.cmp xs.length ys.length) (ROrd.cmp 0 0)) = .lt) ∧
      (d = e → (cmpThen (Tree.cmp ROrd.cmp _ _) (cmpThen (ROrd.cmp xs.length ys.length) (ROrd.cmp 0 0)) = .lt ↔ _))
    rw [eas, ebs]
    have leaf : ∀ zs : List α, ∀ n ∈ (chunks 64 (whole zs)).map Node.leaf, Bal 0 n := by
      intro zs n hn
      obtain ⟨c, hc, rfl⟩ := List.mem_map.1 hn
      exact .leaf (chunks_mem (n := 64) (by decide) _ c hc).1
    constructor
    · intro hlt
      have b1 := buildTree_bal as.length as 0 nas (Nat.le_refl _) (has ▸ leaf xs)
      have b2 := buildTree_bal bs.length bs 0 nbs (Nat.le_refl _) (hbs ▸ leaf ys)
      rw [las] at b1
      rw [lbs] at b2
      have := b1.cmp (cmp := ROrd.cmp) b2 (by omega)
      rw [las, lbs]
      simp only [Tree.cmp, this, cmpThen]
    · intro hde
      have hr := buildTree_cmp h.lin as.length bs.length as bs nas nbs (Nat.le_refl _) (Nat.le_refl _)
        (by rw [las, lbs]; omega)
      rw [has, hbs, sliceCmp_map Node.leaf (cmp := sliceCmp ROrd.cmp) (fun _ _ => rfl),
        sliceCmp_chunks h.lin (by decide), ← has, ← hbs] at hr
      rw [← sliceCmp_lt h.lin, ← sliceCmp_lt h.lin, ← h.lin.slice.eq_iff, ← cmpThen_lt]
      simp only [Tree.cmp, hr]
      by_cases h1 : sliceCmp ROrd.cmp (whole xs) (whole ys) = .eq
      · by_cases h2 : sliceCmp ROrd.cmp (rest xs) (rest ys) = .eq
        · rw [h1, h2]
          have e1 := (h.lin.slice.eq_iff _ _).1 h1
          have e2 := (h.lin.slice.eq_iff _ _).1 h2
          have : xs = ys := by
            have hx' : whole xs ++ rest xs = xs := List.take_append_drop _ _
            have hy' : whole ys ++ rest ys = ys := List.take_append_drop _ _
            rw [← hx', ← hy', e1, e2]
          subst this
          have : as = bs := by rw [has, hbs]
          subst this
          simp [cmpThen, sliceCmp, (ordLaws_nat.eq_iff _ _).2 rfl]
        · rw [h1, show ∀ o, cmpThen .eq o = o from fun _ => rfl, cmpThen_ne h2, cmpThen_ne h2]; rfl
      · rw [cmpThen_ne h1, cmpThen_ne h1, cmpThen_ne h1]

/-! ## The claim fails -/

/-- The full claim of C86 for vectors: they are ordered like the lists of their elements. -/
def OrdCorrect [ROrd α] (v w : PV α) : Prop :=
  ROrd.cmp v w = .lt ↔ Before (fun a b => ROrd.cmp a b = .lt) v.toVec w.toVec

/-- The claim fails: the vector `[1]` comes before a vector of 65 zeros, a vector of 128 nines before a vector of 65
zeros, and of two vectors extended at the front the one with the greater first element may come first. -/
theorem c86_vector_false :
    (∃ v w : PV Nat, Tame v ∧ Tame w ∧ ¬ OrdCorrect v w ∧ ROrd.cmp v w = .lt ∧
      Before (fun a b => ROrd.cmp a b = .lt) w.toVec v.toVec ∧ v.isTree = false) ∧
    (∃ v w : PV Nat, Tame v ∧ Tame w ∧ ¬ OrdCorrect v w ∧ ROrd.cmp v w = .lt ∧
      Before (fun a b => ROrd.cmp a b = .lt) w.toVec v.toVec ∧ v.isTree = true ∧ w.isTree = true) ∧
    (∃ v w : PV Nat, Sound v ∧ Sound w ∧ ¬ OrdCorrect v w ∧ ROrd.cmp v w = .lt ∧
      Before (fun a b => ROrd.cmp a b = .lt) w.toVec v.toVec ∧ v.skeleton = w.skeleton) := by
  have wrong : ∀ v w : PV Nat, ROrd.cmp v w = .lt → Before (fun a b => ROrd.cmp a b = .lt) w.toVec v.toVec →
      ¬ OrdCorrect v w := by
    intro v w h1 h2 h3
    have h4 := h3.1 h1
    rw [← sliceCmp_lt ordLaws_nat.lin] at h2 h4
    rw [ordLaws_nat.lin.slice.swap, h2] at h4
    cases h4
  have pack : ∀ v w : PV Nat, ROrd.cmp v w = .lt → sliceCmp ROrd.cmp w.toVec v.toVec = .lt →
      ¬ OrdCorrect v w ∧ ROrd.cmp v w = .lt ∧ Before (fun a b => ROrd.cmp a b = .lt) w.toVec v.toVec :=
    fun v w h1 h2 => ⟨wrong v w h1 ((sliceCmp_lt ordLaws_nat.lin _ _).1 h2), h1, (sliceCmp_lt ordLaws_nat.lin _ _).1 h2⟩
  refine ⟨⟨fromIter [1], fromIter (List.replicate 65 0), .fromIter _, .fromIter _, ?_⟩,
    ⟨fromIter (List.replicate 128 9), fromIter (List.replicate 65 0), .fromIter _, .fromIter _, ?_⟩,
    ⟨(fromIter (List.replicate 65 0)).pushFront 2, (fromIter (List.replicate 65 9)).pushFront 1,
      .pushFront _ (.tame (.fromIter _)), .pushFront _ (.tame (.fromIter _)), ?_⟩⟩
  · obtain ⟨h1, h2, h3⟩ := pack (fromIter [1]) (fromIter (List.replicate 65 0)) (by decide +kernel) (by decide +kernel)
    exact ⟨h1, h2, h3, rfl⟩
  · obtain ⟨h1, h2, h3⟩ := pack (fromIter (List.replicate 128 9)) (fromIter (List.replicate 65 0)) (by decide +kernel)
      (by decide +kernel)
    exact ⟨h1, h2, h3, by decide +kernel, by decide +kernel⟩
  · obtain ⟨h1, h2, h3⟩ := pack ((fromIter (List.replicate 65 0)).pushFront 2)
      ((fromIter (List.replicate 65 9)).pushFront 1) (by decide +kernel) (by decide +kernel)
    exact ⟨h1, h2, h3, rfl⟩

/-! ## Examples -/

/-- The three cases of `c86_collected`: 100 elements in one leaf, 2112 in 33 leaves, 192 and 200 in three. -/
example : ROrd.cmp (fromIter (List.replicate 2112 9)) (fromIter (List.replicate 100 0)) = .lt ∧
    ROrd.cmp (fromIter (List.replicate 192 0)) (fromIter (List.replicate 193 0)) = .lt := by
  have l0 : Levels 1 0 := ⟨by decide, fun e he => absurd he (by omega)⟩
  have l1 : Levels 3 1 := ⟨by decide, fun e he => by
    have : e = 0 := by omega
    subst this; decide⟩
  have l2 : Levels 33 2 := ⟨by decide, fun e he => by
    have : e = 0 ∨ e = 1 := by omega
    rcases this with rfl | rfl <;> decide⟩
  have n1 : (List.replicate 2112 9).length = 2112 := List.length_replicate
  have n2 : (List.replicate 100 0).length = 100 := List.length_replicate
  have n3 : (List.replicate 192 0).length = 192 := List.length_replicate
  have n4 : (List.replicate 193 0).length = 193 := List.length_replicate
  refine ⟨((c86_collected ordLaws_nat _ _).2.2 (by rw [n1]; decide) (by rw [n2]; decide) 2 0 (by rw [n1]; exact l2)
    (by rw [n2]; exact l0)).1 (by decide), ((c86_collected ordLaws_nat _ _).2.2 (by rw [n3]; decide)
    (by rw [n4]; decide) 1 1 (by rw [n3]; exact l1) (by rw [n4]; exact l1)).2 rfl |>.2 ?_⟩
  exact .inr ⟨by decide +kernel, .inl ⟨0, [], by decide +kernel⟩⟩

example : ROrdLaws (PV (PV Nat)) := c86_vector_total (c86_vector_total ordLaws_nat)

example : RPartialOrd.partialCmp (fromIter [1, 2]) (fromIter [1, 3]) = some .lt :=
  (c86_vector_partial_cmp (α := Nat) (fun _ _ => rfl) _ _).trans (by decide +kernel)

/-- Two runs of one program: collect 200, replace one element, push one. -/
example : ROrd.cmp (((fromIter (List.range 200)).update 150 7).pushBack 1) (((fromIter (List.range 200)).update 150 8).pushBack 0)
    = .lt := by
  rw [c86_dictionary_partial ordLaws_nat (.pushBack _ (.update _ _ (.fromIter _)))
    (.pushBack _ (.update _ _ (.fromIter _))) (by simp only [skeleton_eq, ← pushBack_over, ← update_over, ← fromIter_over]), ← sliceCmp_lt ordLaws_nat.lin]
  decide +kernel

/-- With a front buffer of one element: the rest decides first. -/
example : ROrd.cmp ((fromIter (List.replicate 70 0)).pushFront 2) ((fromIter (List.replicate 70 9)).pushFront 1) = .lt :=
  (c86_same_layout ordLaws_nat ⟨(Sound.pushFront 2 (.tame (.fromIter _))).wf⟩
    ⟨(Sound.pushFront 1 (.tame (.fromIter _))).wf⟩ (by rfl)).2.2 <| by
      rw [← sliceCmp_lt ordLaws_nat.lin]
      decide +kernel

end PV
end Rustica.PVec
