import Verif.Data.Compare
import Verif.Theorems.Optics
import Verif.Theorems.Foldable
import Verif.Theorems.Choice

/-!
# C90: equality and order need only be what `PartialEq`, `Eq` and `Ord` promise

The vector's part is in `PVec/Theorems/Compare`.
-/

namespace Rustica

variable {S A B K V T : Type}

theorem fl_laws : PartialEqLaws Fl.eq := by
  constructor
  · intro a b; cases a <;> cases b <;> simp [Fl.eq]; omega
  · intro a b c; cases a <;> cases b <;> cases c <;> simp [Fl.eq] <;> omega

/-- A record with an identity and a note, equal when the identities are. -/
def sameId (a b : Nat × String) : Bool := decide (a.1 = b.1)

theorem sameId_laws : EqLaws sameId where
  symm a b h := by simp [sameId] at h ⊢; exact h.symm
  trans a b c h k := by simp [sameId] at h k ⊢; exact h.trans k
  refl a := by simp [sameId]

/-! ## Lenses -/

/-- C90: what `set` does for any `==` of the focus.  The focus becomes the new value, unless the old focus was already
`==` to it, and then the structure is returned as it was; what is not in focus never changes; setting the present focus
changes nothing. -/
theorem c90_lens_set (eq : A → A → Bool) (l : RLens S A) (h : LensLaws l.get l.setAlways) :
    (∀ s a, l.get (l.setBy eq s a) = a ∨ l.setBy eq s a = s ∧ eq (l.get s) a = true) ∧
    (∀ s a c, l.setAlways (l.setBy eq s a) c = l.setAlways s c) ∧
    (∀ s, l.setBy eq s (l.get s) = s) ∧
    (∀ s f, l.modifyBy eq s f = l.setBy eq s (f (l.get s))) ∧ (∀ s, l.modifyBy eq s id = s) := by
  have h3 : ∀ s, l.setBy eq s (l.get s) = s := by
    intro s; unfold RLens.setBy
    split
    · rfl
    · exact h.set_get s
  refine ⟨fun s a => ?_, fun s a c => ?_, h3, fun s f => rfl, h3⟩
  · unfold RLens.setBy
    by_cases he : eq (l.get s) a = true
    · rw [if_pos he]; exact .inr ⟨rfl, he⟩
    · rw [if_neg he]; exact .inl (h.get_set s a)
  · unfold RLens.setBy
    split
    · rfl
    · exact h.set_set s a c

/-- The first component of a pair. -/
def pairLens (A B : Type) : RLens (A × B) A := ⟨fun s => s.1, fun s a => (a, s.2)⟩

theorem pairLens_laws (A B : Type) : LensLaws (pairLens A B).get (pairLens A B).setAlways :=
  ⟨fun _ _ => rfl, fun _ => rfl, fun _ _ _ => rfl⟩

example : (pairLens Fl Nat).setAlways ((pairLens Fl Nat).setBy Fl.eq (.nan, 7) .nan) (.num 1) = (.num 1, 7) :=
  (c90_lens_set Fl.eq (pairLens Fl Nat) (pairLens_laws Fl Nat)).2.1 (.nan, 7) .nan (.num 1)

/-- C90: for `Eq` types the lens laws hold up to `==` of the focus: reading gives back an equal value, and the last of
two writes wins. -/
theorem c90_lens_up_to {eq : A → A → Bool} (he : EqLaws eq) (l : RLens S A) (h : LensLaws l.get l.setAlways) :
    (∀ s a, eq (l.get (l.setBy eq s a)) a = true) ∧
    (∀ s a b, eq (l.get (l.setBy eq (l.setBy eq s a) b)) (l.get (l.setBy eq s b)) = true ∧
      ∀ c, l.setAlways (l.setBy eq (l.setBy eq s a) b) c = l.setAlways (l.setBy eq s b) c) := by
  have h1 : ∀ s a, eq (l.get (l.setBy eq s a)) a = true := by
    intro s a
    rcases (c90_lens_set eq l h).1 s a with h1 | ⟨h1, h2⟩
    · rw [h1]; exact he.refl a
    · rw [h1]; exact h2
  refine ⟨h1, fun s a b => ⟨he.trans _ _ _ (h1 _ b) (he.symm _ _ (h1 s b)), fun c => ?_⟩⟩
  rw [(c90_lens_set eq l h).2.1, (c90_lens_set eq l h).2.1, (c90_lens_set eq l h).2.1]

example : sameId ((pairLens (Nat × String) Nat).get ((pairLens (Nat × String) Nat).setBy sameId ((1, "old"), 7) (1, "new")))
    (1, "new") = true := (c90_lens_up_to sameId_laws _ (pairLens_laws _ _)).1 _ _

/-- C90: the law `l.get(l.set(s, v)) == v` as it is written (lens.rs 140-146) holds at `v`, for any `PartialEq`, exactly
when `v == v`. -/
theorem c90_lens_law_iff {eq : A → A → Bool} (he : PartialEqLaws eq) (l : RLens S A) (h : LensLaws l.get l.setAlways)
    (s : S) (v : A) : eq (l.get (l.setBy eq s v)) v = true ↔ eq v v = true := by
  rcases (c90_lens_set eq l h).1 s v with h1 | ⟨h1, h2⟩
  · rw [h1]
  · rw [h1]
    exact ⟨fun h3 => he.trans _ _ _ (he.symm _ _ h3) h3, fun _ => h2⟩

example : Fl.eq ((pairLens Fl Nat).get ((pairLens Fl Nat).setBy Fl.eq (.negZero, 1) (.num 0))) (.num 0) = true :=
  (c90_lens_law_iff fl_laws _ (pairLens_laws Fl Nat) _ _).2 rfl

/-- C90: `set` is an exact setter exactly when equal values of the focus are the same value. -/
theorem c90_lens_exact_iff [Nonempty S] (eq : A → A → Bool) (l : RLens S A) (h : LensLaws l.get l.setAlways) :
    (LensLaws l.get (l.setBy eq) ↔ ∀ a b, eq a b = true → a = b) ∧
    ((∀ s a, l.get (l.setBy eq s a) = a) ↔ ∀ a b, eq a b = true → a = b) := by
  have h2 : (∀ s a, l.get (l.setBy eq s a) = a) ↔ ∀ a b, eq a b = true → a = b := by
    constructor
    · intro hg a b hab
      obtain ⟨s⟩ := (inferInstance : Nonempty S)
      have := hg (l.setAlways s a) b
      rw [RLens.setBy, h.get_set, if_pos hab, h.get_set] at this
      exact this
    · intro hi s a
      rcases (c90_lens_set eq l h).1 s a with h1 | ⟨h1, h2⟩
      · exact h1
      · rw [h1]; exact hi _ _ h2
  refine ⟨⟨fun hl => h2.1 hl.get_set, fun hi => ?_⟩, h2⟩
  have hset : ∀ s a, l.setBy eq s a = l.setAlways s a := by
    intro s a
    unfold RLens.setBy
    split
    · rename_i hh
      rw [← hi _ _ hh]; exact (h.set_get s).symm
    · rfl
  exact ⟨h2.2 hi, (c90_lens_set eq l h).2.2.1, fun s a b => by rw [hset, hset, hset]; exact h.set_set s a b⟩

example : ¬ LensLaws (pairLens Fl Nat).get ((pairLens Fl Nat).setBy Fl.eq) := fun h => by
  have : Nonempty (Fl × Nat) := ⟨(.nan, 0)⟩
  have := ((c90_lens_exact_iff Fl.eq (pairLens Fl Nat) (pairLens_laws Fl Nat)).1.1 h) .negZero (.num 0) rfl
  cases this

/-- The laws SetGet and SetSet (lens.rs 140-154), read as identities, fail for floating-point fields: setting `0.0` on a field
holding `-0.0` leaves `-0.0`, and setting twice is not the same as setting once.  Read with `==`, SetGet fails at NaN. -/
theorem c90_lens_false : ∃ l : RLens (Fl × Nat) Fl, LensLaws l.get l.setAlways ∧
    (∃ s a, l.get (l.setBy Fl.eq s a) ≠ a) ∧ (∃ s a, Fl.eq (l.get (l.setBy Fl.eq s a)) a = false) ∧
    ∃ s a b, l.setBy Fl.eq (l.setBy Fl.eq s a) b ≠ l.setBy Fl.eq s b :=
  ⟨pairLens Fl Nat, pairLens_laws Fl Nat, ⟨(.negZero, 0), .num 0, by decide⟩, ⟨(.negZero, 0), .nan, by decide⟩,
    ⟨(.negZero, 0), .num 1, .num 0, by decide⟩⟩

/-! ## Prisms -/

/-- C90: what the prism's updates do for any `==` of the focus. -/
theorem c90_prism (eq : A → A → Bool) (p : RPrism S A) (h : PrismLaws p.preview p.review) :
    (∀ s f, p.preview (p.modifyBy eq s f) = (p.preview s).map f ∨
      p.modifyBy eq s f = s ∧ ∃ c, p.preview s = some c ∧ eq (f c) c = true) ∧
    (∀ s f, p.preview s = none → p.modifyBy eq s f = s) ∧
    (∀ s, p.modifyBy eq s id = s) ∧
    (∀ s a, p.preview (p.setIfDifferentBy eq s a) = some a ∨
      p.setIfDifferentBy eq s a = s ∧ ∃ c, p.preview s = some c ∧ eq a c = true) ∧
    (∀ s a, p.preview s = some a → p.setIfDifferentBy eq s a = s) := by
  refine ⟨fun s f => ?_, fun s f hs => ?_, fun s => ?_, fun s a => ?_, fun s a hs => ?_⟩
  · unfold RPrism.modifyBy
    cases hp : p.preview s with
    | none => exact .inl (by simp [hp])
    | some c =>
      by_cases he : eq (f c) c = true
      · simp [he]
      · simp [he, h.preview_review]
  · unfold RPrism.modifyBy; rw [hs]
  · unfold RPrism.modifyBy
    cases hp : p.preview s with
    | none => rfl
    | some c =>
      simp only [id]
      split
      · rfl
      · exact h.review_preview s c hp
  · unfold RPrism.setIfDifferentBy
    cases hp : p.preview s with
    | none => exact .inl (h.preview_review a)
    | some c =>
      by_cases he : eq a c = true
      · simp [he]
      · simp [he, h.preview_review]
  · unfold RPrism.setIfDifferentBy
    rw [hs]
    simp only
    split
    · rfl
    · exact h.review_preview s a hs

/-- The present case of an `Option`. -/
def somePrism (A : Type) : RPrism (Option A) A := ⟨fun s => s, some⟩

example : (somePrism Fl).modifyBy Fl.eq (some .nan) id = some .nan :=
  (c90_prism Fl.eq (somePrism Fl) ⟨fun _ => rfl, fun _ _ h => h.symm⟩).2.2.1 (some .nan)

/-- C90: the prism's updates store the new value in every case exactly when equal values are the same. -/
theorem c90_prism_exact_iff (eq : A → A → Bool) (p : RPrism S A) (h : PrismLaws p.preview p.review) :
    ((∀ s f, p.preview (p.modifyBy eq s f) = (p.preview s).map f) ↔ ∀ a b, eq a b = true → a = b) ∧
    ((∀ s a, p.preview (p.setIfDifferentBy eq s a) = some a) ↔ ∀ a b, eq a b = true → a = b) := by
  refine ⟨⟨fun hm a b hab => ?_, fun hi s f => ?_⟩, ⟨fun hm a b hab => ?_, fun hi s a => ?_⟩⟩
  · have := hm (p.review b) (fun _ => a)
    simp only [RPrism.modifyBy, h.preview_review, hab, if_true, Option.map_some, Option.some.injEq] at this
    exact this.symm
  · rcases (c90_prism eq p h).1 s f with h1 | ⟨h1, c, h2, h3⟩
    · exact h1
    · rw [h1, h2, Option.map_some, hi _ _ h3]
  · have := hm (p.review b) a
    simp only [RPrism.setIfDifferentBy, h.preview_review, hab, if_true, Option.some.injEq] at this
    exact this.symm
  · rcases (c90_prism eq p h).2.2.2.1 s a with h1 | ⟨h1, c, h2, h3⟩
    · exact h1
    · rw [h1, h2, hi _ _ h3]

example : ¬ ∀ s a, (somePrism Fl).preview ((somePrism Fl).setIfDifferentBy Fl.eq s a) = some a := fun hh => by
  have := (c90_prism_exact_iff Fl.eq (somePrism Fl) ⟨fun _ => rfl, fun _ _ h => h.symm⟩).2.1 hh .negZero (.num 0) rfl
  cases this

/-! ## `verify_laws` of isomorphisms -/

/-- C90: on a true isomorphism `verify_laws` says `true` exactly at samples equal to themselves; for `Eq` types, always. -/
theorem c90_verify_laws (eqA : A → A → Bool) (eqB : B → B → Bool) (i : RIso A B) (h : Inverse i.forward i.backward)
    (a : A) (b : B) :
    (i.verifyLawsBy eqA eqB a b = true ↔ eqA a a = true ∧ eqB b b = true) ∧
    (EqLaws eqA → EqLaws eqB → i.verifyLawsBy eqA eqB a b = true) := by
  have h1 : i.verifyLawsBy eqA eqB a b = true ↔ eqA a a = true ∧ eqB b b = true := by
    simp [RIso.verifyLawsBy, h.left, h.right]
  exact ⟨h1, fun ha hb => h1.2 ⟨ha.refl a, hb.refl b⟩⟩

/-- The identity on floating-point numbers is reported as unlawful at NaN. -/
example : ¬ RIso.verifyLawsBy Fl.eq Fl.eq ⟨fun a => a, fun b => b⟩ .nan (.num 0) = true := fun h => by
  have := ((c90_verify_laws Fl.eq Fl.eq ⟨fun a => a, fun b => b⟩ ⟨fun _ => rfl, fun _ => rfl⟩ .nan (.num 0)).1.1 h).1
  cases this

/-! ## `Choice::dedup`, `dedup_by_key`, `to_map_with_key` -/

namespace Choice

theorem dedupLoopBy_snoc {eq : K → K → Bool} (he : EqLaws eq) (key : T → K) (x : T) : ∀ (xs : List T) (seen : List K),
    dedupLoopBy eq key (xs ++ [x]) seen = dedupLoopBy eq key xs seen ++
      if (seen.any (fun k => eq (key x) k) || xs.any (fun y => eq (key x) (key y))) = true then [] else [x] := by
  intro xs
  induction xs with
  | nil =>
    intro seen
    simp only [List.nil_append, dedupLoopBy, List.any_nil, Bool.or_false]
  | cons v vs ih =>
    intro seen
    simp only [List.cons_append, dedupLoopBy, List.any_cons]
    by_cases hs : seen.any (fun k => eq (key v) k) = true
    · rw [if_pos hs, if_pos hs, ih]
      congr 2
      rcases hv : eq (key x) (key v) with _ | _
      · simp
      · obtain ⟨k, hk, hvk⟩ := List.any_eq_true.1 hs
        have : seen.any (fun k => eq (key x) k) = true := List.any_eq_true.2 ⟨k, hk, he.trans _ _ _ hv hvk⟩
        simp [this]
    · rw [if_neg hs, if_neg hs, ih, List.cons_append]
      congr 3
      cases hv : eq (key x) (key v) <;> simp [hv]

theorem dedupByKeyBy_values (eq : K → K → Bool) (key : T → K) (xs : List T) :
    (dedupByKeyBy eq ⟨xs⟩ key).values = dedupLoopBy eq key xs [] := by
  cases xs <;> rfl

/-- C90: for keys with any lawful `Eq`, `dedup_by_key` keeps exactly the values with no earlier value of equal key: an
element more at the end stays exactly when no element before it has an equal key. -/
theorem c90_dedup_by_key {eq : K → K → Bool} (he : EqLaws eq) (key : T → K) :
    (dedupByKeyBy eq ⟨[]⟩ key).toVec = [] ∧
    ∀ (xs : List T) (x : T), (dedupByKeyBy eq ⟨xs ++ [x]⟩ key).toVec =
      (dedupByKeyBy eq ⟨xs⟩ key).toVec ++ if ∃ y ∈ xs, eq (key x) (key y) = true then [] else [x] := by
  refine ⟨rfl, fun xs x => ?_⟩
  show (dedupByKeyBy eq ⟨xs ++ [x]⟩ key).values = (dedupByKeyBy eq ⟨xs⟩ key).values ++ _
  rw [dedupByKeyBy_values, dedupByKeyBy_values, dedupLoopBy_snoc he]
  congr 1
  by_cases h : ∃ y ∈ xs, eq (key x) (key y) = true
  · rw [if_pos h, if_pos]
    simpa using h
  · rw [if_neg h, if_neg]
    simpa using h

example : (dedupByKeyBy sameId ⟨[(1, "a"), (2, "b"), (1, "c")]⟩ (fun v => v)).toVec = [(1, "a"), (2, "b")] := by
  have h := (c90_dedup_by_key sameId_laws (fun v => v)).2 [(1, "a"), (2, "b")] (1, "c")
  rw [if_pos ⟨(1, "a"), by simp, by decide⟩] at h
  exact h

/-- C90: `dedup` is `dedup_by_key` with the values as keys. -/
theorem c90_dedup (eq : T → T → Bool) (c : Choice T) : c.dedupBy eq = c.dedupByKeyBy eq (fun v => v) := rfl

/-- C90: the values kept are in their old order, no two have equal keys, the first value is kept, and every value has an
equal key among the kept ones. -/
theorem c90_dedup_kept {eq : K → K → Bool} (he : EqLaws eq) (key : T → K) (xs : List T) :
    (dedupByKeyBy eq ⟨xs⟩ key).toVec.Sublist xs ∧
    (dedupByKeyBy eq ⟨xs⟩ key).toVec.Pairwise (fun a b => eq (key b) (key a) = false) ∧
    (dedupByKeyBy eq ⟨xs⟩ key).toVec.head? = xs.head? ∧
    ∀ x ∈ xs, ∃ y ∈ (dedupByKeyBy eq ⟨xs⟩ key).toVec, eq (key x) (key y) = true := by
  have main : ∀ ys : List T, (dedupByKeyBy eq ⟨ys.reverse⟩ key).toVec.Sublist ys.reverse ∧
      (dedupByKeyBy eq ⟨ys.reverse⟩ key).toVec.Pairwise (fun a b => eq (key b) (key a) = false) ∧
      ∀ x ∈ ys.reverse, ∃ y ∈ (dedupByKeyBy eq ⟨ys.reverse⟩ key).toVec, eq (key x) (key y) = true := by
    intro ys
    induction ys with
    | nil => exact ⟨List.Sublist.refl _, List.Pairwise.nil, by simp⟩
    | cons y ys ih =>
      obtain ⟨h1, h2, h3⟩ := ih
      rw [List.reverse_cons, (c90_dedup_by_key he key).2]
      by_cases h : ∃ z ∈ ys.reverse, eq (key y) (key z) = true
      · rw [if_pos h, List.append_nil]
        refine ⟨h1.trans (List.sublist_append_left _ _), h2, fun x hx => ?_⟩
        rcases List.mem_append.1 hx with hx | hx
        · exact h3 x hx
        · have : x = y := by simpa using hx
          subst this
          obtain ⟨z, hz, hxz⟩ := h
          obtain ⟨w, hw, hzw⟩ := h3 z hz
          exact ⟨w, hw, he.trans _ _ _ hxz hzw⟩
      · rw [if_neg h]
        refine ⟨h1.append (List.Sublist.refl _), ?_, fun x hx => ?_⟩
        · rw [List.pairwise_append]
          refine ⟨h2, by simp, fun a ha b hb => ?_⟩
          have : b = y := by simpa using hb
          subst this
          rcases hh : eq (key b) (key a) with _ | _
          · rfl
          · exact absurd ⟨a, h1.subset ha, hh⟩ h
        · rcases List.mem_append.1 hx with hx | hx
          · obtain ⟨w, hw, hzw⟩ := h3 x hx
            exact ⟨w, by simp [hw], hzw⟩
          · have : x = y := by simpa using hx
            subst this
            exact ⟨x, by simp, he.refl _⟩
  have := main xs.reverse
  rw [List.reverse_reverse] at this
  refine ⟨this.1, this.2.1, ?_, this.2.2⟩
  cases xs <;> rfl

example : (dedupByKeyBy sameId ⟨[(1, "a"), (2, "b"), (1, "c")]⟩ (fun v => v)).toVec.Pairwise
    (fun a b => sameId b a = false) := (c90_dedup_kept sameId_laws (fun v => v) [(1, "a"), (2, "b"), (1, "c")]).2.1

end Choice

namespace Entries

theorem look_find (eq : K → K → Bool) (k : K) (es : List (K × V)) :
    look eq k es = (es.find? (fun e => eq k e.1)).map (·.2) := by
  induction es with
  | nil => rfl
  | cons e es ih =>
    unfold look
    by_cases h : eq k e.1 = true
    · simp [h]
    · simp [h, ih]

theorem orInsert_find {eq : K → K → Bool} (he : EqLaws eq) (m : List (K × V)) (k k' : K) (v : V) :
    (orInsert eq m k v).find? (fun e => eq k' e.1) =
      (m.find? (fun e => eq k' e.1)).or (if eq k' k = true then some (k, v) else none) := by
  unfold orInsert
  rw [look_find]
  cases hf : m.find? (fun e => eq k e.1) with
  | none =>
    simp only [Option.map_none, List.find?_append]
    congr 1
    by_cases h : eq k' k = true <;> simp [h]
  | some e =>
    simp only [Option.map_some]
    by_cases h : eq k' k = true
    · have h1 := List.find?_some hf
      have h2 := List.mem_of_find?_eq_some hf
      have : (m.find? (fun e => eq k' e.1)).isSome := by
        rw [List.find?_isSome]; exact ⟨e, h2, he.trans _ _ _ h h1⟩
      cases hm : m.find? (fun e => eq k' e.1) with
      | none => rw [hm] at this; cases this
      | some _ => rfl
    · simp [h]

/-- C90: for keys with any lawful `Eq`, the map made by `to_map_with_key` holds under each key the first value whose key
is equal. -/
theorem c90_to_map {eq : K → K → Bool} (he : EqLaws eq) (c : Choice V) (f : V → K) (k : K) :
    look eq k (ofChoice eq c f) = c.toVec.find? (fun v => eq k (f v)) := by
  have key : ∀ (vs : List V) (m : List (K × V)),
      (vs.foldl (fun m v => orInsert eq m (f v) v) m).find? (fun e => eq k e.1) =
        (m.find? (fun e => eq k e.1)).or ((vs.find? (fun v => eq k (f v))).map (fun v => (f v, v))) := by
    intro vs
    induction vs with
    | nil => intro m; simp
    | cons v vs ih =>
      intro m
      rw [List.foldl_cons, ih, orInsert_find he, Option.or_assoc]
      congr 1
      by_cases h : eq k (f v) = true <;> simp [h]
  rw [look_find, ofChoice, key]
  show _ = c.values.find? _
  cases c.values.find? (fun v => eq k (f v)) <;> rfl

example : look sameId (2, "?") (ofChoice sameId ⟨[(1, "a"), (2, "b"), (2, "c")]⟩ (fun v => v)) = some (2, "b") :=
  c90_to_map sameId_laws ⟨[(1, "a"), (2, "b"), (2, "c")]⟩ (fun v => v) (2, "?")

/-! ## Maps and sets -/

/-- No two entries have equal keys. -/
def Distinct (eq : K → K → Bool) (es : List (K × V)) : Prop := es.Pairwise (fun a b => eq a.1 b.1 = false)

theorem find_perm {eq : K → K → Bool} (he : EqLaws eq) {xs ys : List (K × V)} (hp : xs.Perm ys) (hx : Distinct eq xs)
    (k : K) : xs.find? (fun e => eq k e.1) = ys.find? (fun e => eq k e.1) := by
  induction hp with
  | nil => rfl
  | cons x _ ih =>
    simp only [List.find?_cons]
    rw [ih (List.pairwise_cons.1 hx).2]
  | swap x y l =>
    simp only [List.find?_cons]
    have hxy : eq y.1 x.1 = false := (List.pairwise_cons.1 hx).1 x (by simp)
    cases h1 : eq k y.1 with
    | false => rfl
    | true =>
      cases h2 : eq k x.1 with
      | false => rfl
      | true =>
        have := he.trans _ _ _ (he.symm _ _ h1) h2
        rw [hxy] at this; cases this
  | trans h1 _ ih1 ih2 =>
    refine (ih1 hx).trans (ih2 ?_)
    exact (h1.pairwise_iff (R := fun a b : K × V => eq a.1 b.1 = false) (fun {a b} hab => by
      rcases hh : eq b.1 a.1 with _ | _
      · rfl
      · rw [he.symm _ _ hh] at hab; cases hab)).1 hx

theorem setAt_find {eq : K → K → Bool} (he : EqLaws eq) (k k' : K) (v : V) (m : List (K × V)) :
    (setAt eq k v m).find? (fun e => eq k' e.1) =
      if eq k' k = true then (m.find? (fun e => eq k' e.1)).map (fun e => (e.1, v))
      else m.find? (fun e => eq k' e.1) := by
  induction m with
  | nil => simp [setAt]
  | cons e es ih =>
    unfold setAt
    by_cases h : eq k e.1 = true
    · rw [if_pos h]
      by_cases h' : eq k' k = true
      · have := he.trans _ _ _ h' h
        simp [h', this]
      · have h1 : eq k' e.1 = false := by
          rcases hh : eq k' e.1 with _ | _
          · rfl
          · exact absurd (he.trans _ _ _ hh (he.symm _ _ h)) h'
        simp [h', h1]
    · rw [if_neg h, List.find?_cons, List.find?_cons, ih]
      by_cases h' : eq k' k = true
      · have h1 : eq k' e.1 = false := by
          rcases hh : eq k' e.1 with _ | _
          · rfl
          · exact absurd (he.trans _ _ _ (he.symm _ _ h') hh) h
        simp [h', h1]
      · simp [h']

theorem setAt_keys (eq : K → K → Bool) (k : K) (v : V) (m : List (K × V)) : (setAt eq k v m).map (·.1) = m.map (·.1) := by
  induction m with
  | nil => rfl
  | cons e es ih => unfold setAt; split <;> simp [ih]

theorem distinct_keys {eq : K → K → Bool} (m : List (K × V)) :
    Distinct eq m ↔ (m.map (·.1)).Pairwise (fun a b => eq a b = false) := by
  rw [List.pairwise_map]; rfl

section
variable [RSemigroup V]

theorem entryStep_find {eq : K → K → Bool} (he : EqLaws eq) (m : List (K × V)) (e : K × V) (k : K) :
    (entryStep eq m e).find? (fun x => eq k x.1) =
      if eq k e.1 = true then some (match m.find? (fun x => eq k x.1) with
        | some old => (old.1, combine old.2 e.2)
        | none => e)
      else m.find? (fun x => eq k x.1) := by
  have hsame : eq k e.1 = true → m.find? (fun x => eq e.1 x.1) = m.find? (fun x => eq k x.1) := by
    intro h
    congr 1
    funext x
    rw [Bool.eq_iff_iff]
    exact ⟨fun h1 => he.trans _ _ _ h h1, fun h1 => he.trans _ _ _ (he.symm _ _ h) h1⟩
  unfold entryStep
  rw [look_find]
  by_cases h : eq k e.1 = true
  · rw [if_pos h, hsame h]
    cases hf : m.find? (fun x => eq k x.1) with
    | none => simp [List.find?_append, hf, h]
    | some old =>
      simp only [Option.map_some]
      rw [setAt_find he, if_pos h, hf]
      rfl
  · rw [if_neg h]
    cases hf : m.find? (fun x => eq e.1 x.1) with
    | none => simp [List.find?_append, h]
    | some old =>
      simp only [Option.map_some]
      rw [setAt_find he, if_neg h]

theorem entryStep_distinct {eq : K → K → Bool} (he : EqLaws eq) {m : List (K × V)} (hm : Distinct eq m) (e : K × V) :
    Distinct eq (entryStep eq m e) := by
  unfold entryStep
  rw [look_find]
  cases hf : m.find? (fun x => eq e.1 x.1) with
  | some old =>
    simp only [Option.map_some]
    rw [distinct_keys, setAt_keys, ← distinct_keys]; exact hm
  | none =>
    simp only [Option.map_none]
    refine List.pairwise_append.2 ⟨hm, by simp, fun a ha b hb => ?_⟩
    have : b = e := by simpa using hb
    subst this
    have := List.find?_eq_none.1 hf a ha
    rcases hh : eq a.1 b.1 with _ | _
    · rfl
    · exact absurd (he.symm _ _ hh) this

/-- C90: merging maps whose keys have any lawful `Eq` (in whatever order the other map is visited): under each key stands
the combination of the two values, the key of the left map is the one that stays, and there is still one entry for each
class of equal keys. -/
theorem c90_map_combine {eq : K → K → Bool} (he : EqLaws eq) {xs ys order : List (K × V)} (hx : Distinct eq xs)
    (hy : Distinct eq ys) (hp : order.Perm ys) :
    Distinct eq (combineIn eq xs order) ∧
    ∀ k, (combineIn eq xs order).find? (fun e => eq k e.1) =
      match xs.find? (fun e => eq k e.1), ys.find? (fun e => eq k e.1) with
      | some a, some b => some (a.1, combine a.2 b.2)
      | some a, none => some a
      | none, r => r := by
  have ho : Distinct eq order := by
    refine (hp.pairwise_iff (R := fun a b : K × V => eq a.1 b.1 = false) (fun {a b} hab => ?_)).2 hy
    rcases hh : eq b.1 a.1 with _ | _
    · rfl
    · rw [he.symm _ _ hh] at hab; cases hab
  have key : ∀ (os m : List (K × V)), Distinct eq m → Distinct eq os →
      Distinct eq (os.foldl (entryStep eq) m) ∧
      ∀ k, (os.foldl (entryStep eq) m).find? (fun e => eq k e.1) =
        match m.find? (fun e => eq k e.1), os.find? (fun e => eq k e.1) with
        | some a, some b => some (a.1, combine a.2 b.2)
        | some a, none => some a
        | none, r => r := by
    intro os
    induction os with
    | nil =>
      intro m hm _
      refine ⟨hm, fun k => ?_⟩
      cases hf : m.find? (fun e => eq k e.1) <;> simp [hf]
    | cons o os ih =>
      intro m hm hd
      obtain ⟨hd1, hd2⟩ := List.pairwise_cons.1 hd
      obtain ⟨h1, h2⟩ := ih (entryStep eq m o) (entryStep_distinct he hm o) hd2
      refine ⟨h1, fun k => ?_⟩
      rw [List.foldl_cons, h2, entryStep_find he]
      by_cases h : eq k o.1 = true
      · have hn : os.find? (fun e => eq k e.1) = none := by
          rw [List.find?_eq_none]
          intro b hb hkb
          have := hd1 b hb
          rw [he.trans _ _ _ (he.symm _ _ h) hkb] at this
          cases this
        rw [if_pos h, hn, List.find?_cons_of_pos (p := fun e : K × V => eq k e.1) h]
        cases m.find? (fun e => eq k e.1) <;> rfl
      · rw [if_neg h, List.find?_cons_of_neg (p := fun e : K × V => eq k e.1) h]
  obtain ⟨h1, h2⟩ := key order xs hx ho
  refine ⟨h1, fun k => ?_⟩
  rw [combineIn, h2, find_perm he hp ho]

/-- Numbers added up. -/
local instance : RSemigroup Nat := ⟨fun a b => a + b, fun a b => a + b⟩

example : (combineIn sameId [((1, "left"), 10)] [((2, "new"), 5), ((1, "right"), 7)]).find? (fun e => sameId (1, "?") e.1) =
    some ((1, "left"), 17) :=
  (c90_map_combine sameId_laws (xs := [((1, "left"), 10)]) (ys := [((1, "right"), 7), ((2, "new"), 5)])
    (by simp [Distinct]) (by simp [Distinct, sameId]) (List.Perm.swap _ _ _)).2 (1, "?")

/-- C90: so merging is associative for keys with any lawful `Eq`: same values, same stored keys. -/
theorem c90_map_assoc {eq : K → K → Bool} (he : EqLaws eq) (ha : ∀ a b c : V, combine (combine a b) c = combine a (combine b c))
    {xs ys zs oy oz oz' oyz : List (K × V)} (hx : Distinct eq xs) (hy : Distinct eq ys) (hz : Distinct eq zs)
    (hoy : oy.Perm ys) (hoz : oz.Perm zs) (hoz' : oz'.Perm zs) (hoyz : oyz.Perm (combineIn eq ys oz')) (k : K) :
    (combineIn eq (combineIn eq xs oy) oz).find? (fun e => eq k e.1) =
      (combineIn eq xs oyz).find? (fun e => eq k e.1) := by
  obtain ⟨d1, f1⟩ := c90_map_combine he hx hy hoy
  obtain ⟨d2, f2⟩ := c90_map_combine he hy hz hoz'
  rw [(c90_map_combine he d1 hz hoz).2, (c90_map_combine he hx d2 hoyz).2, f1, f2]
  cases xs.find? (fun e => eq k e.1) <;> cases ys.find? (fun e => eq k e.1) <;>
    cases zs.find? (fun e => eq k e.1) <;> simp [ha]

example (k : Nat × String) :
    (combineIn sameId (combineIn sameId [((1, "x"), 10)] [((1, "y"), 7)]) [((1, "z"), 5)]).find? (fun e => sameId k e.1) =
    (combineIn sameId [((1, "x"), 10)] [((1, "y"), 12)]).find? (fun e => sameId k e.1) :=
  c90_map_assoc sameId_laws (fun a b c => Nat.add_assoc a b c) (ys := [((1, "y"), 7)]) (zs := [((1, "z"), 5)])
    (oz' := [((1, "z"), 5)]) (by simp [Distinct]) (by simp [Distinct]) (by simp [Distinct])
    (List.Perm.refl _) (List.Perm.refl _) (List.Perm.refl _) (List.Perm.refl _) k

/-- C90: `combine_owned` merges maps as `combine` does, when it does so for the values. -/
theorem c90_map_owned (eq : K → K → Bool) (h : ∀ a b : V, combineOwned a b = combine a b) (m order : List (K × V)) :
    combineOwnedIn eq m order = combineIn eq m order := by
  have : ownedStep eq = (entryStep eq : List (K × V) → K × V → List (K × V)) := by
    funext m e; simp only [ownedStep, entryStep, h]
  rw [combineOwnedIn, combineIn, this]

example : combineOwnedIn sameId [((1, "x"), 10)] [((1, "y"), 7)] = combineIn sameId [((1, "x"), 10)] [((1, "y"), 7)] :=
  c90_map_owned sameId (fun _ _ => rfl) _ _

end
end Entries

/-- C90: a union of sets keeps the left set's elements and adds those of the right set that equal none of them. -/
theorem c90_set_combine {eq : T → T → Bool} (he : EqLaws eq) {xs ys order : List T}
    (hx : xs.Pairwise (fun a b => eq a b = false)) (hy : ys.Pairwise (fun a b => eq a b = false)) (hp : order.Perm ys) :
    Elems.combineIn eq xs order = xs ++ order.filter (fun t => !xs.any (fun x => eq t x)) ∧
    (Elems.combineIn eq xs order).Pairwise (fun a b => eq a b = false) ∧
    (∀ t, (∃ u ∈ Elems.combineIn eq xs order, eq t u = true) ↔ (∃ u ∈ xs, eq t u = true) ∨ ∃ u ∈ ys, eq t u = true) ∧
    Elems.combineOwnedIn eq xs order = Elems.combineIn eq xs order := by
  have hsym : ∀ {a b : T}, eq a b = false → eq b a = false := by
    intro a b hab
    rcases hh : eq b a with _ | _
    · rfl
    · rw [he.symm _ _ hh] at hab; cases hab
  have ho : order.Pairwise (fun a b => eq a b = false) := (hp.pairwise_iff (fun {a b} hab => hsym hab)).2 hy
  have key : ∀ (os m : List T), os.Pairwise (fun a b => eq a b = false) →
      os.foldl (Elems.insert eq) m = m ++ os.filter (fun t => !m.any (fun x => eq t x)) := by
    intro os
    induction os with
    | nil => intro m _; simp
    | cons o os ih =>
      intro m hd
      obtain ⟨hd1, hd2⟩ := List.pairwise_cons.1 hd
      rw [List.foldl_cons, ih _ hd2, Elems.insert]
      by_cases h : m.any (fun x => eq o x) = true
      · rw [if_pos h, List.filter_cons_of_neg (by simp [h])]
      · rw [if_neg h, List.filter_cons_of_pos (by simpa using h), List.append_assoc]
        congr 1
        rw [List.singleton_append]
        congr 1
        apply List.filter_congr
        intro t ht
        rw [List.any_append, List.any_cons, hsym (hd1 t ht)]
        simp
  have h1 : Elems.combineIn eq xs order = xs ++ order.filter (fun t => !xs.any (fun x => eq t x)) := key order xs ho
  refine ⟨h1, ?_, fun t => ?_, rfl⟩
  · rw [h1, List.pairwise_append]
    refine ⟨hx, ho.filter _, fun a ha b hb => ?_⟩
    have hb2 := (List.mem_filter.1 hb).2
    rcases hh : eq a b with _ | _
    · rfl
    · rw [Bool.not_eq_true', List.any_eq_false] at hb2
      exact absurd (he.symm _ _ hh) (hb2 a ha)
  · rw [h1]
    constructor
    · rintro ⟨u, hu, htu⟩
      rcases List.mem_append.1 hu with hu | hu
      · exact .inl ⟨u, hu, htu⟩
      · exact .inr ⟨u, hp.subset (List.mem_filter.1 hu).1, htu⟩
    · rintro (⟨u, hu, htu⟩ | ⟨u, hu, htu⟩)
      · exact ⟨u, by simp [hu], htu⟩
      · by_cases h : xs.any (fun x => eq u x) = true
        · obtain ⟨x, hx, hux⟩ := List.any_eq_true.1 h
          exact ⟨x, by simp [hx], he.trans _ _ _ htu hux⟩
        · refine ⟨u, List.mem_append.2 (.inr (List.mem_filter.2 ⟨hp.symm.subset hu, by simpa using h⟩)), htu⟩

example : Elems.combineIn sameId [(1, "left")] [(2, "b"), (1, "right")] = [(1, "left"), (2, "b")] :=
  (c90_set_combine sameId_laws (xs := [(1, "left")]) (ys := [(2, "b"), (1, "right")]) (by simp) (by simp [sameId])
    (List.Perm.refl _)).1

/-! ## `contains` -/

/-- C90: `contains` asks whether some element is `==` to the value, for any `==`; so it never finds a NaN. -/
theorem c90_contains {F : Type → Type} [RFoldable F] (eq : A → A → Bool) {x : F A} {xs : List A} (hx : FoldsLeft x xs)
    (v : A) : fcontainsBy eq x v = true ↔ ∃ a ∈ xs, eq a v = true :=
  (c22_queries hx).2.2.2.2.2.1 _

example : ¬ fcontainsBy Fl.eq [Fl.num 1, .nan] .nan = true ∧ fcontainsBy Fl.eq [Fl.num 1, .negZero] (.num 0) = true := by
  rw [c90_contains Fl.eq (c22_vec [Fl.num 1, .nan]).1, c90_contains Fl.eq (c22_vec [Fl.num 1, .negZero]).1]
  decide

/-! ## `Min` and `Max` -/

/-- What `Ord` promises without asking that `Equal` be identity: a total preorder. -/
structure PreordLaws (T : Type) [ROrd T] : Prop where
  swap : ∀ a b : T, ROrd.cmp b a = (ROrd.cmp a b).swap
  trans : ∀ a b c : T, ROrd.cmp a b ≠ .gt → ROrd.cmp b c ≠ .gt → ROrd.cmp a c ≠ .gt

/-- Records ordered by their identity. -/
local instance recordOrd : ROrd (Nat × String) := ⟨fun a b => compare a.1 b.1⟩

theorem record_preord : PreordLaws (Nat × String) where
  swap a b := by
    show compare b.1 a.1 = (compare a.1 b.1).swap
    exact (Nat.compare_swap a.1 b.1).symm
  trans a b c h1 h2 := by
    have e : ∀ x y : Nat, compare x y ≠ .gt ↔ x ≤ y := fun x y => Nat.compare_ne_gt
    show compare a.1 c.1 ≠ .gt
    rw [e]
    exact Nat.le_trans ((e _ _).1 h1) ((e _ _).1 h2)

section
variable [ROrd T]

/-- `a < b`. -/
def ltOf (a b : T) : Bool := ROrd.cmp a b == .lt

theorem PreordLaws.strictWeak (h : PreordLaws T) : StrictWeak (ltOf (T := T)) where
  asymm a b hab := by
    simp only [ltOf, beq_iff_eq, beq_eq_false_iff_ne] at hab ⊢
    rw [h.swap a b, hab]; simp [Ordering.swap]
  negTrans a b c hab hbc := by
    simp only [ltOf, beq_eq_false_iff_ne] at hab hbc ⊢
    have hx : ∀ x y : T, ROrd.cmp x y ≠ .lt ↔ ROrd.cmp y x ≠ .gt := by
      intro x y; rw [h.swap x y]; cases ROrd.cmp x y <;> simp [Ordering.swap]
    rw [hx] at hab hbc ⊢
    exact h.trans _ _ _ hbc hab

theorem min_combine_by (h : PreordLaws T) (a b : Min T) :
    combine a b = (if ltOf b.val a.val then b else a) ∧ combineOwned a b = combine a b := by
  have : (ROrd.cmp a.val b.val = .gt) ↔ ltOf b.val a.val = true := by
    simp only [ltOf, beq_iff_eq, h.swap a.val b.val]
    cases ROrd.cmp a.val b.val <;> simp [Ordering.swap]
  simp only [combine, combineOwned]
  rcases hc : ROrd.cmp a.val b.val with _ | _ | _ <;> simp [hc] at this <;> simp [this]

theorem max_combine_by (a b : Max T) :
    combine a b = (if ltOf a.val b.val then b else a) ∧ combineOwned a b = combine a b := by
  rcases hc : ROrd.cmp a.val b.val with _ | _ | _ <;> simp [combine, combineOwned, ltOf, hc]

omit [ROrd T] in
theorem pick_assoc {lt : T → T → Bool} (h : StrictWeak lt) (a b c : T) :
    (if lt c (if lt b a then b else a) then c else (if lt b a then b else a)) =
      (if lt (if lt c b then c else b) a then (if lt c b then c else b) else a) := by
  rcases h1 : lt b a with _ | _ <;> rcases h2 : lt c b with _ | _ <;> simp [h1, h2]
  · simp [h.negTrans c b a h2 h1]
  · intro h3
    have := h.negTrans b c a (h.asymm _ _ h2) h3
    rw [h1] at this; cases this

/-- C90: `Min` and `Max` are associative for every total preorder, exactly and not just up to `Equal`. -/
theorem c90_extreme_assoc (h : PreordLaws T) :
    (∀ a b c : Min T, combine (combine a b) c = combine a (combine b c)) ∧
    (∀ a b c : Max T, combine (combine a b) c = combine a (combine b c)) := by
  constructor
  · rintro ⟨a⟩ ⟨b⟩ ⟨c⟩
    have e : ∀ x y : T, combine (⟨x⟩ : Min T) ⟨y⟩ = ⟨if ltOf y x then y else x⟩ := fun x y => by
      rw [(min_combine_by h _ _).1]; simp only; split <;> rfl
    rw [e, e, e, e, pick_assoc h.strictWeak]
  · rintro ⟨a⟩ ⟨b⟩ ⟨c⟩
    have e : ∀ x y : T, combine (⟨x⟩ : Max T) ⟨y⟩ = ⟨if ltOf x y then y else x⟩ := fun x y => by
      rw [(max_combine_by _ _).1]; simp only; split <;> rfl
    rw [e, e, e, e, pick_assoc h.strictWeak.flip]

example : combine (combine (Min.mk (2, "a")) ⟨(1, "b")⟩) ⟨(1, "c")⟩ = combine (Min.mk (2, "a")) (combine ⟨(1, "b")⟩ ⟨(1, "c")⟩) :=
  (c90_extreme_assoc record_preord).1 _ _ _

/-- C90: which of two values comes out.  `Equal` values give the left one; the two orders of combining agree exactly when
`Equal` is identity. -/
theorem c90_extreme_pick (h : PreordLaws T) (a b : T) :
    (ROrd.cmp a b = .eq → combine (Min.mk a) (Min.mk b) = Min.mk a ∧ combine (Max.mk a) (Max.mk b) = Max.mk a) ∧
    (ROrd.cmp a b = .lt → combine (Min.mk a) (Min.mk b) = Min.mk a ∧ combine (Max.mk a) (Max.mk b) = Max.mk b) ∧
    (ROrd.cmp a b = .gt → combine (Min.mk a) (Min.mk b) = Min.mk b ∧ combine (Max.mk a) (Max.mk b) = Max.mk a) ∧
    (combine (Min.mk a) (Min.mk b) = combine (Min.mk b) (Min.mk a) ↔ (ROrd.cmp a b = .eq → a = b)) ∧
    (combine (Max.mk a) (Max.mk b) = combine (Max.mk b) (Max.mk a) ↔ (ROrd.cmp a b = .eq → a = b)) ∧
    combineOwned (Min.mk a) (Min.mk b) = combine (Min.mk a) (Min.mk b) ∧
    combineOwned (Max.mk a) (Max.mk b) = combine (Max.mk a) (Max.mk b) := by
  simp only [combine, combineOwned]
  rw [h.swap a b]
  rcases hc : ROrd.cmp a b with _ | _ | _ <;> simp [Ordering.swap]

example : combine (Min.mk (1, "a")) ⟨(1, "b")⟩ ≠ combine (Min.mk (1, "b")) ⟨(1, "a")⟩ := fun h => by
  have := (c90_extreme_pick record_preord (1, "a") (1, "b")).2.2.2.1.1 h rfl
  revert this; decide

/-- C90: a monoid law for `Min` and `Max` with `empty = default`: as a right unit it needs a bound, as a left unit a bound
equal to no other value. -/
theorem c90_extreme_empty [Inhabited T] (h : PreordLaws T) :
    ((∀ a : Min T, combine a RMonoid.empty = a) ↔ ∀ t : T, t = default ∨ ROrd.cmp t default ≠ .gt) ∧
    ((∀ a : Min T, combine RMonoid.empty a = a) ↔ ∀ t : T, t = default ∨ ROrd.cmp t default = .lt) ∧
    ((∀ a : Max T, combine a RMonoid.empty = a) ↔ ∀ t : T, t = default ∨ ROrd.cmp t default ≠ .lt) ∧
    ((∀ a : Max T, combine RMonoid.empty a = a) ↔ ∀ t : T, t = default ∨ ROrd.cmp t default = .gt) := by
  have hd : RMonoid.empty = Min.mk (default : T) := rfl
  have hd' : RMonoid.empty = Max.mk (default : T) := rfl
  refine ⟨⟨fun hh t => ?_, fun hh a => ?_⟩, ⟨fun hh t => ?_, fun hh a => ?_⟩, ⟨fun hh t => ?_, fun hh a => ?_⟩,
    ⟨fun hh t => ?_, fun hh a => ?_⟩⟩
  · have := hh ⟨t⟩
    rw [hd] at this
    simp only [combine] at this
    rcases hc : ROrd.cmp t default with _ | _ | _ <;> simp [hc] at this ⊢
    exact this.symm
  · rw [hd]
    simp only [combine]
    rcases hh a.val with h1 | h1
    · rw [h1]; rcases ROrd.cmp (default : T) default with _ | _ | _ <;> simp [← h1]
    · rcases hc : ROrd.cmp a.val default with _ | _ | _ <;> simp [hc] at h1 ⊢
  · have := hh ⟨t⟩
    rw [hd] at this
    simp only [combine] at this
    rw [h.swap t default] at this
    rcases hc : ROrd.cmp t default with _ | _ | _ <;> simp [hc, Ordering.swap] at this ⊢ <;> exact this.symm
  · rw [hd]
    simp only [combine]
    rcases hh a.val with h1 | h1
    · rw [h1]; rcases ROrd.cmp (default : T) default with _ | _ | _ <;> simp [← h1]
    · rw [h.swap a.val default, h1]; rfl
  · have := hh ⟨t⟩
    rw [hd'] at this
    simp only [combine] at this
    rcases hc : ROrd.cmp t default with _ | _ | _ <;> simp [hc] at this ⊢
    exact this.symm
  · rw [hd']
    simp only [combine]
    rcases hh a.val with h1 | h1
    · rw [h1]; rcases ROrd.cmp (default : T) default with _ | _ | _ <;> simp [← h1]
    · rcases hc : ROrd.cmp a.val default with _ | _ | _ <;> simp [hc] at h1 ⊢
  · have := hh ⟨t⟩
    rw [hd'] at this
    simp only [combine] at this
    rw [h.swap t default] at this
    rcases hc : ROrd.cmp t default with _ | _ | _ <;> simp [hc, Ordering.swap] at this ⊢ <;> exact this.symm
  · rw [hd']
    simp only [combine]
    rcases hh a.val with h1 | h1
    · rw [h1]; rcases ROrd.cmp (default : T) default with _ | _ | _ <;> simp [← h1]
    · rw [h.swap a.val default, h1]; rfl

/-- The record `(0, "")` is a right unit of `Max`, but not a left one: there are other records with the same identity. -/
example : (∀ a : Max (Nat × String), combine a RMonoid.empty = a) ∧ ¬ ∀ a : Max (Nat × String), combine RMonoid.empty a = a := by
  have h := c90_extreme_empty record_preord
  refine ⟨h.2.2.1.2 fun t => .inr ?_, fun hh => ?_⟩
  · show compare t.1 0 ≠ .lt
    rw [Ne, Nat.compare_eq_lt]; omega
  · have := h.2.2.2.1 hh (0, "x")
    revert this; decide

/-- C90: combining a list of values gives the first of the least (greatest) ones, for every total preorder; it is what
`Foldable::minimum` (`maximum`) gives. -/
theorem c90_extreme_fold (h : PreordLaws T) (x : T) (xs : List T) :
    IsFirstMin ltOf (x :: xs) (xs.foldl (fun acc a => combine acc (Min.mk a)) (Min.mk x)).val ∧
    fminimum ltOf (x :: xs) = some (xs.foldl (fun acc a => combine acc (Min.mk a)) (Min.mk x)).val ∧
    IsFirstMax ltOf (x :: xs) (xs.foldl (fun acc a => combine acc (Max.mk a)) (Max.mk x)).val ∧
    fmaximum ltOf (x :: xs) = some (xs.foldl (fun acc a => combine acc (Max.mk a)) (Max.mk x)).val := by
  have hmin : ∀ (ys : List T) (c : T), ys.foldl (fun m a => match m with
      | none => some a
      | some c => some (if ltOf a c then a else c)) (some c) =
      some (ys.foldl (fun acc a => combine acc (Min.mk a)) (Min.mk c)).val := by
    intro ys
    induction ys with
    | nil => intro c; rfl
    | cons y ys ih =>
      intro c
      rw [List.foldl_cons, List.foldl_cons, (min_combine_by h _ _).1]
      simp only
      rw [ih]
      split <;> rfl
  have hmax : ∀ (ys : List T) (c : T), ys.foldl (fun m a => match m with
      | none => some a
      | some c => some (if ltOf c a then a else c)) (some c) =
      some (ys.foldl (fun acc a => combine acc (Max.mk a)) (Max.mk c)).val := by
    intro ys
    induction ys with
    | nil => intro c; rfl
    | cons y ys ih =>
      intro c
      rw [List.foldl_cons, List.foldl_cons, (max_combine_by _ _).1]
      simp only
      rw [ih]
      split <;> rfl
  have hx : FoldsLeft (x :: xs) (x :: xs) := (c22_vec (x :: xs)).1
  have e1 : fminimum ltOf (x :: xs) = some (xs.foldl (fun acc a => combine acc (Min.mk a)) (Min.mk x)).val := by
    rw [fminimum, hx, List.foldl_cons]; exact hmin xs x
  have e2 : fmaximum ltOf (x :: xs) = some (xs.foldl (fun acc a => combine acc (Max.mk a)) (Max.mk x)).val := by
    rw [fmaximum, hx, List.foldl_cons]; exact hmax xs x
  have ex := c22_extrema hx ltOf h.strictWeak
  exact ⟨ex.2.2.2 _ e1, e1, ex.2.2.1 _ e2, e2⟩

example : IsFirstMin ltOf [(2, "a"), (1, "b"), (1, "c")]
    ([(1, "b"), (1, "c")].foldl (fun acc a => combine acc (Min.mk a)) (Min.mk (2, "a"))).val :=
  (c90_extreme_fold record_preord (2, "a") [(1, "b"), (1, "c")]).1

end

/-! ## `flatten_sorted` -/

/-- C90: sorting is stable: of the values after the first, those that come in order already (in particular `Equal`
ones) stay in the order in which the code collects them — the other alternatives first, the rest of the first one last. -/
theorem c90_flatten_sorted_stable {I : Type} (le : I → I → Bool) (ht : ∀ a b, (le a b || le b a) = true)
    (htr : ∀ a b c, le a b = true → le b c = true → le a c = true) (first : I) (rest : List I) (vs : List (List I))
    (a b : I) (hab : le a b = true) (hs : [a, b].Sublist (vs.flatten ++ rest)) :
    ∃ r, Choice.flattenSorted ⟨(first :: rest) :: vs⟩ le = .ok r ∧ r.toVec.head? = some first ∧ [a, b].Sublist r.toVec.tail := by
  refine ⟨_, rfl, rfl, ?_⟩
  rw [← List.flatMap_id'] at hs
  exact List.pair_sublist_mergeSort htr ht hab hs

example : ∃ r, Choice.flattenSorted ⟨[(5, "first"), (1, "rest")] :: [[(1, "other")]]⟩
    (fun a b : Nat × String => decide (a.1 ≤ b.1)) = .ok r ∧ r.toVec.head? = some (5, "first") ∧
    [(1, "other"), (1, "rest")].Sublist r.toVec.tail :=
  c90_flatten_sorted_stable _ (by intro a b; simp; omega) (by intro a b c; simp; omega) (5, "first") [(1, "rest")]
    [[(1, "other")]] (1, "other") (1, "rest") rfl (by simp)

/-! ## The other files -/

/-- With identity as `==`, these definitions are those of `Optics/Optics`, `Data/Choice` and `Traits/Helpers`. -/
theorem c90_agree [DecidableEq A] [DecidableEq B] :
    (∀ (l : RLens S A) s a, l.setBy (fun a b => decide (a = b)) s a = l.set s a) ∧
    (∀ (l : RLens S A) s f, l.modifyBy (fun a b => decide (a = b)) s f = l.modify s f) ∧
    (∀ (p : RPrism S A) s f, p.modifyBy (fun a b => decide (a = b)) s f = p.modify s f) ∧
    (∀ (p : RPrism S A) s a, p.setIfDifferentBy (fun a b => decide (a = b)) s a = p.setIfDifferent s a) ∧
    (∀ (i : RIso A B) a b, i.verifyLawsBy (fun a b => decide (a = b)) (fun a b => decide (a = b)) a b = i.verifyLaws a b) ∧
    (∀ (c : Choice T) (key : T → A), c.dedupByKeyBy (fun a b => decide (a = b)) key = c.dedupByKey key) ∧
    (∀ (c : Choice A), c.dedupBy (fun a b => decide (a = b)) = c.dedup) ∧
    (∀ (x : List A) v, fcontainsBy (fun a b => decide (a = b)) x v = fcontains x v) := by
  have hd : ∀ {T : Type} (key : T → A) (xs : List T) (seen : List A),
      Choice.dedupLoopBy (fun a b => decide (a = b)) key xs seen = Choice.dedupLoop key xs seen := by
    intro T key xs
    induction xs with
    | nil => intro _; rfl
    | cons x xs ih =>
      intro seen
      have : (seen.any fun k => decide (key x = k)) = decide (key x ∈ seen) := by
        rw [Bool.eq_iff_iff]; simp
      simp only [Choice.dedupLoopBy, Choice.dedupLoop, this, ih, decide_eq_true_eq]
  refine ⟨fun l s a => ?_, fun l s f => ?_, fun p s f => ?_, fun p s a => ?_, fun i a b => rfl, fun c key => ?_, fun c => ?_,
    fun x v => rfl⟩
  · simp [RLens.setBy, RLens.set]
  · simp [RLens.modifyBy, RLens.modify, RLens.setBy, RLens.set]
  · simp only [RPrism.modifyBy, RPrism.modify]
    cases p.preview s <;> simp
  · simp only [RPrism.setIfDifferentBy, RPrism.setIfDifferent]
    cases p.preview s <;> simp
  · simp only [Choice.dedupByKeyBy, Choice.dedupByKey, hd]
  · simp only [Choice.dedupBy, Choice.dedup, hd]

end Rustica
