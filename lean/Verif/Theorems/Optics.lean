import Verif.Optics.Optics

/-!
# C47, C48, C49
-/

namespace Rustica

section
variable {S A B C F : Type}

/-! ## C47 -/

/-- The lens laws of a getter and a setter. -/
structure LensLaws (get : S → A) (set : S → A → S) : Prop where
  get_set : ∀ s a, get (set s a) = a
  set_get : ∀ s, set s (get s) = s
  set_set : ∀ s a b, set (set s a) b = set s b

/-- Two functions are inverse to each other. -/
structure Inverse (f : A → B) (g : B → A) : Prop where
  left : ∀ a, g (f a) = a
  right : ∀ b, f (g b) = b

/-- `set` (with its shortcut) agrees with `set_always` and with the given setter. -/
theorem c47_set_eq [DecidableEq A] (get : S → A) (set : S → A → S) (h : LensLaws get set) (s : S) (a : A) :
    (RLens.new get set).set s a = set s a ∧ (RLens.new get set).setAlways s a = set s a ∧
    (RLens.new get set).get s = get s := by
  refine ⟨?_, rfl, rfl⟩
  unfold RLens.set
  split
  · rename_i heq
    have : get s = a := heq
    rw [← this, h.set_get]
  · rfl

/-- `Lens::get`/`set` satisfy the lens laws. -/
theorem c47_laws [DecidableEq A] (get : S → A) (set : S → A → S) (h : LensLaws get set) :
    LensLaws (RLens.new get set).get (RLens.new get set).set ∧
    LensLaws (RLens.new get set).get (RLens.new get set).setAlways := by
  refine ⟨⟨fun s a => ?_, fun s => ?_, fun s a b => ?_⟩, ⟨h.get_set, h.set_get, h.set_set⟩⟩
  · rw [(c47_set_eq get set h s a).1]; exact h.get_set s a
  · rw [(c47_set_eq get set h s _).1]; exact h.set_get s
  · rw [(c47_set_eq get set h s a).1, (c47_set_eq get set h _ b).1, (c47_set_eq get set h s b).1]
    exact h.set_set s a b

/-- `modify` and `modify_always` agree, act through the focus, and satisfy the functor laws. -/
theorem c47_modify [DecidableEq A] (get : S → A) (set : S → A → S) (h : LensLaws get set) (s : S) (f g : A → A) :
    let l := RLens.new get set
    l.modify s f = l.modifyAlways s f ∧ l.modify s f = set s (f (get s)) ∧
    l.get (l.modify s f) = f (l.get s) ∧ l.modify s (fun a => a) = s ∧
    l.modify (l.modify s f) g = l.modify s (fun a => g (f a)) := by
  intro l
  have hm : ∀ s f, l.modify s f = set s (f (get s)) := fun s f => (c47_set_eq get set h s _).1
  refine ⟨hm s f, hm s f, ?_, ?_, ?_⟩
  · rw [hm]; exact h.get_set s _
  · rw [hm]; exact h.set_get s
  · rw [hm, hm, hm, h.get_set, h.set_set]

/-- The lens mapped through an isomorphism satisfies the laws. -/
theorem c47_fmap (get : S → A) (set : S → A → S) (h : LensLaws get set) (f : A → B) (g : B → A)
    (hi : Inverse f g) (s : S) (b : B) :
    LensLaws ((RLens.new get set).fmap f g).get ((RLens.new get set).fmap f g).setAlways ∧
    ((RLens.new get set).fmap f g).get s = f (get s) ∧
    ((RLens.new get set).fmap f g).setAlways s b = set s (g b) := by
  refine ⟨⟨fun s b => ?_, fun s => ?_, fun s a b => ?_⟩, rfl, rfl⟩
  · show f (get (set s (g b))) = b
    rw [h.get_set, hi.right]
  · show set s (g (f (get s))) = s
    rw [hi.left, h.set_get]
  · exact h.set_set s _ _

/-- The lens on the first component of a pair. -/
theorem fstLens_laws : LensLaws (S := Nat × Nat) (A := Nat) (fun p => p.1) (fun p a => (a, p.2)) :=
  ⟨fun _ _ => rfl, fun _ => rfl, fun _ _ _ => rfl⟩

example : (RLens.new (fun p : Nat × Nat => p.1) (fun p a => (a, p.2))).set (3, 4) 7 = (7, 4) :=
  (c47_set_eq _ _ fstLens_laws (3, 4) 7).1
example : LensLaws (RLens.new (fun p : Nat × Nat => p.1) (fun p a => (a, p.2))).get
    (RLens.new (fun p : Nat × Nat => p.1) (fun p a => (a, p.2))).set := (c47_laws _ _ fstLens_laws).1
example : (RLens.new (fun p : Nat × Nat => p.1) (fun p a => (a, p.2))).modify (3, 4) (· + 1) = (4, 4) :=
  (c47_modify _ _ fstLens_laws (3, 4) (· + 1) id).2.1
example : ((RLens.new (fun p : Nat × Nat => p.1) (fun p a => (a, p.2))).fmap (fun n => (n : Int) + 1)
      (fun i => (i - 1).toNat)).get (3, 4) = 4 := by decide
example : LensLaws ((RLens.new (fun p : Nat × Nat => p.1) (fun p a => (a, p.2))).fmap (fun n => [n]) fun l => l.sum).get
      ((RLens.new (fun p : Nat × Nat => p.1) (fun p a => (a, p.2))).fmap (fun n => [n]) fun l => l.sum).setAlways → False :=
  fun h => absurd (h.get_set (3, 4) [1, 2]) (by decide)
example : LensLaws ((RLens.new (fun p : (Nat × Bool) × Nat => p.1) (fun p a => (a, p.2))).fmap Prod.swap Prod.swap).get
      ((RLens.new (fun p : (Nat × Bool) × Nat => p.1) (fun p a => (a, p.2))).fmap Prod.swap Prod.swap).setAlways :=
  (c47_fmap (S := (Nat × Bool) × Nat) (fun p => p.1) (fun p a => (a, p.2)) ⟨fun _ _ => rfl, fun _ => rfl, fun _ _ _ => rfl⟩
    Prod.swap Prod.swap ⟨fun _ => rfl, fun _ => rfl⟩ ((3, true), 4) (true, 3)).1

/-- `set` satisfies "set what you get" for every getter and setter, lawful or not; and `modify(id)` is always the
identity. -/
theorem c47_set_get_always [DecidableEq A] (get : S → A) (set : S → A → S) (s : S) :
    (RLens.new get set).set s (get s) = s ∧ (RLens.new get set).modify s (fun a => a) = s := by
  constructor
  · unfold RLens.set
    exact if_pos rfl
  · unfold RLens.modify RLens.set
    exact if_pos rfl

/-- The first component of a pair. -/
example : LensLaws (S := Nat × Nat) (A := Nat) (fun p => p.1) (fun p a => (a, p.2)) :=
  ⟨fun _ _ => rfl, fun _ => rfl, fun _ _ _ => rfl⟩
example : (RLens.new (fun p : Nat × Nat => p.1) (fun p a => (a, p.2))).modify (3, 4) (· + 1) = (4, 4) := rfl

/-! ## C48 -/

/-- The prism laws. -/
structure PrismLaws (preview : S → Option A) (review : A → S) : Prop where
  preview_review : ∀ a, preview (review a) = some a
  review_preview : ∀ s a, preview s = some a → review a = s

/-- The laws are inherited. -/
theorem c48_laws (preview : S → Option A) (review : A → S) (h : PrismLaws preview review) :
    PrismLaws (RPrism.new preview review).preview (RPrism.new preview review).review ∧
    RPrism.forCase preview review = RPrism.new preview review := ⟨h, rfl⟩

/-- `modify`: a non-matching source is untouched, a matching one becomes the review of the changed focus, so the
case never changes. -/
theorem c48_modify [DecidableEq A] (preview : S → Option A) (review : A → S) (h : PrismLaws preview review)
    (s : S) (f : A → A) :
    let p := RPrism.new preview review
    (preview s = none → p.modify s f = s) ∧ (∀ a, preview s = some a → p.modify s f = review (f a)) ∧
    preview (p.modify s f) = (preview s).map f := by
  intro p
  have h1 : preview s = none → p.modify s f = s := by
    intro hn
    show (match preview s with | some c => _ | none => _) = s
    rw [hn]
  have h2 : ∀ a, preview s = some a → p.modify s f = review (f a) := by
    intro a ha
    show (match preview s with | some c => _ | none => _) = _
    rw [ha]
    show (if f a = a then s else review (f a)) = _
    split
    · rename_i heq; rw [heq, h.review_preview s a ha]
    · rfl
  refine ⟨h1, h2, ?_⟩
  cases hp : preview s with
  | none => rw [h1 hp, hp]; rfl
  | some a => rw [h2 a hp, h.preview_review]; rfl

/-- `modify` satisfies the functor laws. -/
theorem c48_modify_functor [DecidableEq A] (preview : S → Option A) (review : A → S)
    (h : PrismLaws preview review) (s : S) (f g : A → A) :
    let p := RPrism.new preview review
    p.modify s (fun a => a) = s ∧ p.modify (p.modify s f) g = p.modify s (fun a => g (f a)) := by
  intro p
  constructor
  · cases hp : preview s with
    | none => exact (c48_modify preview review h s _).1 hp
    | some a => exact ((c48_modify preview review h s _).2.1 a hp).trans (h.review_preview s a hp)
  · cases hp : preview s with
    | none =>
      rw [(c48_modify preview review h s f).1 hp, (c48_modify preview review h s g).1 hp,
        (c48_modify preview review h s _).1 hp]
    | some a =>
      rw [(c48_modify preview review h s f).2.1 a hp, (c48_modify preview review h s _).2.1 a hp]
      exact (c48_modify preview review h _ g).2.1 (f a) (h.preview_review _)

/-- The prism on the even numbers, halved. -/
theorem halfPrism_laws : PrismLaws (fun n : Nat => if n % 2 = 0 then some (n / 2) else none) (fun n => 2 * n) := by
  constructor
  · intro a
    have : 2 * a % 2 = 0 := by omega
    simp only [this, if_true]
    congr 1
    omega
  · intro s a h
    by_cases hs : s % 2 = 0
    · simp only [hs, if_true, Option.some.injEq] at h
      omega
    · simp [hs] at h

example : PrismLaws (RPrism.new (fun n : Nat => if n % 2 = 0 then some (n / 2) else none) (fun n => 2 * n)).preview
    (RPrism.new (fun n : Nat => if n % 2 = 0 then some (n / 2) else none) (fun n => 2 * n)).review := (c48_laws _ _ halfPrism_laws).1
example : (RPrism.new (fun n : Nat => if n % 2 = 0 then some (n / 2) else none) (fun n => 2 * n)).modify 8 (· + 1) = 10 :=
  (c48_modify _ _ halfPrism_laws 8 (· + 1)).2.1 4 rfl
example : (RPrism.new (fun n : Nat => if n % 2 = 0 then some (n / 2) else none) (fun n => 2 * n)).modify 7 (fun a => a) = 7 :=
  (c48_modify_functor _ _ halfPrism_laws 7 id id).1

/-- `set_if_different` is `review`, and so always previews as the new value. -/
theorem c48_set [DecidableEq A] (preview : S → Option A) (review : A → S) (h : PrismLaws preview review) (s : S)
    (a : A) :
    let p := RPrism.new preview review
    p.setIfDifferent s a = review a ∧ p.preview (p.setIfDifferent s a) = some a := by
  intro p
  have h1 : p.setIfDifferent s a = review a := by
    show (match preview s with | some c => _ | none => _) = _
    cases hp : preview s with
    | none => rfl
    | some c =>
      show (if a = c then s else review a) = _
      split
      · rename_i heq; rw [heq, h.review_preview s c hp]
      · rfl
  refine ⟨h1, ?_⟩
  rw [h1]
  exact h.preview_review a

/-- The prism into `Some`. -/
example : PrismLaws (S := Option Nat) (A := Nat) (fun s => s) some :=
  ⟨fun _ => rfl, fun _ _ h => h.symm⟩
example : (RPrism.new (fun s : Option Nat => s) some).modify (some 3) (· + 1) = some 4 := rfl

/-! ## C49 -/

/-- The value is an isomorphism. -/
def IsoLaws (i : RIso A B) : Prop := Inverse i.forward i.backward

/-- Inverse and composition of isomorphisms are isomorphisms; inverting twice gives the original, and the inverse of
a composition is the composition of the inverses in opposite order. -/
theorem c49_iso (i : RIso A B) (j : RIso B C) (hi : IsoLaws i) (hj : IsoLaws j) :
    IsoLaws i.inverse ∧ IsoLaws (i.isoCompose j) ∧ i.inverse.inverse = i ∧
    (i.isoCompose j).inverse = j.inverse.isoCompose i.inverse ∧
    (∀ a, (i.isoCompose i.inverse).forward a = a) ∧ (∀ b, (i.inverse.isoCompose i).forward b = b) := by
  refine ⟨⟨hi.right, hi.left⟩, ⟨fun a => ?_, fun c => ?_⟩, rfl, rfl, hi.left, hi.right⟩
  · show i.backward (j.backward (j.forward (i.forward a))) = a
    rw [hj.left, hi.left]
  · show j.forward (i.forward (i.backward (j.backward c))) = c
    rw [hi.right, hj.right]

/-- Composition is associative. -/
theorem c49_compose_assoc {D : Type} (i : RIso A B) (j : RIso B C) (k : RIso C D) :
    (i.isoCompose j).isoCompose k = i.isoCompose (j.isoCompose k) := rfl

/-- The helpers: conversions, `map_from_*`, `modify`, and `verify_laws`, which holds for all arguments exactly for
isomorphisms. -/
theorem c49_iso_ext [DecidableEq A] [DecidableEq B] (i : RIso A B) (a : A) (b : B) (f : B → C) (g : A → C)
    (h k : B → B) :
    i.convertForward a = i.forward a ∧ i.convertBackward b = i.backward b ∧
    i.mapFromTarget f a = f (i.forward a) ∧ i.mapFromSource g b = g (i.backward b) ∧
    ((∀ x y, i.verifyLaws x y = true) ↔ (∀ x : A, ∀ _ : B, i.backward (i.forward x) = x) ∧
      ∀ y : B, ∀ _ : A, i.forward (i.backward y) = y) ∧
    (IsoLaws i → i.modify a (fun b => b) = a ∧ i.forward (i.modify a h) = h (i.forward a) ∧
      i.modify (i.modify a h) k = i.modify a (fun b => k (h b))) := by
  refine ⟨rfl, rfl, rfl, rfl, ?_, fun hi => ⟨hi.left a, hi.right _, ?_⟩⟩
  · constructor
    · intro hv
      constructor
      · intro x y
        have := hv x y
        simp only [RIso.verifyLaws, Bool.and_eq_true, decide_eq_true_eq] at this
        exact this.1
      · intro y x
        have := hv x y
        simp only [RIso.verifyLaws, Bool.and_eq_true, decide_eq_true_eq] at this
        exact this.2
    · rintro ⟨h1, h2⟩ x y
      simp [RIso.verifyLaws, h1 x y, h2 y x]
  · show i.backward (k (i.forward (i.backward _))) = _
    rw [hi.right]
    rfl

/-- `ResultEitherIso` is an isomorphism. -/
theorem c49_result_either : IsoLaws (resultEitherIso A B) := by
  constructor
  · intro r; cases r <;> rfl
  · intro e; cases e <;> rfl

/-- `IsoLens`: `get` and `set` are mutually inverse, `modify` acts through them and fuses; composition with an
isomorphism stays lawful. -/
theorem c49_iso_lens (i : RIso S A) (hi : IsoLaws i) (s : S) (a : A) (f g : A → A) :
    let l := IsoLens.new i
    l.get (l.set a) = a ∧ l.set (l.get s) = s ∧ l.get (l.modify s f) = f (l.get s) ∧
    l.modify s (fun a => a) = s ∧ l.modify (l.modify s f) g = l.modify s (fun a => g (f a)) := by
  refine ⟨hi.right a, hi.left s, hi.right _, hi.left s, ?_⟩
  show i.backward (g (i.forward (i.backward _))) = _
  rw [hi.right]
  rfl

/-- `IsoLens::compose` is the composition of the two isomorphisms. -/
theorem c49_iso_lens_compose (i : RIso S A) (j : RIso A (B × S)) (hi : IsoLaws i) (hj : IsoLaws j) (s : S)
    (p : B × S) :
    let l := (IsoLens.new i).compose (IsoLens.new j)
    IsoLaws l.iso ∧ l.get s = j.forward (i.forward s) ∧ l.set p = i.backward (j.backward p) := by
  exact ⟨(c49_iso i j hi hj).2.1, rfl, rfl⟩

/-- `modify_focus` changes only the focus: the new value has the changed focus and the same context. -/
theorem c49_modify_focus (i : RIso S (F × S)) (hi : IsoLaws i) (s : S) (f g : F → F) :
    let l := IsoLens.new i
    i.forward (l.modifyFocus s f) = (f (i.forward s).1, (i.forward s).2) ∧
    l.modifyFocus s (fun a => a) = s ∧
    l.modifyFocus (l.modifyFocus s f) g = l.modifyFocus s (fun a => g (f a)) := by
  refine ⟨hi.right _, hi.left s, ?_⟩
  show i.backward (g (i.forward (i.backward _)).1, (i.forward (i.backward _)).2) = _
  rw [hi.right]
  rfl

/-- `set_focus` on an isomorphism does not change only the focus: the whole old source becomes the context.
Concretely, with the lawful isomorphism `b ↦ ((), !b)` of `bool`, setting the only possible focus value changes
`true` into `false`. -/
theorem c49_set_focus_false :
    let i : RIso Bool (Unit × Bool) := ⟨fun b => ((), !b), fun p => !p.2⟩
    IsoLaws i ∧ (IsoLens.new i).setFocus true () = false := by
  refine ⟨⟨fun b => ?_, fun p => ?_⟩, rfl⟩
  · cases b <;> rfl
  · rcases p with ⟨⟨⟩, b⟩; cases b <;> rfl

/-- What `set_focus` does on an isomorphism. -/
theorem c49_set_focus_exact (i : RIso S (F × S)) (hi : IsoLaws i) (s : S) (v : F) :
    i.forward ((IsoLens.new i).setFocus s v) = (v, s) ∧
    ((IsoLens.new i).setFocus s v = (IsoLens.new i).modifyFocus s (fun _ => v) ↔ (i.forward s).2 = s) := by
  refine ⟨hi.right _, ?_, ?_⟩
  · intro h
    have := congrArg i.forward h
    rw [show i.forward ((IsoLens.new i).setFocus s v) = (v, s) from hi.right _,
      show i.forward ((IsoLens.new i).modifyFocus s fun _ => v) = (v, (i.forward s).2) from hi.right _] at this
    exact ((Prod.mk.injEq ..).mp this).2.symm
  · intro h
    show i.backward (v, s) = i.backward (v, (i.forward s).2)
    rw [h]

/-- PARTIAL: for the intended encoding, where the context is the whole source (`forward s = (get s, s)`,
`backward (v, s) = set s v` with lawful `get`/`set`), `set_focus` and `modify_focus` are the lens operations.
Missing: arbitrary isomorphisms, where `set_focus` is not (`c49_set_focus_false`). -/
theorem c49_focus_partial (get : S → F) (set : S → F → S) (h : LensLaws get set) (s : S) (v : F) (f : F → F) :
    let l := IsoLens.new (⟨fun s => (get s, s), fun p => set p.2 p.1⟩ : RIso S (F × S))
    l.setFocus s v = set s v ∧ l.modifyFocus s f = set s (f (get s)) ∧
    get (l.setFocus s v) = v ∧ l.setFocus s (get s) = s ∧ l.setFocus s v = l.modifyFocus s (fun _ => v) :=
  ⟨rfl, rfl, h.get_set s v, h.set_get s, rfl⟩

/-- An `IsoPrism` on an isomorphism satisfies the prism laws. -/
theorem c49_iso_prism (i : RIso S (Option A)) (hi : IsoLaws i) :
    PrismLaws (IsoPrism.new i).preview (IsoPrism.new i).review := by
  constructor
  · intro a; exact hi.right _
  · intro s a h
    have : i.forward s = some a := h
    show i.backward (some a) = s
    rw [← this, hi.left]

/-- The composition of two `IsoPrism`s satisfies the prism laws, for isomorphisms and more generally whenever both
parts satisfy them. -/
theorem c49_iso_prism_compose (p : IsoPrism S A) (q : IsoPrism A B) (hp : PrismLaws p.preview p.review)
    (hq : PrismLaws q.preview q.review) :
    PrismLaws (p.compose q).preview (p.compose q).review ∧
    (∀ s, (p.compose q).preview s = (p.preview s).bind q.preview) ∧
    (∀ b, (p.compose q).review b = p.review (q.review b)) := by
  have h1 : ∀ s, (p.compose q).preview s = (p.preview s).bind q.preview := by
    intro s
    show (match p.iso.forward s with | some a => q.iso.forward a | none => none) =
      (p.iso.forward s).bind q.preview
    cases p.iso.forward s <;> rfl
  have h2 : ∀ b, (p.compose q).review b = p.review (q.review b) := fun b => rfl
  refine ⟨⟨fun b => ?_, fun s b h => ?_⟩, h1, h2⟩
  · rw [h1, h2, hp.preview_review]
    exact hq.preview_review b
  · rw [h1] at h
    rw [h2]
    cases hs : p.preview s with
    | none => rw [hs] at h; cases h
    | some a =>
      rw [hs] at h
      rw [hq.review_preview a b h]
      exact hp.review_preview s a hs

/-- The lifted iso inside the composition is not itself an isomorphism: a source that the outer prism matches and
the inner one does not is lost by `backward ∘ forward`. -/
theorem c49_lifted_iso_false :
    let i : RIso (Option Nat) (Option Nat) := ⟨fun x => x, fun x => x⟩
    IsoLaws i ∧ (IsoPrism.lifted i).backward ((IsoPrism.lifted i).forward (some none)) = none := by
  exact ⟨⟨fun _ => rfl, fun _ => rfl⟩, rfl⟩

example : IsoLaws (⟨fun p : Nat × Bool => (p.2, p.1), fun q => (q.2, q.1)⟩ : RIso _ _) := ⟨fun _ => rfl, fun _ => rfl⟩

/-- Swapping the components. -/
theorem swapIso_laws {X Y : Type} : IsoLaws (⟨fun p : X × Y => (p.2, p.1), fun q => (q.2, q.1)⟩ : RIso _ _) :=
  ⟨fun _ => rfl, fun _ => rfl⟩

example : IsoLaws (RIso.isoCompose (⟨fun p : Nat × Bool => (p.2, p.1), fun q => (q.2, q.1)⟩ : RIso _ _)
    ⟨fun p : Bool × Nat => (p.2, p.1), fun q => (q.2, q.1)⟩) := (c49_iso _ _ swapIso_laws swapIso_laws).2.1

example : (IsoLens.new (⟨fun p : Nat × Bool => (p.2, p.1), fun q => (q.2, q.1)⟩ : RIso _ _)).get
      ((IsoLens.new (⟨fun p : Nat × Bool => (p.2, p.1), fun q => (q.2, q.1)⟩ : RIso _ _)).modify (3, true) fun q => (!q.1, q.2 + 1)) =
      (false, 4) :=
  (c49_iso_lens _ swapIso_laws (3, true) (true, 0) (fun q => (!q.1, q.2 + 1)) id).2.2.1

/-- An isomorphism between infinite sequences and pairs of a first element and a sequence: the focus is the head, the
context the tail. -/
def headIso : RIso (Nat → Bool) (Bool × (Nat → Bool)) :=
  ⟨fun s => (s 0, fun n => s (n + 1)), fun p n => match n with | 0 => p.1 | n + 1 => p.2 n⟩

theorem headIso_laws : IsoLaws headIso :=
  ⟨fun s => by funext n; cases n <;> rfl, fun _ => rfl⟩

example : headIso.forward ((IsoLens.new headIso).modifyFocus (fun _ => true) not) = (false, fun _ => true) :=
  (c49_modify_focus headIso headIso_laws (fun _ => true) not not).1

example : headIso.forward ((IsoLens.new headIso).setFocus (fun n => n == 1) true) = (true, fun n => n == 1) ∧
    ¬ (IsoLens.new headIso).setFocus (fun n => n == 1) true = (IsoLens.new headIso).modifyFocus (fun n => n == 1) fun _ => true := by
  obtain ⟨h1, h2⟩ := c49_set_focus_exact headIso headIso_laws (fun n => n == 1) true
  exact ⟨h1, fun h => absurd (congrFun (h2.1 h) 0) (by decide)⟩

example : IsoLaws ((IsoLens.new (⟨fun s => s, fun s => s⟩ : RIso (Nat → Bool) (Nat → Bool))).compose (IsoLens.new headIso)).iso :=
  (c49_iso_lens_compose _ headIso ⟨fun _ => rfl, fun _ => rfl⟩ headIso_laws (fun _ => true) (false, fun _ => true)).1

example : (IsoLens.new (⟨fun s => (s.1, s), fun p => (p.1, p.2.2)⟩ : RIso (Nat × Nat) (Nat × (Nat × Nat)))).setFocus (3, 4) 7 = (7, 4) :=
  (c49_focus_partial _ _ fstLens_laws (3, 4) 7 id).1

/-- The numbers as optional numbers. -/
def predIso : RIso Nat (Option Nat) := ⟨fun n => match n with | 0 => none | n + 1 => some n, fun o => o.elim 0 (· + 1)⟩

theorem predIso_laws : IsoLaws predIso :=
  ⟨fun n => by cases n <;> rfl, fun o => by cases o <;> rfl⟩

example : PrismLaws (IsoPrism.new predIso).preview (IsoPrism.new predIso).review := c49_iso_prism _ predIso_laws

example : ((IsoPrism.new predIso).compose (IsoPrism.new predIso)).preview 5 = some 3 :=
  ((c49_iso_prism_compose _ _ (c49_iso_prism _ predIso_laws) (c49_iso_prism _ predIso_laws)).2.1 5).trans rfl

end

end Rustica
