import Verif.Data.Text
import Verif.Theorems.Access2
import Verif.PVec.Theorems.Intact

/-!
# C74: printed text tells values apart; C65: one-element views of `Id` and `Writer`
-/

namespace Rustica
open PVec (PV PVecError)

/-! ## Specification -/

/-- The printer `d` gives different values different texts. -/
def TellsApart {X : Type} (d : X → String) : Prop := ∀ a b, d a = d b → a = b

/-- The texts of `d` are words: not empty and without a blank (numbers, identifiers, quoted words …). -/
def PrintsWords {X : Type} (d : X → String) : Prop := ∀ a, d a ≠ "" ∧ ' ' ∉ (d a).toList

/-- No text of `d` is the beginning of the text of another value (quoted strings, for example). -/
def SelfDelimiting {X : Type} (d : X → String) : Prop := ∀ a b, (d a).toList <+: (d b).toList → a = b

/-- Decimal numbers are told apart. -/
theorem toString_nat_inj (m n : Nat) (h : toString m = toString n) : m = n := by
  have h' : Nat.toDigits 10 m = Nat.toDigits 10 n := by
    rw [← Nat.toList_repr, ← Nat.toList_repr]; exact congrArg String.toList h
  rw [← Nat.ofDigitChars_toDigits (b := 10) (n := m) (by omega) (by omega), h',
    Nat.ofDigitChars_toDigits (by omega) (by omega)]

theorem toString_nat_digit (n : Nat) {c : Char} (h : c ∈ (toString n).toList) : c.isDigit = true := by
  have : (toString n).toList = Nat.toDigits 10 n := Nat.toList_repr
  rw [this] at h
  exact Nat.isDigit_of_mem_toDigits (by omega) (by omega) h

/-- Cut at the first occurrence of a character `c` that is in neither word. -/
theorem cut {c : Char} : ∀ {s s' t t' : List Char}, c ∉ s → c ∉ s' →
    (t = [] ∨ ∃ r, t = c :: r) → (t' = [] ∨ ∃ r, t' = c :: r) → s ++ t = s' ++ t' → s = s' ∧ t = t'
  | [], [], _, _, _, _, _, _, h => ⟨rfl, h⟩
  | [], x :: s', t, t', _, h', ht, _, h => by
    rcases ht with rfl | ⟨r, rfl⟩
    · cases h
    · injection h with h1 _
      subst h1
      exact absurd (List.mem_cons_self) h'
  | x :: s, [], t, t', hs, _, _, ht', h => by
    rcases ht' with rfl | ⟨r, rfl⟩
    · cases h
    · injection h with h1 _
      subst h1
      exact absurd (List.mem_cons_self) hs
  | x :: s, y :: s', t, t', hs, hs', ht, ht', h => by
    injection h with h1 h2
    subst h1
    obtain ⟨h3, h4⟩ := cut (fun hm => hs (List.mem_cons_of_mem _ hm)) (fun hm => hs' (List.mem_cons_of_mem _ hm))
      ht ht' h2
    exact ⟨by rw [h3], h4⟩

/-- Two numbers, each followed by a text that starts with the same character, not a digit. -/
theorem cut_number {m n : Nat} {c : Char} {r r' : String} (hc : c.isDigit = false)
    (h : toString m ++ (String.singleton c ++ r) = toString n ++ (String.singleton c ++ r')) : m = n ∧ r = r' := by
  have hm : ∀ k : Nat, c ∉ (toString k).toList := fun k hk => by
    rw [toString_nat_digit k hk] at hc; cases hc
  have h' := congrArg String.toList h
  simp only [String.toList_append, String.toList_singleton] at h'
  obtain ⟨h1, h2⟩ := cut (hm m) (hm n) (.inr ⟨r.toList, rfl⟩) (.inr ⟨r'.toList, rfl⟩) h'
  exact ⟨toString_nat_inj _ _ (String.ext h1), String.ext (List.cons.inj h2).2⟩

/-! ## The wrappers and the errors -/

/-- C74: the printed text of a wrapper. -/
theorem c74_wrapper_text {T : Type} (d : T → String) (t : T) :
    Sum.text d ⟨t⟩ = "Sum(" ++ d t ++ ")" ∧ Product.text d ⟨t⟩ = "Product(" ++ d t ++ ")" ∧
    Min.text d ⟨t⟩ = "Min(" ++ d t ++ ")" ∧ Max.text d ⟨t⟩ = "Max(" ++ d t ++ ")" ∧
    First.text d ⟨some t⟩ = "First(Some(" ++ d t ++ "))" ∧ First.text d ⟨none⟩ = "First(None)" ∧
    Last.text d ⟨some t⟩ = "Last(Some(" ++ d t ++ "))" ∧ Last.text d ⟨none⟩ = "Last(None)" :=
  ⟨rfl, rfl, rfl, rfl, rfl, rfl, rfl, rfl⟩

/-- C74: a wrapper's text tells wrappers apart when the payload's text does. -/
theorem c74_wrappers {T : Type} (d : T → String) (h : TellsApart d) :
    TellsApart (Sum.text d) ∧ TellsApart (Product.text d) ∧ TellsApart (Min.text d) ∧ TellsApart (Max.text d) ∧
    TellsApart (First.text d) ∧ TellsApart (Last.text d) := by
  refine ⟨?_, ?_, ?_, ?_, ?_, ?_⟩
  · rintro ⟨a⟩ ⟨b⟩ e
    simp only [Sum.text, String.append_left_inj, String.append_right_inj] at e
    rw [h _ _ e]
  · rintro ⟨a⟩ ⟨b⟩ e
    simp only [Product.text, String.append_left_inj, String.append_right_inj] at e
    rw [h _ _ e]
  · rintro ⟨a⟩ ⟨b⟩ e
    simp only [Min.text, String.append_left_inj, String.append_right_inj] at e
    rw [h _ _ e]
  · rintro ⟨a⟩ ⟨b⟩ e
    simp only [Max.text, String.append_left_inj, String.append_right_inj] at e
    rw [h _ _ e]
  · rintro ⟨a⟩ ⟨b⟩ e
    cases a <;> cases b
    · rfl
    · have := congrArg String.toList e; simp [First.text] at this
    · have := congrArg String.toList e; simp [First.text] at this
    · simp only [First.text, String.append_left_inj, String.append_right_inj] at e
      rw [h _ _ e]
  · rintro ⟨a⟩ ⟨b⟩ e
    cases a <;> cases b
    · rfl
    · have := congrArg String.toList e; simp [Last.text] at this
    · have := congrArg String.toList e; simp [Last.text] at this
    · simp only [Last.text, String.append_left_inj, String.append_right_inj] at e
      rw [h _ _ e]

/-- Not vacuous: numbers are told apart. -/
example : TellsApart (Sum.text (toString : Nat → String)) ∧
    First.text (toString : Nat → String) ⟨some 42⟩ = "First(Some(42))" :=
  ⟨(c74_wrappers _ toString_nat_inj).1, rfl⟩

/-- C74: the texts of `IOError`, of an error context and of a vector error tell them apart. -/
theorem c74_errors : TellsApart IOError.text ∧ TellsApart ErrorContext.text ∧ TellsApart PVecError.text := by
  refine ⟨?_, ?_, ?_⟩
  · rintro (_ | a) (_ | b) e
    · rfl
    · have := congrArg String.toList e; simp [IOError.text] at this
    · have := congrArg String.toList e; simp [IOError.text] at this
    · simp only [IOError.text, String.append_right_inj] at e
      rw [e]
  · rintro ⟨a⟩ ⟨b⟩ e
    simp only [ErrorContext.text] at e
    rw [e]
  · have ne : ∀ a b : String, "Index " ++ a ≠ "Invalid range: start " ++ b := fun a b h => by
      have := congrArg String.toList h; simp at this
    rintro (⟨i, n⟩ | ⟨i, n⟩) (⟨j, m⟩ | ⟨j, m⟩) e
    · change "Index " ++ toString i ++ " out of bounds for vector of length " ++ toString n
        = "Index " ++ toString j ++ " out of bounds for vector of length " ++ toString m at e
      rw [show " out of bounds for vector of length " = String.singleton ' ' ++ "out of bounds for vector of length "
        from by decide] at e
      simp only [String.append_assoc, String.append_right_inj] at e
      obtain ⟨h1, h2⟩ := cut_number (by decide) e
      rw [h1, toString_nat_inj _ _ ((String.append_right_inj _).mp h2)]
    · change "Index " ++ toString i ++ _ ++ _ = "Invalid range: start " ++ toString j ++ _ ++ _ at e
      simp only [String.append_assoc] at e
      exact absurd e (ne _ _)
    · change "Invalid range: start " ++ toString i ++ _ ++ _ = "Index " ++ toString j ++ _ ++ _ at e
      simp only [String.append_assoc] at e
      exact absurd e.symm (ne _ _)
    · change "Invalid range: start " ++ toString i ++ " is greater than end " ++ toString n
        = "Invalid range: start " ++ toString j ++ " is greater than end " ++ toString m at e
      rw [show " is greater than end " = String.singleton ' ' ++ "is greater than end " from by decide] at e
      simp only [String.append_assoc, String.append_right_inj] at e
      obtain ⟨h1, h2⟩ := cut_number (by decide) e
      rw [h1, toString_nat_inj _ _ ((String.append_right_inj _).mp h2)]

/-- The text of an error that an operation of the crate returns. -/
example : (match (PVec.PV.fromIter [1, 2, 3]).tryGet 7 with | .ok _ => "" | .error e => e.text)
    = "Index 7 out of bounds for vector of length 3" := by
  decide

/-- C74: the texts of the errors, exactly. -/
theorem c74_error_text (msg : String) (c : ErrorContext) (i n : Nat) :
    IOError.ValueNotSet.text = "Value not set" ∧ (IOError.Other msg).text = "IO Error: " ++ msg ∧
    MaybeError.ValueNotPresent.text = "Attempted to access a value in a Nothing" ∧
    (MaybeError.Custom msg).text = msg ∧ c.text = c.message ∧
    (PVecError.indexOutOfBounds i n).text
      = "Index " ++ toString i ++ " out of bounds for vector of length " ++ toString n ∧
    (PVecError.invalidRange i n).text
      = "Invalid range: start " ++ toString i ++ " is greater than end " ++ toString n :=
  ⟨rfl, rfl, rfl, rfl, rfl, rfl, rfl⟩

/-- C74 fails for `MaybeError`: a custom message may be the text of the other variant. -/
theorem c74_maybe_error_false : ¬ TellsApart MaybeError.text := fun h =>
  MaybeError.noConfusion (h .ValueNotPresent (.Custom "Attempted to access a value in a Nothing") rfl)

/-- C74, what holds for `MaybeError`: that message is the only ambiguity. -/
theorem c74_maybe_error_partial (a b : MaybeError) (h : a.text = b.text)
    (hm : a.text ≠ "Attempted to access a value in a Nothing") : a = b := by
  cases a <;> cases b <;> simp_all [MaybeError.text]

example (e : MaybeError) (h : e.text = (MaybeError.Custom "boom").text) : e = .Custom "boom" :=
  c74_maybe_error_partial e (.Custom "boom") h (h ▸ by decide +kernel)

/-! ## Lists of words -/

/-- `joinText ", "` on characters. -/
def joinChars : List (List Char) → List Char
  | [] => []
  | [x] => x
  | x :: y :: rest => x ++ [','] ++ ' ' :: joinChars (y :: rest)

theorem joinText_toList : ∀ xs : List String, (joinText ", " xs).toList = joinChars (xs.map String.toList)
  | [] => rfl
  | [x] => rfl
  | x :: y :: rest => by
    have := joinText_toList (y :: rest)
    simp only [joinText, String.toList_append, this, List.map_cons, joinChars]
    simp

theorem joinChars_inj : ∀ {xs ys : List (List Char)}, (∀ x ∈ xs, x ≠ [] ∧ ' ' ∉ x) → (∀ y ∈ ys, y ≠ [] ∧ ' ' ∉ y) →
    joinChars xs = joinChars ys → xs = ys
  | [], [], _, _, _ => rfl
  | [], [y], _, hy, h => absurd h.symm (hy y (by simp)).1
  | [], y :: y' :: r, _, _, h => by simp [joinChars] at h
  | [x], [], hx, _, h => absurd h (hx x (by simp)).1
  | x :: x' :: r, [], _, _, h => by simp [joinChars] at h
  | [x], [y], _, _, h => by rw [show x = y from h]
  | [x], y :: y' :: r, hx, hy, h => by
    have h1 : x ++ [] = (y ++ [',']) ++ ' ' :: joinChars (y' :: r) := by rw [List.append_nil]; exact h
    have := (cut (hx x (by simp)).2 (by have := (hy y (by simp)).2; simp [this]) (.inl rfl) (.inr ⟨_, rfl⟩) h1).2
    cases this
  | x :: x' :: r, [y], hx, hy, h => by
    have h1 : (x ++ [',']) ++ ' ' :: joinChars (x' :: r) = y ++ [] := by rw [List.append_nil]; exact h
    have := (cut (by have := (hx x (by simp)).2; simp [this]) (hy y (by simp)).2 (.inr ⟨_, rfl⟩) (.inl rfl) h1).2
    cases this
  | x :: x' :: r, y :: y' :: r', hx, hy, h => by
    have h1 : (x ++ [',']) ++ ' ' :: joinChars (x' :: r) = (y ++ [',']) ++ ' ' :: joinChars (y' :: r') := h
    obtain ⟨h2, h3⟩ := cut (by have := (hx x (by simp)).2; simp [this]) (by have := (hy y (by simp)).2; simp [this])
      (.inr ⟨_, rfl⟩) (.inr ⟨_, rfl⟩) h1
    have h4 := joinChars_inj (xs := x' :: r) (ys := y' :: r') (fun z hz => hx z (List.mem_cons_of_mem _ hz))
      (fun z hz => hy z (List.mem_cons_of_mem _ hz)) (List.cons.inj h3).2
    rw [List.append_cancel_right h2, h4]

theorem map_tellsApart {X : Type} {d : X → String} (h : TellsApart d) :
    ∀ {xs ys : List X}, xs.map (String.toList ∘ d) = ys.map (String.toList ∘ d) → xs = ys
  | [], [], _ => rfl
  | [], _ :: _, e => by cases e
  | _ :: _, [], e => by cases e
  | x :: xs, y :: ys, e => by
    obtain ⟨h1, h2⟩ := List.cons.inj e
    rw [h _ _ (String.ext h1), map_tellsApart h h2]

theorem joinText_inj {X : Type} {d : X → String} (h : TellsApart d) (hw : PrintsWords d) {xs ys : List X}
    (e : joinText ", " (xs.map d) = joinText ", " (ys.map d)) : xs = ys := by
  have e' := congrArg String.toList e
  rw [joinText_toList, joinText_toList, List.map_map, List.map_map] at e'
  have ok : ∀ zs : List X, ∀ z ∈ zs.map (String.toList ∘ d), z ≠ [] ∧ ' ' ∉ z := by
    intro zs z hz
    obtain ⟨a, _, rfl⟩ := List.mem_map.mp hz
    exact ⟨fun e => (hw a).1 (String.ext e), (hw a).2⟩
  exact map_tellsApart h (joinChars_inj (ok xs) (ok ys) e')

/-! ## `Choice` -/

/-- C74: the text of a choice: the first value, then a bar and the alternatives separated by commas. -/
theorem c74_choice_text {T : Type} (d : T → String) (x y : T) (ys : List T) :
    (Choice.newEmpty : Choice T).text d = "" ∧ (Choice.new x []).text d = d x ∧
    (Choice.new x (y :: ys)).text d = d x ++ (" | " ++ joinText ", " ((y :: ys).map d)) := by
  refine ⟨rfl, rfl, ?_⟩
  simp [Choice.text, Choice.new, Choice.first, Choice.alternatives]

/-- C74 fails for `Choice`: values whose text contains the separators are confused, and so is the empty choice with a
choice of the empty text. -/
theorem c74_choice_false :
    (Choice.new "a | b" []).text id = (Choice.new "a" ["b"]).text id ∧
    (Choice.new "a" ["b, c"]).text id = (Choice.new "a" ["b", "c"]).text id ∧
    (Choice.newEmpty : Choice String).text id = (Choice.new "" []).text id ∧
    ¬ TellsApart (Choice.text (id : String → String)) := by
  refine ⟨by decide, by decide, by decide, fun h => ?_⟩
  exact absurd (h (Choice.new "a | b" []) (Choice.new "a" ["b"]) (by decide)) (by decide)

/-- C74, what holds for `Choice`: when the values print as different words, the text tells choices apart. -/
theorem c74_choice_partial {T : Type} (d : T → String) (h : TellsApart d) (hw : PrintsWords d) :
    TellsApart (Choice.text d) := by
  have ex : ∀ (z : T) (zs : List T), ((Choice.mk (z :: zs)).text d).toList
      = (d z).toList ++ (if zs.isEmpty then [] else ' ' :: ("| " ++ joinText ", " (zs.map d)).toList) := by
    intro z zs
    cases zs with
    | nil => simp [Choice.text, Choice.first, Choice.alternatives]
    | cons w ws => simp [Choice.text, Choice.first, Choice.alternatives]
  have key : ∀ (x y : T) (xs ys : List T), (Choice.mk (x :: xs)).text d = (Choice.mk (y :: ys)).text d →
      x = y ∧ xs = ys := by
    intro x y xs ys e
    have e' := congrArg String.toList e
    rw [ex, ex] at e'
    have sh : ∀ zs : List T, (if zs.isEmpty then ([] : List Char) else
        ' ' :: ("| " ++ joinText ", " (zs.map d)).toList) = [] ∨
        ∃ r, (if zs.isEmpty then ([] : List Char) else ' ' :: ("| " ++ joinText ", " (zs.map d)).toList) = ' ' :: r := by
      intro zs
      cases zs <;> simp
    obtain ⟨h1, h2⟩ := cut (hw x).2 (hw y).2 (sh xs) (sh ys) e'
    refine ⟨h _ _ (String.ext h1), ?_⟩
    cases xs with
    | nil =>
      cases ys with
      | nil => rfl
      | cons w ws => simp at h2
    | cons z zs =>
      cases ys with
      | nil => simp at h2
      | cons w ws =>
        simp only [List.isEmpty_cons, Bool.false_eq_true, if_false, List.cons.injEq, true_and] at h2
        have h3 := String.ext h2
        rw [String.append_right_inj] at h3
        exact joinText_inj h hw h3
  have nonempty : ∀ (z : T) (zs : List T), (Choice.mk (z :: zs)).text d ≠ "" := by
    intro z zs e
    have e' := congrArg String.toList e
    rw [ex] at e'
    exact (hw z).1 (String.ext (List.append_eq_nil_iff.mp e').1)
  rintro ⟨xs⟩ ⟨ys⟩ e
  cases xs with
  | nil =>
    cases ys with
    | nil => rfl
    | cons y ys => exact absurd e.symm (nonempty y ys)
  | cons x xs =>
    cases ys with
    | nil => exact absurd e (nonempty x xs)
    | cons y ys =>
      obtain ⟨h1, h2⟩ := key x y xs ys e
      rw [h1, h2]

theorem nat_prints_words : PrintsWords (toString : Nat → String) := by
  intro n
  refine ⟨fun e => ?_, fun hm => ?_⟩
  · have : (toString n).toList = [] := by rw [e]; rfl
    have h2 : (toString n).toList = Nat.toDigits 10 n := Nat.toList_repr
    rw [h2] at this
    exact Nat.toDigits_ne_nil this
  · have := toString_nat_digit n hm
    revert this; decide

/-- Not vacuous: choices of numbers are told apart by their text. -/
example : TellsApart (Choice.text (toString : Nat → String)) ∧
    (Choice.new 1 [2, 3]).text (toString : Nat → String) = "1 | 2, 3" :=
  ⟨c74_choice_partial _ toString_nat_inj nat_prints_words, by decide⟩

/-! ## `AppError`, `ComposableError` -/

/-- C74 fails for `AppError`: a message whose `Debug` text is free may imitate the context. -/
theorem c74_app_error_false : ¬ TellsApart (AppError.display (id : String → String) (fun _ : Unit => "()")) := fun h =>
  absurd (h (AppError.withContext "disk full" ()) (AppError.new "disk full (Context: ())") (by decide)) (by decide)

/-- C74, what holds for `AppError`: it is enough that messages print in a self-delimiting way, like quoted strings. -/
theorem c74_app_error_partial {M C : Type} (dm : M → String) (dc : C → String) (hm : SelfDelimiting dm)
    (hc : TellsApart dc) : TellsApart (AppError.display dm dc) := by
  rintro ⟨m, c⟩ ⟨n, d⟩ e
  have e' := congrArg String.toList e
  have hmn : m = n := by
    cases c <;> cases d <;>
      simp only [AppError.display, String.toList_append, List.append_assoc] at e'
    · exact hm _ _ (by rw [e']; exact List.prefix_rfl)
    · exact (hm _ _ (by rw [e']; exact List.prefix_append _ _)).symm
    · exact hm _ _ (by rw [← e']; exact List.prefix_append _ _)
    · rcases Nat.le_total (dm m).toList.length (dm n).toList.length with hl | hl
      · exact hm _ _ (List.prefix_of_prefix_length_le (List.prefix_append _ _) (by rw [e']; exact List.prefix_append _ _) hl)
      · exact (hm _ _ (List.prefix_of_prefix_length_le (List.prefix_append _ _)
          (by rw [← e']; exact List.prefix_append _ _) hl)).symm
  subst hmn
  cases c with
  | none =>
    cases d with
    | none => rfl
    | some d => simp [AppError.display] at e'
  | some c =>
    cases d with
    | none => simp [AppError.display] at e'
    | some d =>
      simp only [AppError.display, String.append_left_inj, String.append_right_inj] at e
      rw [hc _ _ e]

/-- Not vacuous: messages `true` and `false`. -/
example : SelfDelimiting (fun b : Bool => toString b) := by
  intro a b; cases a <;> cases b <;> decide

/-- C74 fails for `ComposableError`: a context may contain the arrow, and the core error may imitate a context or the
code. -/
theorem c74_composable_error_false :
    (((ComposableError.new "e").withContexts ["a -> b"]).display id
      = ((ComposableError.new "e").withContexts ["b", "a"]).display id) ∧
    ((ComposableError.withCode "e" 7).display id = (ComposableError.new "e (code: 7)").display id) ∧
    ¬ TellsApart (ComposableError.display (id : String → String)) := by
  refine ⟨by decide, by decide, fun h => ?_⟩
  exact absurd (h (ComposableError.withCode "e" 7) (ComposableError.new "e (code: 7)") (by decide)) (by decide)

/-! ## The vector -/

/-- C74: the text of a vector, in both representations. -/
theorem c74_vector_text {T : Type} (dbg : T → String) (v : PV T) :
    (∀ es, v.inner = .inline es → v.text dbg
      = "PersistentVector(Inline, len=" ++ toString v.len ++ ", elements=[" ++ joinText ", " (es.map dbg) ++ "])") ∧
    (∀ t, v.inner = .tree t → v.text dbg
      = "PersistentVector(Tree, len=" ++ toString v.len ++ ", generation=" ++ toString v.generation ++ ")") := by
  constructor
  · intro es h
    rw [PV.text, h]
    simp only [debugSlice]
    apply String.ext
    simp
  · intro t h
    rw [PV.text, h]

theorem inline_tree_ne {T : Type} (dbg : T → String) (v w : PV T) (es : List T) (t : PVec.Tree T)
    (hv : v.inner = .inline es) (hw : w.inner = .tree t) : v.text dbg ≠ w.text dbg := by
  intro e
  have := congrArg String.toList e
  rw [(c74_vector_text dbg v).1 es hv, (c74_vector_text dbg w).2 t hw] at this
  simp at this

/-- C74 fails for `PersistentVector`: past 64 elements the text shows no element, so different vectors print alike. -/
theorem c74_vector_false :
    (PV.fromIter (List.replicate 65 0)).text (toString : Nat → String)
      = (PV.fromIter (List.replicate 65 1)).text toString ∧
    (PV.fromIter (List.replicate 65 0)).toVec ≠ (PV.fromIter (List.replicate 65 1)).toVec ∧
    ¬ TellsApart (PV.text (toString : Nat → String)) := by
  have h1 : (PV.fromIter (List.replicate 65 0)).text (toString : Nat → String)
      = (PV.fromIter (List.replicate 65 1)).text toString := by
    simp [PV.text, PV.fromIter, PVec.ADAPTIVE_INLINE_SIZE]
  have h2 : (PV.fromIter (List.replicate 65 0)).toVec ≠ (PV.fromIter (List.replicate 65 1)).toVec := by
    rw [PVec.PV.c01_round_trip, PVec.PV.c01_round_trip]
    decide
  exact ⟨h1, h2, fun h => h2 (by rw [h _ _ h1])⟩

/-- C74 fails the other way round too: equal vectors print differently, because the text shows the version counter.
Writing back the element that is already there gives a vector with the same contents. -/
theorem c74_vector_equal_false :
    ((PV.fromIter (List.replicate 65 0)).update 0 0).toVec = (PV.fromIter (List.replicate 65 0)).toVec ∧
    ((PV.fromIter (List.replicate 65 0)).update 0 0).text (toString : Nat → String)
      ≠ (PV.fromIter (List.replicate 65 0)).text toString := by
  refine ⟨?_, fun h => ?_⟩
  · rw [(PVec.PV.c02_update_contents_partial (PVec.PV.intact_fromIter _) 0 0).toVec, PVec.PV.c01_round_trip]
    decide
  · have h1 : ((PV.fromIter (List.replicate 65 0)).update 0 0).text (toString : Nat → String)
        = "PersistentVector(Tree, len=65, generation=1)" := rfl
    have h2 : (PV.fromIter (List.replicate 65 0)).text (toString : Nat → String)
        = "PersistentVector(Tree, len=65, generation=0)" := rfl
    rw [h1, h2] at h
    exact absurd h (by decide)

/-- C74, what holds for `PersistentVector`: the text tells the two representations apart and gives the length; between
inline vectors whose elements print as different words it tells the contents apart. -/
theorem c74_vector_partial {T : Type} (dbg : T → String) (v w : PV T) (e : v.text dbg = w.text dbg) :
    v.len = w.len ∧
    ((∃ es, v.inner = .inline es) ↔ ∃ es, w.inner = .inline es) ∧
    (∀ es es', v.inner = .inline es → w.inner = .inline es' → TellsApart dbg → PrintsWords dbg → es = es') ∧
    (∀ t t', v.inner = .tree t → w.inner = .tree t' → v.generation = w.generation) := by
  cases hv : v.inner with
  | inline es =>
    cases hw : w.inner with
    | inline es' =>
      have h1 := (c74_vector_text dbg v).1 es hv
      have h2 := (c74_vector_text dbg w).1 es' hw
      rw [h1, h2] at e
      simp only [String.append_assoc, String.append_right_inj] at e
      rw [show ", elements=[" = String.singleton ',' ++ " elements=[" from by decide, String.append_assoc,
        String.append_assoc] at e
      obtain ⟨h3, h4⟩ := cut_number (by decide) e
      have h5 := (String.append_right_inj _).mp h4
      refine ⟨h3, by simp, ?_, by simp⟩
      rintro _ _ ⟨⟩ ⟨⟩ ha hp
      exact joinText_inj ha hp ((String.append_left_inj _).mp h5)
    | tree t' => exact absurd e (inline_tree_ne dbg v w es t' hv hw)
  | tree t =>
    cases hw : w.inner with
    | inline es' => exact absurd e.symm (inline_tree_ne dbg w v es' t hw hv)
    | tree t' =>
      have h1 := (c74_vector_text dbg v).2 t hv
      have h2 := (c74_vector_text dbg w).2 t' hw
      rw [h1, h2] at e
      simp only [String.append_assoc, String.append_right_inj] at e
      rw [show ", generation=" = String.singleton ',' ++ " generation=" from by decide, String.append_assoc,
        String.append_assoc] at e
      obtain ⟨h3, h4⟩ := cut_number (by decide) e
      have h5 := (String.append_right_inj _).mp h4
      refine ⟨h3, by simp, by simp, ?_⟩
      intro _ _ _ _
      exact toString_nat_inj _ _ ((String.append_left_inj _).mp h5)

/-- Not vacuous: an inline vector of numbers and its text. -/
example : (PV.fromIter [1, 2, 3]).text (toString : Nat → String)
    = "PersistentVector(Inline, len=3, elements=[1, 2, 3])" := by
  decide

/-! ## C65: the one-element views of `Id` and `Writer` -/

/-- C65: iterating over an `Id` or a `Writer` yields the value once; writing through the mutable iterator or
`value_mut` changes the value and nothing else (the log stays). -/
theorem c65_single {T W A : Type} (x : RId T) (w : Writer W A) (f : T → T) (g : A → A) (k : Nat) :
    pull OneShot.next x.intoIter k = [x.value][k]? ∧ pull OneShot.next w.intoIter k = [w.value][k]? ∧
    pull OneShot.next (x.iterMutMap f).intoIter k = (pull OneShot.next x.intoIter k).map f ∧
    x.valueMut f = ⟨f x.value⟩ ∧
    pull OneShot.next (w.iterMutMap g).intoIter k = (pull OneShot.next w.intoIter k).map g ∧
    (w.iterMutMap g).takeLog = w.takeLog := by
  refine ⟨pull_oneShot _ k, pull_oneShot _ k, ?_, rfl, ?_, rfl⟩
  · simp only [RId.iterMutMap, RId.intoIter, RId.intoInner, RId.valueMut, pull_oneShot]
    cases k <;> rfl
  · simp only [Writer.iterMutMap, Writer.intoIter, pull_oneShot]
    cases k <;> rfl

/-- C63: what goes into an `Id` or a `Writer` comes out again, whatever the accessor; `unwrap_or` never uses its
default. -/
theorem c63_single {T W A : Type} [Inhabited T] (t d : T) (l : W) (a : A) :
    (RId.new t).intoInner = t ∧ (RId.new t).unwrapOr d = t ∧ (RId.new t).extract = t ∧
    (RId.default' : RId T).intoInner = default ∧
    (Writer.mk l a).unwrap = a ∧ (Writer.mk l a).takeLog = l ∧ (Writer.mk l a).run = (l, a) :=
  ⟨rfl, rfl, rfl, rfl, rfl, rfl, rfl⟩

end Rustica
