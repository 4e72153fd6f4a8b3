import Verif.Theorems.ParserMany

/-!
# C79: the SQL reader of `examples/advanced_parser.rs`
-/

namespace Rustica.Parse

variable {I O B C S : Type}

/-! ## The language, independently of the parsers -/

/-- `s` is the keyword `kw` in any mixture of upper and lower case. -/
def Cased (kw s : List Char) : Prop := s.map Char.toLower = kw.map Char.toLower

def Blank (cc : CharClass) (s : List Char) : Prop := ∀ c ∈ s, cc.isWhitespace c = true

/-- White space that is really there. -/
def Gap (cc : CharClass) (s : List Char) : Prop := Blank cc s ∧ s ≠ []

/-- Letters, digits and underscores, at least one. -/
def IsWord (cc : CharClass) (s : List Char) : Prop := (∀ c ∈ s, cc.isAlphanumeric c = true ∨ c = '_') ∧ s ≠ []

theorem isWord_iff (cc : CharClass) (c : Char) :
    cc.isWord c = true ↔ cc.isAlphanumeric c = true ∨ c = '_' := by
  simp [CharClass.isWord]

theorem IsWord.all {cc : CharClass} {s : List Char} (h : IsWord cc s) : ∀ c ∈ s, cc.isWord c = true :=
  fun c hc => (isWord_iff cc c).2 (h.1 c hc)

theorem isWord_of {cc : CharClass} {s : List Char} (h : ∀ c ∈ s, cc.isWord c = true) (hne : s ≠ []) :
    IsWord cc s := ⟨fun c hc => (isWord_iff cc c).1 (h c hc), hne⟩

/-- The columns after the first one. -/
inductive Cols (cc : CharClass) : List (List Char) → List Char → Prop
  | nil : Cols cc [] []
  | cons {b c t : List Char} {cs : List (List Char)} : Blank cc b → IsWord cc c → Cols cc cs t →
      Cols cc (c :: cs) (',' :: (b ++ (c ++ t)))

def operators : List (List Char) := [['!', '='], ['='], ['<'], ['>']]

inductive IsCond (cc : CharClass) : Condition → List Char → Prop
  | mk {f o v b b' : List Char} : IsWord cc f → Blank cc b → o ∈ operators → Blank cc b' → IsWord cc v →
      IsCond cc ⟨f, o, v⟩ (f ++ (b ++ (o ++ (b' ++ v))))

/-- The conditions after the first one; `gap` says what may stand before `AND`. -/
inductive More (cc : CharClass) (gap : List Char → Prop) : List Condition → List Char → Prop
  | nil : More cc gap [] []
  | cons {g s b u t : List Char} {c : Condition} {cs : List Condition} : gap g → Cased "AND".toList s →
      Blank cc b → IsCond cc c u → More cc gap cs t → More cc gap (c :: cs) (g ++ (s ++ (b ++ (u ++ t))))

inductive Conds (cc : CharClass) (gap : List Char → Prop) : List Condition → List Char → Prop
  | nil : Conds cc gap [] []
  | cons {u t : List Char} {c : Condition} {cs : List Condition} : IsCond cc c u → More cc gap cs t →
      Conds cc gap (c :: cs) (u ++ t)

inductive Where (cc : CharClass) (gap : List Char → Prop) : List Condition → List Char → Prop
  | mk {g s b t : List Char} {cs : List Condition} : gap g → Cased "WHERE".toList s → Blank cc b →
      Conds cc gap cs t → Where cc gap cs (g ++ (s ++ (b ++ t)))

inductive OptWhere (cc : CharClass) (gap : List Char → Prop) : Option (List Condition) → List Char → Prop
  | none : OptWhere cc gap none []
  | some {cs : List Condition} {t : List Char} : Where cc gap cs t → OptWhere cc gap (some cs) t

/-- The texts of a query; `gap` says what may stand between a name and the keyword after it. -/
inductive Sql (cc : CharClass) (gap : List Char → Prop) : SqlQuery → List Char → Prop
  | select {s b c t g s' b' tb w : List Char} {cs : List (List Char)} {wh : Option (List Condition)} :
      Cased "SELECT".toList s → Blank cc b → IsWord cc c → Cols cc cs t → gap g → Cased "FROM".toList s' →
      Blank cc b' → IsWord cc tb → OptWhere cc gap wh w →
      Sql cc gap (.Select (c :: cs) tb wh) (s ++ (b ++ (c ++ (t ++ (g ++ (s' ++ (b' ++ (tb ++ w))))))))
  | insert {s b s' b' tb g s'' b'' v : List Char} :
      Cased "INSERT".toList s → Blank cc b → Cased "INTO".toList s' → Blank cc b' → IsWord cc tb → gap g →
      Cased "VALUES".toList s'' → Blank cc b'' → IsWord cc v →
      Sql cc gap (.Insert tb [v]) (s ++ (b ++ (s' ++ (b' ++ (tb ++ (g ++ (s'' ++ (b'' ++ v))))))))
  | update {s b tb g s' b' v w : List Char} {wh : Option (List Condition)} :
      Cased "UPDATE".toList s → Blank cc b → IsWord cc tb → gap g → Cased "SET".toList s' → Blank cc b' →
      IsWord cc v → OptWhere cc gap wh w →
      Sql cc gap (.Update tb v wh) (s ++ (b ++ (tb ++ (g ++ (s' ++ (b' ++ (v ++ w)))))))

/-- What is assumed of `char::is_whitespace` and `char::is_alphanumeric`. -/
structure CharClass.Ok (cc : CharClass) : Prop where
  apart : ∀ c, cc.isWhitespace c = true → cc.isWord c = false
  letters : ∀ c : Char, c.isAlpha = true → cc.isAlphanumeric c = true
  signs : ∀ c ∈ [',', '=', '!', '<', '>'], cc.isWord c = false ∧ cc.isWhitespace c = false

theorem CharClass.Ok.word {cc : CharClass} (h : cc.Ok) {c : Char} (hc : c.isAlpha = true) :
    cc.isWord c = true := by simp [CharClass.isWord, h.letters c hc]

theorem CharClass.Ok.solid {cc : CharClass} (h : cc.Ok) {c : Char} (hc : cc.isWord c = true) :
    cc.isWhitespace c = false := by
  cases hw : cc.isWhitespace c with
  | false => rfl
  | true => rw [h.apart c hw] at hc; cases hc

theorem ascii_ok : ascii.Ok where
  apart c h := by
    simp only [ascii, Bool.or_eq_true, beq_iff_eq, Bool.and_eq_true, decide_eq_true_eq] at h
    have hc : c.toNat = 32 ∨ (9 ≤ c.toNat ∧ c.toNat ≤ 13) := h.imp (fun e => by rw [e]; rfl) id
    simp only [ascii, CharClass.isWord, Char.isAlphanum, Char.isAlpha, Char.isUpper, Char.isLower,
      Char.isDigit, Bool.or_eq_false_iff, Bool.and_eq_false_iff, decide_eq_false_iff_not,
      beq_eq_false_iff_ne, ge_iff_le, UInt32.le_iff_toNat_le]
    change c.val.toNat = 32 ∨ _ at hc
    change _ ∨ 9 ≤ c.val.toNat ∧ c.val.toNat ≤ 13 at hc
    have e1 : 'A'.val.toNat = 65 := rfl
    have e2 : 'Z'.val.toNat = 90 := rfl
    have e3 : 'a'.val.toNat = 97 := rfl
    have e4 : 'z'.val.toNat = 122 := rfl
    have e5 : '0'.val.toNat = 48 := rfl
    have e6 : '9'.val.toNat = 57 := rfl
    rw [e1, e2, e3, e4, e5, e6]
    refine ⟨⟨⟨?_, ?_⟩, ?_⟩, ?_⟩
    · omega
    · omega
    · omega
    · rintro rfl
      have : ('_' : Char).val.toNat = 95 := rfl
      omega
  letters c h := by simp [ascii, Char.isAlphanum, h]
  signs := by decide

/-! ## First parses -/

/-- `p` returns on `i`, and its first parse is `a`, leaving `r`. -/
def Leads (p : Parser I O) (i : List I) (a : O) (r : List I) : Prop := ∃ t, Ends p i ((a, r) :: t)

theorem Total.or {p q : Parser I O} (hp : Total p) (hq : Total q) : Total (p.or q) := fun i => by
  obtain ⟨xs, hx⟩ := hp i
  obtain ⟨ys, hy⟩ := hq i
  exact ⟨_, c77_or hx hy⟩

theorem Total.map {p : Parser I O} (hp : Total p) (f : O → B) : Total (p.map f) := fun i => by
  obtain ⟨xs, hx⟩ := hp i
  exact ⟨_, c77_map f hx⟩

theorem Total.optional {p : Parser I O} (hp : Total p) : Total p.optional := fun i => by
  obtain ⟨xs, hx⟩ := hp i
  exact ⟨_, c77_optional hx⟩

theorem Total.andThen {p : Parser I O} {f : O → Parser I B} (hp : Total p) (hf : ∀ a, Total (f a)) :
    Total (p.andThen f) := fun i => by
  obtain ⟨xs, hx⟩ := hp i
  exact ⟨_, c77_and_then hx fun q _ => Classical.choose_spec (hf q.1 q.2)⟩

theorem Ends.leads {p : Parser I O} {i r : List I} {a : O} {t : List (O × List I)}
    (h : Ends p i ((a, r) :: t)) : Leads p i a r := ⟨t, h⟩

theorem Leads.map {p : Parser I O} {i r : List I} {a : O} (h : Leads p i a r) (f : O → B) :
    Leads (p.map f) i (f a) r := by
  obtain ⟨t, h⟩ := h
  exact (c77_map f h).leads

theorem Leads.or {p q : Parser I O} {i r : List I} {a : O} (h : Leads p i a r) (hq : Total q) :
    Leads (p.or q) i a r := by
  obtain ⟨t, h⟩ := h
  obtain ⟨ys, hy⟩ := hq i
  exact ⟨_, c77_or h hy⟩

theorem Leads.or_right {p q : Parser I O} {i r : List I} {a : O} (hp : Ends p i []) (h : Leads q i a r) :
    Leads (p.or q) i a r := by
  obtain ⟨t, h⟩ := h
  exact ⟨_, c77_or hp h⟩

theorem Leads.optional {p : Parser I O} {i r : List I} {a : O} (h : Leads p i a r) :
    Leads p.optional i (some a) r := by
  obtain ⟨t, h⟩ := h
  exact (c77_optional h).leads

theorem Leads.andThen {p : Parser I O} {f : O → Parser I B} {i r s : List I} {a : O} {b : B}
    (h : Leads p i a r) (h' : Leads (f a) r b s) (hf : ∀ x, Total (f x)) : Leads (p.andThen f) i b s := by
  obtain ⟨t, h⟩ := h
  obtain ⟨t', h'⟩ := h'
  have := c77_and_then (f := f) (ys := fun q => Classical.choose (hf q.1 q.2)) h
    fun q _ => Classical.choose_spec (hf q.1 q.2)
  have e := (Classical.choose_spec (hf a r)).unique h'
  rw [List.flatMap_cons, e] at this
  exact ⟨_, this⟩

theorem fails_then {p : Parser I O} (f : O → Parser I B) {i : List I} (h : Ends p i []) :
    Ends (p.andThen f) i [] :=
  c77_and_then (ys := fun _ => []) h fun q hq => by cases hq

theorem then_fails {p : Parser I O} {f : O → Parser I B} {i : List I} {q : O × List I} (h : Ends p i [q])
    (h' : Ends (f q.1) q.2 []) : Ends (p.andThen f) i [] :=
  c77_and_then (ys := fun _ => []) h fun x hx => by
    rcases List.mem_singleton.1 hx with rfl
    exact h'

theorem one_then {p : Parser I O} {f : O → Parser I B} {i r : List I} {a : O} {xs : List (B × List I)}
    (h : Ends p i [(a, r)]) (h' : Ends (f a) r xs) : Ends (p.andThen f) i xs := by
  have := c77_and_then (f := f) (ys := fun _ => xs) h fun x hx => by
    rcases List.mem_singleton.1 hx with rfl
    exact h'
  simpa using this

/-- One parse, then a parser that does not look at the result. -/
theorem seq_then {p : Parser I O} {q : Parser I B} {i r : List I} {a : O} {xs : List (B × List I)}
    (h : Ends p i [(a, r)]) (h' : Ends q r xs) : Ends (p.andThen fun _ => q) i xs := one_then h h'

/-! ## Pieces of the reader -/

def NotWord (cc : CharClass) (r : List Char) : Prop := ∀ c, r.head? = some c → cc.isWord c = false
def NotBlank (cc : CharClass) (r : List Char) : Prop := ∀ c, r.head? = some c → cc.isWhitespace c = false

/-- `r` goes on neither with white space nor with a word. -/
def Stop (cc : CharClass) (r : List Char) : Prop := NotWord cc r ∧ NotBlank cc r

theorem take_run {pred : Char → Bool} {s r : List Char} (hs : ∀ c ∈ s, pred c = true)
    (hr : ∀ c, r.head? = some c → pred c = false) :
    (s ++ r).takeWhile pred = s ∧ (s ++ r).dropWhile pred = r := by
  induction s with
  | nil =>
    cases r with
    | nil => exact ⟨rfl, rfl⟩
    | cons c r => simp [hr c rfl]
  | cons a s ih =>
    have := ih fun c hc => hs c (by simp [hc])
    simp [hs a (by simp), this]

theorem ends_whitespace {cc : CharClass} {b r : List Char} (hb : Blank cc b) (hr : NotBlank cc r) :
    Ends (whitespace cc) (b ++ r) [(b, r)] := by
  have := c78_run cc.isWhitespace (b ++ r)
  rwa [(take_run hb hr).1, (take_run hb hr).2] at this

theorem greedy_run (pred : Char → Bool) (i : List Char) :
    Greedy (satisfy pred) i (i.takeWhile pred) (i.dropWhile pred) := by
  obtain ⟨as, r, e, hg⟩ := ((c78_many_iff (total_new _) _ _).1).1 (c78_run pred i)
  cases e
  exact hg

theorem ends_satisfy (pred : Char → Bool) (i : List Char) :
    Ends (satisfy pred) i (match i with | [] => [] | y :: r => if pred y then [(y, r)] else []) := by
  have := (c77_basic 'a' pred [] i).2.1
  cases i <;> exact this

theorem ends_word {cc : CharClass} {w r : List Char} (hw : IsWord cc w) (hr : NotWord cc r) :
    Ends (word cc) (w ++ r) [(w, r)] := by
  obtain ⟨hw, hne⟩ : (∀ c ∈ w, cc.isWord c = true) ∧ w ≠ [] := ⟨hw.all, hw.2⟩
  cases w with
  | nil => exact absurd rfl hne
  | cons a w =>
    have h1 := ends_satisfy cc.isWord ((a :: w) ++ r)
    simp only [List.cons_append, hw a (by simp), if_true] at h1
    have h2 := then_many (r := satisfy cc.isWord)
      (g := fun q => (q.2.takeWhile cc.isWord, q.2.dropWhile cc.isWord))
      (fun first rest => [first] ++ rest) h1 fun q _ => greedy_run cc.isWord q.2
    have h3 := c77_map (fun chars : List Char => chars) h2
    have ht := take_run (s := w) (fun c hc => hw c (by simp [hc])) hr
    simp only [List.map_cons, List.map_nil, ht] at h3
    exact h3

theorem word_fails {cc : CharClass} {r : List Char} (hr : NotWord cc r) : Ends (word cc) r [] := by
  have h1 : Ends (satisfy cc.isWord) r [] := by
    have := ends_satisfy cc.isWord r
    cases r with
    | nil => exact this
    | cons c r => simpa [hr c rfl] using this
  exact c77_map (fun chars : List Char => chars) (fails_then _ h1)

theorem zip_cased {kw s : List Char} (h : Cased kw s) (r : List Char) :
    (kw.zip (s ++ r)).all (fun p => eqIgnoreAsciiCase p.1 p.2) = true := by
  induction kw generalizing s with
  | nil => rfl
  | cons k kw ih =>
    cases s with
    | nil => simp [Cased] at h
    | cons c s =>
      simp only [Cased, List.map_cons, List.cons.injEq] at h
      simp only [List.cons_append, List.zip_cons_cons, List.all_cons, Bool.and_eq_true]
      exact ⟨by simp [eqIgnoreAsciiCase, h.1], ih h.2⟩

theorem Cased.length {kw s : List Char} (h : Cased kw s) : s.length = kw.length := by
  have := congrArg List.length h
  simpa using this

theorem ends_keyword {kw s : List Char} (hk : byteLen kw = kw.length) (h : Cased kw s) (r : List Char) :
    Ends (keyword kw) (s ++ r) [(kw, r)] := by
  have := ends_new (fun input : List Char =>
    if input.length < byteLen kw then Choice.newEmpty
    else if (kw.zip input).all fun p => eqIgnoreAsciiCase p.1 p.2 then
      Choice.new (kw, input.drop (byteLen kw)) []
    else Choice.newEmpty) (s ++ r)
  refine (congrArg (Ends (keyword kw) (s ++ r)) ?_).mp this
  have hl := h.length
  rw [if_neg (by rw [hk, List.length_append]; omega), if_pos (zip_cased h r), hk, ← hl]
  simp [Choice.new]

theorem keyword_fails {kw r : List Char} {k : Char} (hk : kw.head? = some k)
    (h : ∀ c, r.head? = some c → c.toLower ≠ k.toLower) : Ends (keyword kw) r [] := by
  have := ends_new (fun input : List Char =>
    if input.length < byteLen kw then Choice.newEmpty
    else if (kw.zip input).all fun p => eqIgnoreAsciiCase p.1 p.2 then
      Choice.new (kw, input.drop (byteLen kw)) []
    else Choice.newEmpty) r
  refine (congrArg (Ends (keyword kw) r) ?_).mp this
  cases kw with
  | nil => cases hk
  | cons k' kw =>
    cases hk
    cases r with
    | nil =>
      rw [if_pos]; · rfl
      have := k.utf8Size_pos
      simp only [byteLen, List.map_cons, List.sum_cons, List.length_nil]; omega
    | cons c r =>
      split
      · rfl
      · rw [if_neg]
        · rfl
        · have := h c rfl
          simp only [List.zip_cons_cons, List.all_cons, eqIgnoreAsciiCase, Bool.and_eq_true, beq_iff_eq]
          rintro ⟨e, _⟩
          exact this e.symm

theorem alpha_of_lower {c k : Char} (hk : k.toLower.isAlpha = true) (h : c.toLower = k.toLower) :
    c.isAlpha = true := by
  by_cases hu : c.isUpper
  · simp [Char.isAlpha, hu]
  · have : c.toLower = c := by
      unfold Char.toLower
      unfold Char.isUpper at hu
      rw [dif_neg]
      simpa using hu
    rw [← this, h]; exact hk

theorem Cased.solid {cc : CharClass} (ok : cc.Ok) {kw s : List Char} {k : Char} (hk : kw.head? = some k)
    (ha : k.toLower.isAlpha = true) (h : Cased kw s) (r : List Char) : NotBlank cc (s ++ r) := by
  intro c hc
  cases kw with
  | nil => cases hk
  | cons k' kw =>
    cases hk
    cases s with
    | nil => simp [Cased] at h
    | cons d s =>
      cases hc
      simp only [Cased, List.map_cons, List.cons.injEq] at h
      exact ok.solid (ok.word (alpha_of_lower ha h.1))

theorem IsWord.solid {cc : CharClass} (ok : cc.Ok) {w : List Char} (h : IsWord cc w) (r : List Char) :
    NotBlank cc (w ++ r) := by
  intro c hc
  cases w with
  | nil => exact absurd rfl h.2
  | cons d w => cases hc; exact ok.solid (h.all c (by simp))

theorem Gap.notWord {cc : CharClass} (ok : cc.Ok) {g : List Char} (h : Gap cc g) (r : List Char) :
    NotWord cc (g ++ r) := by
  intro c hc
  cases g with
  | nil => exact absurd rfl h.2
  | cons d g => cases hc; exact ok.apart c (h.1 c (by simp))

theorem notWord_nil {cc : CharClass} : NotWord cc [] := fun c hc => by cases hc
theorem notBlank_nil {cc : CharClass} : NotBlank cc [] := fun c hc => by cases hc

/-! ## The reader always returns -/

theorem Within.shrinks_then {p : Parser I O} {f : O → Parser I B} (hp : Within p) (hf : ∀ a, Shrinks (f a)) :
    Shrinks (p.andThen f) := by
  intro m i c hc r hr
  obtain ⟨a, ha, q, hq, d, hd, hr⟩ := andThen_mem hc r hr
  have h1 := hf q.1 m q.2 d hd r hr
  have h2 := hp m i a ha q hq
  have := h2.length_le
  exact ⟨h1.1.trans h2, by omega⟩

theorem Shrinks.then {p : Parser I O} {f : O → Parser I B} (hp : Shrinks p) (hf : ∀ a, Within (f a)) :
    Shrinks (p.andThen f) := by
  intro m i c hc r hr
  obtain ⟨a, ha, q, hq, d, hd, hr⟩ := andThen_mem hc r hr
  have h1 := hf q.1 m q.2 d hd r hr
  have h2 := hp m i a ha q hq
  have := h1.length_le
  exact ⟨h1.trans h2.1, by omega⟩

theorem shrinks_satisfy (pred : I → Bool) : Shrinks (satisfy pred) := by
  intro m i c hc q hq
  cases hc
  cases i with
  | nil => cases hq
  | cons y r =>
    by_cases h : pred y
    · simp only [h, if_true, Choice.new, List.cons_append, List.nil_append, List.mem_singleton] at hq
      rw [hq]; exact ⟨List.suffix_cons _ _, by simp⟩
    · simp [h, Choice.newEmpty] at hq

theorem shrinks_item [DecidableEq I] (x : I) : Shrinks (item x) := by
  intro m i c hc q hq
  cases hc
  cases i with
  | nil => cases hq
  | cons y r =>
    by_cases h : y = x
    · simp only [h, if_true, Choice.new, List.cons_append, List.nil_append, List.mem_singleton] at hq
      rw [hq]; exact ⟨List.suffix_cons _ _, by simp⟩
    · simp [h, Choice.newEmpty] at hq

theorem within_keyword (kw : List Char) : Within (keyword kw) := by
  refine within_new fun i q hq => ?_
  split at hq
  · cases hq
  · split at hq
    · simp only [Choice.new, List.cons_append, List.nil_append, List.mem_singleton] at hq
      rw [hq]; exact List.drop_suffix _ _
    · cases hq

theorem total_keyword (kw : List Char) : Total (keyword kw) := total_new _
theorem total_whitespace (cc : CharClass) : Total (whitespace cc) := fun i => ⟨_, c78_run _ i⟩
theorem within_whitespace (cc : CharClass) : Within (whitespace cc) := (shrinks_satisfy _).within.many

theorem total_word (cc : CharClass) : Total (word cc) :=
  (Total.andThen (total_new _) fun _ =>
    (c78_total_partial (total_new _) (shrinks_satisfy cc.isWord)).map _).map _

theorem shrinks_word (cc : CharClass) : Shrinks (word cc) := by
  have h : Shrinks (satisfy cc.isWord).many1 :=
    (shrinks_satisfy _).then fun _ => ((shrinks_satisfy _).within.many).map _
  have e : word cc = (satisfy cc.isWord).many1 := by
    funext n i
    rw [word, map_eq]
    cases (satisfy cc.isWord).many1 n i with
    | none => rfl
    | some c => simp
  rw [e]; exact h

theorem total_operator : Total operatorParser :=
  ((((total_new _).map _).or ((total_new _).map _)).or ((total_new _).map _)).or ((total_new _).map _)

theorem within_operator : Within operatorParser := by
  have hw := c77_within (I := Char) (O := Char) (B := Char) (S := Char)
  exact (((Within.or ((hw.2.2.1 _).map _) ((hw.1 _).map _)).or ((hw.1 _).map _)).or ((hw.1 _).map _))

theorem total_condition (cc : CharClass) : Total (conditionParser cc) :=
  (total_word cc).andThen fun _ => ((total_whitespace cc).andThen fun _ => total_operator).andThen fun _ =>
    ((total_whitespace cc).andThen fun _ => total_word cc).map _

theorem shrinks_condition (cc : CharClass) : Shrinks (conditionParser cc) :=
  (shrinks_word cc).then fun _ => ((within_whitespace cc).andThen fun _ => within_operator).andThen fun _ =>
    ((within_whitespace cc).andThen fun _ => (shrinks_word cc).within).map _

/-- The separator of `where_parser` (491-493). -/
def andSep (cc : CharClass) : Parser Char (List Char) :=
  ((whitespace cc).andThen fun _ => keyword "AND".toList).andThen fun _ => whitespace cc

theorem total_sep (cc : CharClass) : Total (andSep cc) :=
  ((total_whitespace cc).andThen fun _ => total_keyword _).andThen fun _ => total_whitespace cc

theorem within_sep (cc : CharClass) : Within (andSep cc) :=
  ((within_whitespace cc).andThen fun _ => within_keyword _).andThen fun _ => within_whitespace cc

theorem total_where (cc : CharClass) : Total (whereParser cc) :=
  (((total_whitespace cc).andThen fun _ => total_keyword _).andThen fun _ => total_whitespace cc).andThen
    fun _ => Total.map (Total.or ((total_condition cc).andThen fun _ =>
      (c78_total_partial ((total_sep cc).andThen fun _ => total_condition cc)
        ((within_sep cc).shrinks_then fun _ => shrinks_condition cc)).map _) (total_new _)) _

/-- One more column. -/
def nextCol (cc : CharClass) : Parser Char (List Char) :=
  ((item ',').andThen fun _ => whitespace cc).andThen fun _ => word cc

theorem total_cols (cc : CharClass) : Total (nextCol cc).many :=
  c78_total_partial (((total_new _).andThen fun _ => total_whitespace cc).andThen fun _ => total_word cc)
    (((shrinks_item ',').then fun _ => within_whitespace cc).then fun _ => (shrinks_word cc).within)

theorem total_select (cc : CharClass) : Total (selectParser cc) :=
  ((total_keyword _).andThen fun _ => total_whitespace cc).andThen fun _ =>
    Total.or ((total_word cc).andThen fun _ => (total_cols cc).map _) ((total_word cc).map _)

theorem total_from (cc : CharClass) : Total (fromParser cc) :=
  ((((total_whitespace cc).andThen fun _ => total_keyword _).andThen fun _ =>
    total_whitespace cc).andThen fun _ => total_word cc).map _

theorem total_insert (cc : CharClass) : Total (insertParser cc) :=
  (((((total_keyword _).andThen fun _ => total_whitespace cc).andThen fun _ =>
    total_keyword _).andThen fun _ => total_whitespace cc).andThen fun _ => total_word cc).andThen fun _ =>
      ((((total_whitespace cc).andThen fun _ => total_keyword _).andThen fun _ =>
        total_whitespace cc).andThen fun _ => total_word cc).map _

theorem total_update (cc : CharClass) : Total (updateParser cc) :=
  (((total_keyword _).andThen fun _ => total_whitespace cc).andThen fun _ => total_word cc).andThen fun _ =>
    ((((total_whitespace cc).andThen fun _ => total_keyword _).andThen fun _ =>
      total_whitespace cc).andThen fun _ => total_word cc).andThen fun _ => (total_where cc).optional.map _

/-- C79: the reader returns on every text, whatever the character tests say. -/
theorem c79_total (cc : CharClass) : Total (sqlQueryParser cc) :=
  (((total_select cc).andThen fun _ => (total_from cc).andThen fun _ =>
    (total_where cc).optional.map _).or (total_insert cc)).or (total_update cc)

/-! ## Queries are read -/

theorem Cols.notWord {cc : CharClass} (ok : cc.Ok) {cs : List (List Char)} {t r : List Char}
    (h : Cols cc cs t) (hr : NotWord cc r) : NotWord cc (t ++ r) := by
  cases h with
  | nil => exact hr
  | cons _ _ _ => intro c hc; cases hc; exact (ok.signs ',' (by simp)).1

theorem item_hit (x : Char) (r : List Char) : Ends (item x) (x :: r) [(x, r)] := by
  have := (c77_basic x (fun _ => true) [] (x :: r)).1
  simpa using this

theorem item_miss (x : Char) {r : List Char} (h : r.head? ≠ some x) : Ends (item x) r [] := by
  have := (c77_basic x (fun _ => true) [] r).1
  cases r with
  | nil => exact this
  | cons y r =>
    have : y ≠ x := fun e => h (by simp [e])
    simpa [this] using (c77_basic x (fun _ => true) [] (y :: r)).1

theorem greedy_cols {cc : CharClass} (ok : cc.Ok) {cs : List (List Char)} {t r : List Char}
    (h : Cols cc cs t) (hr : NotWord cc r) (hc : r.head? ≠ some ',') : Greedy (nextCol cc) (t ++ r) cs r := by
  induction h with
  | nil => exact .stop (fails_then _ (fails_then _ (item_miss ',' hc)))
  | @cons b c t cs hb hw ht ih =>
    refine .step (xs := []) ?_ ih
    have : (',' :: (b ++ (c ++ t))) ++ r = ',' :: (b ++ (c ++ (t ++ r))) := by simp
    rw [this]
    exact seq_then (seq_then (item_hit ',' _) (ends_whitespace hb (hw.solid ok _)))
      (ends_word hw (ht.notWord ok hr))

theorem ends_operator {o : List Char} (h : o ∈ operators) (r : List Char) :
    Ends operatorParser (o ++ r) [(o, r)] := by
  have seqMiss : ∀ {i : List Char}, i.head? ≠ some '!' → Ends (sequence ['!', '=']) i [] := by
    intro i hi
    refine (c77_basic 'a' (fun _ => true) ['!', '='] i).2.2.2 fun r e => ?_
    rw [e] at hi; simp at hi
  simp only [operators, List.mem_cons, List.not_mem_nil, or_false] at h
  rcases h with rfl | rfl | rfl | rfl
  · have h1 := (c77_basic 'a' (fun _ => true) ['!', '='] (['!', '='] ++ r)).2.2.1 r rfl
    exact c77_or (c77_or (c77_or (c77_map _ h1) (c77_map _ (item_miss '=' (by simp))))
      (c77_map _ (item_miss '<' (by simp)))) (c77_map _ (item_miss '>' (by simp)))
  · exact c77_or (c77_or (c77_or (c77_map _ (seqMiss (by simp))) (c77_map _ (item_hit '=' r)))
      (c77_map _ (item_miss '<' (by simp)))) (c77_map _ (item_miss '>' (by simp)))
  · exact c77_or (c77_or (c77_or (c77_map _ (seqMiss (by simp))) (c77_map _ (item_miss '=' (by simp))))
      (c77_map _ (item_hit '<' r))) (c77_map _ (item_miss '>' (by simp)))
  · exact c77_or (c77_or (c77_or (c77_map _ (seqMiss (by simp))) (c77_map _ (item_miss '=' (by simp))))
      (c77_map _ (item_miss '<' (by simp)))) (c77_map _ (item_hit '>' r))

theorem operator_head {cc : CharClass} (ok : cc.Ok) {o : List Char} (h : o ∈ operators) (r : List Char) :
    NotWord cc (o ++ r) ∧ NotBlank cc (o ++ r) := by
  simp only [operators, List.mem_cons, List.not_mem_nil, or_false] at h
  rcases h with rfl | rfl | rfl | rfl <;>
    exact ⟨fun c hc => by cases hc; exact (ok.signs _ (by simp)).1,
      fun c hc => by cases hc; exact (ok.signs _ (by simp)).2⟩

theorem Blank.notWord_append {cc : CharClass} (ok : cc.Ok) {b r : List Char} (hb : Blank cc b)
    (hr : NotWord cc r) : NotWord cc (b ++ r) := by
  cases b with
  | nil => exact hr
  | cons c b => intro d hd; cases hd; exact ok.apart c (hb c (by simp))

theorem ends_condition {cc : CharClass} (ok : cc.Ok) {c : Condition} {u r : List Char} (h : IsCond cc c u)
    (hr : NotWord cc r) : Ends (conditionParser cc) (u ++ r) [(c, r)] := by
  cases h with
  | @mk f o v b b' hf hb ho hb' hv =>
    have e : (f ++ (b ++ (o ++ (b' ++ v)))) ++ r = f ++ (b ++ (o ++ (b' ++ (v ++ r)))) := by simp
    rw [e]
    refine one_then (ends_word hf (hb.notWord_append ok (operator_head ok ho _).1)) ?_
    refine one_then (seq_then (ends_whitespace hb (operator_head ok ho _).2)
      (ends_operator ho _)) ?_
    exact c77_map (fun value => (⟨f, o, value⟩ : Condition))
      (seq_then (ends_whitespace hb' (hv.solid ok _)) (ends_word hv hr))

theorem kw_stop {cc : CharClass} (ok : cc.Ok) {kw r : List Char} {k : Char} (hk : kw.head? = some k)
    (ha : k.toLower.isAlpha = true) (hr : NotWord cc r) : Ends (keyword kw) r [] := by
  refine keyword_fails hk fun c hc e => ?_
  have := ok.word (alpha_of_lower ha e)
  rw [hr c hc] at this
  cases this

theorem ends_sep {cc : CharClass} (ok : cc.Ok) {g s b r : List Char} (hg : Blank cc g)
    (hs : Cased "AND".toList s) (hb : Blank cc b) (hr : NotBlank cc r) :
    Ends (andSep cc) (g ++ (s ++ (b ++ r))) [(b, r)] :=
  seq_then (seq_then (ends_whitespace hg (hs.solid ok (k := 'A') rfl (by decide) _))
    (ends_keyword (by decide) hs _)) (ends_whitespace hb hr)

theorem More.notWord {cc : CharClass} (ok : cc.Ok) {cs : List Condition} {t r : List Char}
    (h : More cc (Gap cc) cs t) (hr : NotWord cc r) : NotWord cc (t ++ r) := by
  cases h with
  | nil => exact hr
  | cons hg _ _ _ _ => rw [List.append_assoc]; exact hg.notWord ok _

theorem IsCond.solid {cc : CharClass} (ok : cc.Ok) {c : Condition} {u : List Char} (h : IsCond cc c u)
    (r : List Char) : NotBlank cc (u ++ r) := by
  cases h with
  | mk hf _ _ _ _ => rw [List.append_assoc]; exact hf.solid ok _

theorem greedy_more {cc : CharClass} (ok : cc.Ok) {cs : List Condition} {t r : List Char}
    (h : More cc (Gap cc) cs t) (hr : Stop cc r) :
    Greedy ((andSep cc).andThen fun _ => conditionParser cc) (t ++ r) cs r := by
  induction h with
  | nil =>
    refine .stop (fails_then _ (fails_then _ ?_))
    exact then_fails (ends_whitespace (b := []) (fun c hc => by cases hc) hr.2)
      (kw_stop ok (k := 'A') rfl (by decide) hr.1)
  | @cons g s b u t c cs hg hs hb hu ht ih =>
    refine .step (xs := []) ?_ ih
    have e : (g ++ (s ++ (b ++ (u ++ t)))) ++ r = g ++ (s ++ (b ++ (u ++ (t ++ r)))) := by simp
    rw [e]
    exact seq_then (ends_sep ok hg.1 hs hb (hu.solid ok _)) (ends_condition ok hu (ht.notWord ok hr.1))

theorem condition_fails {cc : CharClass} {r : List Char} (hr : NotWord cc r) : Ends (conditionParser cc) r [] :=
  fails_then _ (word_fails hr)

theorem leads_conds {cc : CharClass} (ok : cc.Ok) {cs : List Condition} {t r : List Char}
    (h : Conds cc (Gap cc) cs t) (hr : Stop cc r) :
    Leads ((conditionParser cc).sepBy (andSep cc)) (t ++ r) cs r := by
  cases h with
  | nil => exact Leads.or_right (fails_then _ (condition_fails hr.1)) (ends_new _ _).leads
  | @cons u t c cs hu ht =>
    rw [List.append_assoc]
    exact (then_many (r := (andSep cc).andThen fun _ => conditionParser cc) (g := fun _ => (cs, r))
      (fun first rest => [first] ++ rest) (ends_condition ok hu (ht.notWord ok hr.1)) (fun q hq => by
        rcases List.mem_singleton.1 hq with rfl
        exact greedy_more ok ht hr)).leads.or (total_new _)

theorem total_sepBy (cc : CharClass) : Total ((conditionParser cc).sepBy (andSep cc)) :=
  Total.or ((total_condition cc).andThen fun _ =>
    (c78_total_partial ((total_sep cc).andThen fun _ => total_condition cc)
      ((within_sep cc).shrinks_then fun _ => shrinks_condition cc)).map _) (total_new _)

theorem leads_where {cc : CharClass} (ok : cc.Ok) {cs : List Condition} {t r : List Char}
    (h : Where cc (Gap cc) cs t) (hr : Stop cc r) : Leads (whereParser cc) (t ++ r) cs r := by
  cases h with
  | @mk g s b t cs hg hs hb ht =>
    have e : (g ++ (s ++ (b ++ t))) ++ r = g ++ (s ++ (b ++ (t ++ r))) := by simp
    rw [e]
    have hn : NotBlank cc (t ++ r) := by
      cases ht with
      | nil => exact hr.2
      | cons hu _ => rw [List.append_assoc]; exact hu.solid ok _
    exact (seq_then (seq_then (ends_whitespace hg.1 (hs.solid ok (k := 'W') rfl (by decide) _))
      (ends_keyword (by decide) hs _)) (ends_whitespace hb hn)).leads.andThen
      ((leads_conds ok ht hr).map fun conditions => conditions) fun _ => (total_sepBy cc).map _

theorem where_fails {cc : CharClass} (ok : cc.Ok) {r : List Char} (hr : Stop cc r) :
    Ends (whereParser cc) r [] :=
  fails_then _ (fails_then _ (then_fails (ends_whitespace (b := []) (fun c hc => by cases hc) hr.2)
    (kw_stop ok (k := 'W') rfl (by decide) hr.1)))

theorem leads_optWhere {cc : CharClass} (ok : cc.Ok) {wh : Option (List Condition)} {t r : List Char}
    (h : OptWhere cc (Gap cc) wh t) (hr : Stop cc r) : Leads (whereParser cc).optional (t ++ r) wh r := by
  cases h with
  | none => exact (c77_optional (where_fails ok hr)).leads
  | some h => exact (leads_where ok h hr).optional

theorem OptWhere.notWord {cc : CharClass} (ok : cc.Ok) {wh : Option (List Condition)} {t r : List Char}
    (h : OptWhere cc (Gap cc) wh t) (hr : NotWord cc r) : NotWord cc (t ++ r) := by
  cases h with
  | none => exact hr
  | some h =>
    cases h with
    | mk hg _ _ _ => rw [List.append_assoc]; exact hg.notWord ok _

theorem other_keyword {kw kw' s : List Char} {k k' : Char} (hk : kw.head? = some k) (hk' : kw'.head? = some k')
    (hne : k.toLower ≠ k'.toLower) (h : Cased kw s) (r : List Char) : Ends (keyword kw') (s ++ r) [] := by
  refine keyword_fails hk' fun c hc e => ?_
  cases kw with
  | nil => cases hk
  | cons k0 kw =>
    cases hk
    cases s with
    | nil => simp [Cased] at h
    | cons d s =>
      cases hc
      simp only [Cased, List.map_cons, List.cons.injEq] at h
      exact hne (h.1.symm.trans e)

/-- C79: every text of a query, followed by anything that goes on neither with a word nor with white
space, is read completely, and as this query. -/
theorem c79_reads {cc : CharClass} (ok : cc.Ok) {q : SqlQuery} {t r : List Char} (h : Sql cc (Gap cc) q t)
    (hr : Stop cc r) : Leads (sqlQueryParser cc) (t ++ r) q r := by
  cases h with
  | @select s b c t g s' b' tb w cs wh hs hb hc ht hg hs' hb' htb hw =>
    have e : (s ++ (b ++ (c ++ (t ++ (g ++ (s' ++ (b' ++ (tb ++ w)))))))) ++ r =
        s ++ (b ++ (c ++ (t ++ (g ++ (s' ++ (b' ++ (tb ++ (w ++ r)))))))) := by simp
    rw [e]
    refine Leads.or (Leads.or ?_ (total_insert cc)) (total_update cc)
    have hgc : (g ++ (s' ++ (b' ++ (tb ++ (w ++ r))))).head? ≠ some ',' := by
      intro e'
      cases g with
      | nil => exact hg.2 rfl
      | cons d g =>
        cases e'
        have := (ok.signs ',' (by simp)).2
        rw [hg.1 ',' (by simp)] at this
        cases this
    have h1 : Leads (selectParser cc) (s ++ (b ++ (c ++ (t ++ (g ++ (s' ++ (b' ++ (tb ++ (w ++ r)))))))))
        (c :: cs) (g ++ (s' ++ (b' ++ (tb ++ (w ++ r))))) := by
      refine (seq_then (ends_keyword (by decide) hs _) (ends_whitespace hb (hc.solid ok _))).leads.andThen ?_
        fun _ => Total.or ((total_word cc).andThen fun _ => (total_cols cc).map _) ((total_word cc).map _)
      refine Leads.or ?_ ((total_word cc).map _)
      exact (then_many (r := nextCol cc) (g := fun _ => (cs, g ++ (s' ++ (b' ++ (tb ++ (w ++ r))))))
        (fun first rest => [first] ++ rest) (ends_word hc (ht.notWord ok (hg.notWord ok _))) (fun q hq => by
          rcases List.mem_singleton.1 hq with rfl
          exact greedy_cols ok ht (hg.notWord ok _) hgc)).leads
    have h2 : Leads (fromParser cc) (g ++ (s' ++ (b' ++ (tb ++ (w ++ r))))) tb (w ++ r) :=
      (seq_then (seq_then (seq_then (ends_whitespace hg.1 (hs'.solid ok (k := 'F') rfl (by decide) _))
        (ends_keyword (by decide) hs' _)) (ends_whitespace hb' (htb.solid ok _)))
        (ends_word htb (hw.notWord ok hr.1))).leads.map fun table => table
    refine h1.andThen (h2.andThen ((leads_optWhere ok hw hr).map fun whereClause =>
      SqlQuery.Select (c :: cs) tb whereClause) fun _ => (total_where cc).optional.map _) fun _ =>
      (total_from cc).andThen fun _ => (total_where cc).optional.map _
  | @insert s b s' b' tb g s'' b'' v hs hb hs' hb' htb hg hs'' hb'' hv =>
    have e : (s ++ (b ++ (s' ++ (b' ++ (tb ++ (g ++ (s'' ++ (b'' ++ v)))))))) ++ r =
        s ++ (b ++ (s' ++ (b' ++ (tb ++ (g ++ (s'' ++ (b'' ++ (v ++ r)))))))) := by simp
    rw [e]
    refine Leads.or (Leads.or_right ?_ ?_) (total_update cc)
    · exact fails_then _ (fails_then _ (fails_then _ (other_keyword (k := 'I') (k' := 'S') rfl rfl (by decide) hs _)))
    · refine Ends.leads (t := []) ?_
      refine one_then (seq_then (seq_then (seq_then (seq_then (ends_keyword (by decide) hs _)
        (ends_whitespace hb (hs'.solid ok (k := 'I') rfl (by decide) _))) (ends_keyword (by decide) hs' _))
        (ends_whitespace hb' (htb.solid ok _))) (ends_word htb (hg.notWord ok _))) ?_
      exact c77_map (fun value => SqlQuery.Insert tb [value]) (seq_then (seq_then (one_then
        (ends_whitespace hg.1 (hs''.solid ok (k := 'V') rfl (by decide) _)) (ends_keyword (by decide) hs'' _))
        (ends_whitespace hb'' (hv.solid ok _))) (ends_word hv hr.1))
  | @update s b tb g s' b' v w wh hs hb htb hg hs' hb' hv hw =>
    have e : (s ++ (b ++ (tb ++ (g ++ (s' ++ (b' ++ (v ++ w))))))) ++ r =
        s ++ (b ++ (tb ++ (g ++ (s' ++ (b' ++ (v ++ (w ++ r))))))) := by simp
    rw [e]
    refine Leads.or_right (c77_or (xs := []) (ys := []) ?_ ?_) ?_
    · exact fails_then _ (fails_then _ (fails_then _ (other_keyword (k := 'U') (k' := 'S') rfl rfl (by decide) hs _)))
    · exact fails_then _ (fails_then _ (fails_then _ (fails_then _ (fails_then _
        (other_keyword (k := 'U') (k' := 'I') rfl rfl (by decide) hs _)))))
    · refine (seq_then (seq_then (ends_keyword (by decide) hs _) (ends_whitespace hb (htb.solid ok _)))
        (ends_word htb (hg.notWord ok _))).leads.andThen ?_ fun _ =>
          ((((total_whitespace cc).andThen fun _ => total_keyword _).andThen fun _ =>
            total_whitespace cc).andThen fun _ => total_word cc).andThen fun _ => (total_where cc).optional.map _
      refine (seq_then (seq_then (seq_then (ends_whitespace hg.1 (hs'.solid ok (k := 'S') rfl (by decide) _))
        (ends_keyword (by decide) hs' _)) (ends_whitespace hb' (hv.solid ok _)))
        (ends_word hv (hw.notWord ok hr.1))).leads.andThen ?_ fun _ => (total_where cc).optional.map _
      exact (leads_optWhere ok hw hr).map fun whereClause => SqlQuery.Update tb v whereClause

/-! ## Only queries are read -/

/-- Everything `p` returns is a beginning of the input that `R` allows. -/
def Takes (p : Parser I O) (R : O → List I → Prop) : Prop :=
  ∀ m i c, p m i = some c → ∀ q ∈ c.values, ∃ s, i = s ++ q.2 ∧ R q.1 s

theorem Takes.mono {p : Parser I O} {R R' : O → List I → Prop} (h : Takes p R) (hR : ∀ a s, R a s → R' a s) :
    Takes p R' := fun m i c hc q hq => by
  obtain ⟨s, e, hs⟩ := h m i c hc q hq
  exact ⟨s, e, hR _ _ hs⟩

theorem takes_new {f : List I → Choice (O × List I)} {R : O → List I → Prop}
    (h : ∀ i, ∀ q ∈ (f i).values, ∃ s, i = s ++ q.2 ∧ R q.1 s) : Takes (Parser.new f) R := by
  intro m i c hc q hq
  cases hc
  exact h i q hq

theorem Takes.or {p q : Parser I O} {R : O → List I → Prop} (hp : Takes p R) (hq : Takes q R) :
    Takes (p.or q) R := by
  intro m i c hc
  rw [or_eq] at hc
  cases hp' : p m i with
  | none => rw [hp'] at hc; cases hc
  | some a =>
    cases hq' : q m i with
    | none => rw [hp', hq'] at hc; cases hc
    | some b =>
      rw [hp', hq'] at hc
      cases hc
      intro r hr
      rcases List.mem_append.1 hr with hr | hr
      · exact hp m i a hp' r hr
      · exact hq m i b hq' r hr

theorem Takes.andThen {p : Parser I O} {f : O → Parser I B} {R : O → List I → Prop}
    {R' : O → B → List I → Prop} {T : B → List I → Prop} (hp : Takes p R) (hf : ∀ a, Takes (f a) (R' a))
    (hT : ∀ a b s s', R a s → R' a b s' → T b (s ++ s')) : Takes (p.andThen f) T := by
  intro m i c hc r hr
  obtain ⟨a, ha, q, hq, d, hd, hr⟩ := andThen_mem hc r hr
  obtain ⟨s, e, hs⟩ := hp m i a ha q hq
  obtain ⟨s', e', hs'⟩ := hf q.1 m q.2 d hd r hr
  exact ⟨s ++ s', by rw [e, e', List.append_assoc], hT _ _ _ _ hs hs'⟩

theorem Takes.map {p : Parser I O} {R : O → List I → Prop} {T : B → List I → Prop} (hp : Takes p R)
    (f : O → B) (hT : ∀ a s, R a s → T (f a) s) : Takes (p.map f) T := by
  intro m i c hc r hr
  rw [map_eq] at hc
  cases h : p m i with
  | none => rw [h] at hc; cases hc
  | some a =>
    rw [h] at hc
    cases hc
    obtain ⟨q, hq, rfl⟩ := List.mem_map.1 hr
    obtain ⟨s, e, hs⟩ := hp m i a h q hq
    exact ⟨s, e, hT _ _ hs⟩

theorem Takes.optional {p : Parser I O} {R : O → List I → Prop} {T : Option O → List I → Prop}
    (hp : Takes p R) (h0 : T none []) (h1 : ∀ a s, R a s → T (some a) s) : Takes p.optional T := by
  intro m i c hc r hr
  unfold Parser.optional at hc
  cases h : p m i with
  | none => rw [h] at hc; cases hc
  | some a =>
    rw [h] at hc
    obtain ⟨a⟩ := a
    cases a with
    | nil =>
      cases hc
      have : r = (none, i) := by simpa [Choice.new] using hr
      rw [this]; exact ⟨[], rfl, h0⟩
    | cons q l =>
      cases hc
      have : r = (some q.1, q.2) := by simpa [Choice.new] using hr
      rw [this]
      obtain ⟨s, e, hs⟩ := hp m i _ h q (by simp)
      exact ⟨s, e, h1 _ _ hs⟩

theorem Takes.many {p : Parser I O} {R : O → List I → Prop} {T : List O → List I → Prop} (ht : Total p)
    (hp : Takes p R) (h0 : T [] []) (h1 : ∀ a s as t, R a s → T as t → T (a :: as) (s ++ t)) :
    Takes p.many T := by
  intro m i c hc q hq
  obtain ⟨as, r, rfl, hg⟩ := many_greedy ht hc
  rcases List.mem_singleton.1 hq with rfl
  show ∃ s, i = s ++ r ∧ T as s
  clear hc hq
  induction hg with
  | stop _ => exact ⟨[], rfl, h0⟩
  | @step i r r' a as xs hi _ ih =>
    obtain ⟨t, e, hT⟩ := ih
    obtain ⟨⟨n, hn⟩, _⟩ := hi
    obtain ⟨s, e', hs⟩ := hp n i _ (hn n (Nat.le_refl n)) (a, r) (by simp)
    exact ⟨s ++ t, by rw [List.append_assoc, ← e]; exact e', h1 _ _ _ _ hs hT⟩

theorem takes_satisfy (pred : Char → Bool) : Takes (satisfy pred) fun a s => s = [a] ∧ pred a = true := by
  refine takes_new fun i q hq => ?_
  cases i with
  | nil => cases hq
  | cons y r =>
    by_cases h : pred y
    · simp only [h, if_true, Choice.new, List.cons_append, List.nil_append, List.mem_singleton] at hq
      rw [hq]; exact ⟨[y], rfl, rfl, h⟩
    · simp [h, Choice.newEmpty] at hq

theorem takes_item (x : Char) : Takes (item x) fun _ s => s = [x] := by
  refine takes_new fun i q hq => ?_
  cases i with
  | nil => cases hq
  | cons y r =>
    by_cases h : y = x
    · simp only [h, if_true, Choice.new, List.cons_append, List.nil_append, List.mem_singleton] at hq
      rw [hq, h]; exact ⟨[x], rfl, rfl⟩
    · simp [h, Choice.newEmpty] at hq

theorem takes_whitespace (cc : CharClass) : Takes (whitespace cc) fun _ s => Blank cc s :=
  Takes.many (T := fun _ s => Blank cc s) (total_new _) (takes_satisfy _) (fun c hc => by cases hc)
    fun a s as t hs ht c hc => by
      rw [hs.1] at hc
      rcases List.mem_append.1 hc with h | h
      · rw [List.mem_singleton.1 h]; exact hs.2
      · exact ht c h

theorem takes_word (cc : CharClass) : Takes (word cc) fun w s => s = w ∧ IsWord cc w := by
  refine Takes.map (R := fun w s => s = w ∧ IsWord cc w) ?_ (fun chars : List Char => chars)
    fun _ _ h => h
  refine Takes.andThen (R' := fun a b s => b = a :: s ∧ ∀ c ∈ s, cc.isWord c = true) (takes_satisfy cc.isWord)
    (fun a => ?_) ?_
  · refine Takes.map (R := fun as s => as = s ∧ ∀ c ∈ s, cc.isWord c = true) ?_ _ ?_
    · refine Takes.many (total_new _) (takes_satisfy cc.isWord) ⟨rfl, fun c hc => by cases hc⟩ ?_
      rintro a s as t ⟨rfl, ha⟩ ⟨rfl, h⟩
      refine ⟨rfl, fun c hc => ?_⟩
      rcases List.mem_cons.1 hc with rfl | hc
      · exact ha
      · exact h c hc
    · rintro as s ⟨rfl, h⟩; exact ⟨rfl, h⟩
  · rintro a b s s' ⟨rfl, ha⟩ ⟨rfl, h⟩
    refine ⟨rfl, isWord_of (fun c hc => ?_) (by simp)⟩
    rcases List.mem_cons.1 hc with rfl | hc
    · exact ha
    · exact h c hc

theorem zip_all_cased {kw i : List Char} (hl : kw.length ≤ i.length)
    (h : (kw.zip i).all (fun p => eqIgnoreAsciiCase p.1 p.2) = true) : Cased kw (i.take kw.length) := by
  induction kw generalizing i with
  | nil => simp [Cased]
  | cons k kw ih =>
    cases i with
    | nil => simp at hl
    | cons c i =>
      simp only [List.zip_cons_cons, List.all_cons, Bool.and_eq_true] at h
      have := ih (i := i) (by simpa using hl) h.2
      simp only [Cased, List.length_cons, List.take_succ_cons, List.map_cons] at this ⊢
      rw [this]
      have e := h.1
      simp only [eqIgnoreAsciiCase, beq_iff_eq] at e
      rw [e]

theorem takes_keyword {kw : List Char} (hk : byteLen kw = kw.length) :
    Takes (keyword kw) fun _ s => Cased kw s := by
  refine takes_new fun i q hq => ?_
  split at hq
  · cases hq
  · rename_i hl
    split at hq
    · rename_i hz
      simp only [Choice.new, List.cons_append, List.nil_append, List.mem_singleton] at hq
      rw [hq]
      refine ⟨i.take kw.length, ?_, zip_all_cased (by omega) hz⟩
      rw [hk]; exact (List.take_append_drop _ _).symm
    · cases hq

theorem takes_operator : Takes operatorParser fun o s => s = o ∧ o ∈ operators := by
  have hseq : Takes (sequence ['!', '=']) fun _ s => s = ['!', '='] := by
    refine takes_new fun i q hq => ?_
    split at hq
    · rename_i h
      simp only [Choice.new, List.cons_append, List.nil_append, List.mem_singleton] at hq
      rw [hq]
      exact ⟨['!', '='], by conv => lhs; rw [← List.take_append_drop ['!', '='].length i, h.2], rfl⟩
    · cases hq
  refine Takes.or (Takes.or (Takes.or ?_ ?_) ?_) ?_
  · exact hseq.map _ fun _ _ h => ⟨h, by simp [operators]⟩
  · exact (takes_item '=').map _ fun _ _ h => ⟨h, by simp [operators]⟩
  · exact (takes_item '<').map _ fun _ _ h => ⟨h, by simp [operators]⟩
  · exact (takes_item '>').map _ fun _ _ h => ⟨h, by simp [operators]⟩

/-- White space, then a keyword. -/
theorem takes_gap_keyword (cc : CharClass) {kw : List Char} (hk : byteLen kw = kw.length) :
    Takes ((whitespace cc).andThen fun _ => keyword kw)
      fun _ t => ∃ g s, t = g ++ s ∧ Blank cc g ∧ Cased kw s :=
  (takes_whitespace cc).andThen (fun _ => takes_keyword hk) fun _ _ s s' h h' => ⟨s, s', rfl, h, h'⟩

/-- White space, a keyword, white space. -/
theorem takes_gap_keyword_gap (cc : CharClass) {kw : List Char} (hk : byteLen kw = kw.length) :
    Takes (((whitespace cc).andThen fun _ => keyword kw).andThen fun _ => whitespace cc)
      fun _ t => ∃ g s b, t = g ++ (s ++ b) ∧ Blank cc g ∧ Cased kw s ∧ Blank cc b :=
  (takes_gap_keyword cc hk).andThen (fun _ => takes_whitespace cc) fun _ _ _ s' h h' => by
    obtain ⟨g, s, rfl, hg, hs⟩ := h
    exact ⟨g, s, s', by simp, hg, hs, h'⟩

/-- White space, a keyword, white space, a name. -/
theorem takes_clause (cc : CharClass) {kw : List Char} (hk : byteLen kw = kw.length) :
    Takes ((((whitespace cc).andThen fun _ => keyword kw).andThen fun _ => whitespace cc).andThen
      fun _ => word cc)
      fun w t => ∃ g s b, t = g ++ (s ++ (b ++ w)) ∧ Blank cc g ∧ Cased kw s ∧ Blank cc b ∧ IsWord cc w :=
  (takes_gap_keyword_gap cc hk).andThen (fun _ => takes_word cc) fun _ w _ s' h h' => by
    obtain ⟨g, s, b, rfl, hg, hs, hb⟩ := h
    obtain ⟨rfl, hw⟩ := h'
    exact ⟨g, s, b, by simp, hg, hs, hb, hw⟩

theorem takes_condition (cc : CharClass) : Takes (conditionParser cc) (IsCond cc) := by
  refine (takes_word cc).andThen (R' := fun f c t => ∃ b o b' v, c = ⟨f, o, v⟩ ∧
    t = b ++ (o ++ (b' ++ v)) ∧ Blank cc b ∧ o ∈ operators ∧ Blank cc b' ∧ IsWord cc v) (fun f => ?_) ?_
  · refine Takes.andThen (R := fun o t => ∃ b, t = b ++ o ∧ Blank cc b ∧ o ∈ operators)
      (R' := fun o c t => ∃ b' v, c = ⟨f, o, v⟩ ∧ t = b' ++ v ∧ Blank cc b' ∧ IsWord cc v) ?_ (fun o => ?_) ?_
    · refine (takes_whitespace cc).andThen (fun _ => takes_operator) ?_
      rintro _ o s s' hs ⟨rfl, ho⟩
      exact ⟨s, rfl, hs, ho⟩
    · refine Takes.map (R := fun v t => ∃ b', t = b' ++ v ∧ Blank cc b' ∧ IsWord cc v) ?_ _ ?_
      · refine (takes_whitespace cc).andThen (fun _ => takes_word cc) ?_
        rintro _ v s s' hs ⟨rfl, hv⟩
        exact ⟨s, rfl, hs, hv⟩
      · rintro v s ⟨b', rfl, hb, hv⟩
        exact ⟨b', v, rfl, rfl, hb, hv⟩
    · rintro o c s s' ⟨b, rfl, hb, ho⟩ ⟨b', v, rfl, rfl, hb', hv⟩
      exact ⟨b, o, b', v, rfl, by simp, hb, ho, hb', hv⟩
  · rintro f c s s' ⟨rfl, hf⟩ ⟨b, o, b', v, rfl, rfl, hb, ho, hb', hv⟩
    exact .mk hf hb ho hb' hv

theorem takes_where (cc : CharClass) : Takes (whereParser cc) (Where cc (Blank cc)) := by
  have hmore : Takes ((andSep cc).andThen fun _ => conditionParser cc).many (More cc (Blank cc)) := by
    refine Takes.many (R := fun c t => ∃ g s b u, t = g ++ (s ++ (b ++ u)) ∧ Blank cc g ∧
      Cased "AND".toList s ∧ Blank cc b ∧ IsCond cc c u)
      ((total_sep cc).andThen fun _ => total_condition cc) ?_ .nil ?_
    · refine (takes_gap_keyword_gap cc (kw := "AND".toList) (by decide)).andThen
        (fun _ => takes_condition cc) ?_
      rintro _ c _ u ⟨g, s, b, rfl, hg, hs, hb⟩ hu
      exact ⟨g, s, b, u, by simp, hg, hs, hb, hu⟩
    · rintro c _ cs t ⟨g, s, b, u, rfl, hg, hs, hb, hu⟩ ht
      have e : g ++ (s ++ (b ++ u)) ++ t = g ++ (s ++ (b ++ (u ++ t))) := by simp
      rw [e]; exact .cons hg hs hb hu ht
  have hconds : Takes ((conditionParser cc).sepBy (andSep cc)) (Conds cc (Blank cc)) := by
    refine Takes.or ((takes_condition cc).andThen (R' := fun c cs t => ∃ cs', cs = c :: cs' ∧
      More cc (Blank cc) cs' t) (fun c => hmore.map _ fun cs t h => ⟨cs, rfl, h⟩) ?_) ?_
    · rintro c cs s s' hs ⟨cs', rfl, h⟩
      exact .cons hs h
    · refine takes_new fun i q hq => ?_
      simp only [Choice.new, List.cons_append, List.nil_append, List.mem_singleton] at hq
      rw [hq]; exact ⟨[], rfl, .nil⟩
  refine (takes_gap_keyword_gap cc (kw := "WHERE".toList) (by decide)).andThen
    (R' := fun _ cs t => Conds cc (Blank cc) cs t)
    (fun _ => hconds.map (fun conditions : List Condition => conditions) fun _ _ h => h) ?_
  rintro _ cs _ t ⟨g, s, b, rfl, hg, hs, hb⟩ ht
  have e : g ++ (s ++ b) ++ t = g ++ (s ++ (b ++ t)) := by simp
  rw [e]; exact .mk hg hs hb ht

theorem takes_optWhere (cc : CharClass) : Takes (whereParser cc).optional (OptWhere cc (Blank cc)) :=
  (takes_where cc).optional .none fun _ _ h => .some h

theorem takes_select (cc : CharClass) : Takes (selectParser cc) fun cols t => ∃ s b c u cs,
    cols = c :: cs ∧ t = s ++ (b ++ (c ++ u)) ∧ Cased "SELECT".toList s ∧ Blank cc b ∧ IsWord cc c ∧
    Cols cc cs u := by
  have hcols : Takes (nextCol cc).many (Cols cc) := by
    refine Takes.many (R := fun c t => ∃ b, t = ',' :: (b ++ c) ∧ Blank cc b ∧ IsWord cc c)
      (((total_new _).andThen fun _ => total_whitespace cc).andThen fun _ => total_word cc) ?_ .nil ?_
    · refine Takes.andThen (R := fun _ t => ∃ b, t = ',' :: b ∧ Blank cc b) ?_ (fun _ => takes_word cc) ?_
      · refine (takes_item ',').andThen (fun _ => takes_whitespace cc) ?_
        rintro _ _ s s' rfl hs
        exact ⟨s', rfl, hs⟩
      · rintro _ c s s' ⟨b, rfl, hb⟩ ⟨rfl, hc⟩
        exact ⟨b, rfl, hb, hc⟩
    · rintro c _ cs t ⟨b, rfl, hb, hc⟩ ht
      have e : (',' :: (b ++ c)) ++ t = ',' :: (b ++ (c ++ t)) := by simp
      rw [e]; exact .cons hb hc ht
  refine Takes.andThen (R := fun _ t => ∃ s b, t = s ++ b ∧ Cased "SELECT".toList s ∧ Blank cc b)
    (R' := fun _ cols t => ∃ c u cs, cols = c :: cs ∧ t = c ++ u ∧ IsWord cc c ∧ Cols cc cs u) ?_
    (fun _ => Takes.or ?_ ?_) ?_
  · refine (takes_keyword (kw := "SELECT".toList) (by decide)).andThen (fun _ => takes_whitespace cc) ?_
    intro _ _ s s' hs hb
    exact ⟨s, s', rfl, hs, hb⟩
  · refine (takes_word cc).andThen (R' := fun c cols t => ∃ cs, cols = c :: cs ∧ Cols cc cs t)
      (fun c => hcols.map _ fun cs t h => ⟨cs, rfl, h⟩) ?_
    rintro c cols s u ⟨rfl, hc⟩ ⟨cs, rfl, hu⟩
    exact ⟨_, u, cs, rfl, rfl, hc, hu⟩
  · refine (takes_word cc).map _ ?_
    rintro c s ⟨rfl, hc⟩
    exact ⟨s, [], [], rfl, by simp, hc, .nil⟩
  · rintro _ cols _ _ ⟨s, b, rfl, hs, hb⟩ ⟨c, u, cs, rfl, rfl, hc, hu⟩
    exact ⟨s, b, c, u, cs, rfl, by simp, hs, hb, hc, hu⟩

/-- C79: whatever the reader returns, first parse or later one, was a beginning of the text and a text of
the returned query, except that the white space before a keyword may be missing. -/
theorem c79_sound (cc : CharClass) {i : List Char} {xs : List (SqlQuery × List Char)}
    (h : Ends (sqlQueryParser cc) i xs) : ∀ q ∈ xs, ∃ s, i = s ++ q.2 ∧ Sql cc (Blank cc) q.1 s := by
  have key : Takes (sqlQueryParser cc) (Sql cc (Blank cc)) := by
    refine Takes.or (Takes.or ?_ ?_) ?_
    · refine (takes_select cc).andThen (R' := fun cols q t => ∃ g s b tb w wh,
        q = .Select cols tb wh ∧ t = g ++ (s ++ (b ++ (tb ++ w))) ∧ Blank cc g ∧ Cased "FROM".toList s ∧
        Blank cc b ∧ IsWord cc tb ∧ OptWhere cc (Blank cc) wh w) (fun cols => ?_) ?_
      · refine Takes.andThen (R := fun tb t => ∃ g s b, t = g ++ (s ++ (b ++ tb)) ∧ Blank cc g ∧
          Cased "FROM".toList s ∧ Blank cc b ∧ IsWord cc tb)
          (R' := fun tb q t => ∃ wh, q = .Select cols tb wh ∧ OptWhere cc (Blank cc) wh t)
          ((takes_clause cc (by decide)).map _ fun _ _ h => h)
          (fun tb => (takes_optWhere cc).map _ fun wh t h => ⟨wh, rfl, h⟩) ?_
        rintro tb q _ w ⟨g, s, b, rfl, hg, hs, hb, htb⟩ ⟨wh, rfl, hw⟩
        exact ⟨g, s, b, tb, w, wh, rfl, by simp, hg, hs, hb, htb, hw⟩
      · rintro cols q _ _ ⟨s, b, c, u, cs, rfl, rfl, hs, hb, hc, hu⟩
          ⟨g, s', b', tb, w, wh, rfl, rfl, hg, hs', hb', htb, hw⟩
        have e : s ++ (b ++ (c ++ u)) ++ (g ++ (s' ++ (b' ++ (tb ++ w)))) =
          s ++ (b ++ (c ++ (u ++ (g ++ (s' ++ (b' ++ (tb ++ w))))))) := by simp
        rw [e]; exact .select hs hb hc hu hg hs' hb' htb hw
    · refine Takes.andThen (R := fun tb t => ∃ s b s' b', t = s ++ (b ++ (s' ++ (b' ++ tb))) ∧
        Cased "INSERT".toList s ∧ Blank cc b ∧ Cased "INTO".toList s' ∧ Blank cc b' ∧ IsWord cc tb)
        (R' := fun tb q t => ∃ g s b v, q = .Insert tb [v] ∧ t = g ++ (s ++ (b ++ v)) ∧ Blank cc g ∧
          Cased "VALUES".toList s ∧ Blank cc b ∧ IsWord cc v) ?_ (fun tb => ?_) ?_
      · refine Takes.andThen (R := fun _ t => ∃ s b s' b', t = s ++ (b ++ (s' ++ b')) ∧
          Cased "INSERT".toList s ∧ Blank cc b ∧ Cased "INTO".toList s' ∧ Blank cc b') ?_
          (fun _ => takes_word cc) ?_
        · refine Takes.andThen (R := fun _ t => ∃ s b s', t = s ++ (b ++ s') ∧
            Cased "INSERT".toList s ∧ Blank cc b ∧ Cased "INTO".toList s') ?_
            (fun _ => takes_whitespace cc) ?_
          · refine Takes.andThen (R := fun _ t => ∃ s b, t = s ++ b ∧ Cased "INSERT".toList s ∧ Blank cc b)
              ((takes_keyword (by decide)).andThen (fun _ => takes_whitespace cc)
                fun _ _ s s' hs hb => ⟨s, s', rfl, hs, hb⟩)
              (fun _ => takes_keyword (kw := "INTO".toList) (by decide)) ?_
            rintro _ _ _ s' ⟨s, b, rfl, hs, hb⟩ hs'
            exact ⟨s, b, s', by simp, hs, hb, hs'⟩
          · rintro _ _ _ b' ⟨s, b, s', rfl, hs, hb, hs'⟩ hb'
            exact ⟨s, b, s', b', by simp, hs, hb, hs', hb'⟩
        · rintro _ tb _ _ ⟨s, b, s', b', rfl, hs, hb, hs', hb'⟩ ⟨rfl, htb⟩
          exact ⟨s, b, s', b', by simp, hs, hb, hs', hb', htb⟩
      · refine (takes_clause cc (kw := "VALUES".toList) (by decide)).map _ ?_
        rintro v _ ⟨g, s, b, rfl, hg, hs, hb, hv⟩
        exact ⟨g, s, b, v, rfl, rfl, hg, hs, hb, hv⟩
      · rintro tb q _ _ ⟨s, b, s', b', rfl, hs, hb, hs', hb', htb⟩ ⟨g, s'', b'', v, rfl, rfl, hg, hs'', hb'', hv⟩
        have e : s ++ (b ++ (s' ++ (b' ++ tb))) ++ (g ++ (s'' ++ (b'' ++ v))) =
          s ++ (b ++ (s' ++ (b' ++ (tb ++ (g ++ (s'' ++ (b'' ++ v))))))) := by simp
        rw [e]; exact .insert hs hb hs' hb' htb hg hs'' hb'' hv
    · refine Takes.andThen (R := fun tb t => ∃ s b, t = s ++ (b ++ tb) ∧ Cased "UPDATE".toList s ∧
        Blank cc b ∧ IsWord cc tb)
        (R' := fun tb q t => ∃ g s b v w wh, q = .Update tb v wh ∧ t = g ++ (s ++ (b ++ (v ++ w))) ∧
          Blank cc g ∧ Cased "SET".toList s ∧ Blank cc b ∧ IsWord cc v ∧ OptWhere cc (Blank cc) wh w)
        ?_ (fun tb => ?_) ?_
      · refine Takes.andThen (R := fun _ t => ∃ s b, t = s ++ b ∧ Cased "UPDATE".toList s ∧ Blank cc b)
          ((takes_keyword (by decide)).andThen (fun _ => takes_whitespace cc)
            fun _ _ s s' hs hb => ⟨s, s', rfl, hs, hb⟩) (fun _ => takes_word cc) ?_
        rintro _ tb _ _ ⟨s, b, rfl, hs, hb⟩ ⟨rfl, htb⟩
        exact ⟨s, b, by simp, hs, hb, htb⟩
      · refine Takes.andThen (R' := fun v q t => ∃ wh, q = .Update tb v wh ∧ OptWhere cc (Blank cc) wh t)
          (takes_clause cc (kw := "SET".toList) (by decide))
          (fun v => (takes_optWhere cc).map _ fun wh t h => ⟨wh, rfl, h⟩) ?_
        rintro v q _ w ⟨g, s, b, rfl, hg, hs, hb, hv⟩ ⟨wh, rfl, hw⟩
        exact ⟨g, s, b, v, w, wh, rfl, by simp, hg, hs, hb, hv, hw⟩
      · rintro tb q _ _ ⟨s, b, rfl, hs, hb, htb⟩ ⟨g, s', b', v, w, wh, rfl, rfl, hg, hs', hb', hv, hw⟩
        have e : s ++ (b ++ tb) ++ (g ++ (s' ++ (b' ++ (v ++ w)))) =
          s ++ (b ++ (tb ++ (g ++ (s' ++ (b' ++ (v ++ w)))))) := by simp
        rw [e]; exact .update hs hb htb hg hs' hb' hv hw
  obtain ⟨⟨n, hn⟩, _⟩ := h
  exact key n i _ (hn n (Nat.le_refl n))

/-! ## Printing and reading back -/

def Condition.show (c : Condition) : List Char := c.field ++ ([' '] ++ (c.operator ++ ([' '] ++ c.value)))

def showMore : List Condition → List Char
  | [] => []
  | c :: cs => [' '] ++ ("AND".toList ++ ([' '] ++ (c.show ++ showMore cs)))

def showConds : List Condition → List Char
  | [] => []
  | c :: cs => c.show ++ showMore cs

def showWhere : Option (List Condition) → List Char
  | none => []
  | some cs => [' '] ++ ("WHERE".toList ++ ([' '] ++ showConds cs))

def showCols : List (List Char) → List Char
  | [] => []
  | c :: cs => ',' :: ([' '] ++ (c ++ showCols cs))

/-- The usual text of a query. -/
def SqlQuery.show : SqlQuery → List Char
  | .Select cols tb wh => "SELECT".toList ++ ([' '] ++ (cols.headD [] ++ (showCols cols.tail ++
      ([' '] ++ ("FROM".toList ++ ([' '] ++ (tb ++ showWhere wh)))))))
  | .Insert tb vs => "INSERT".toList ++ ([' '] ++ ("INTO".toList ++ ([' '] ++ (tb ++ ([' '] ++
      ("VALUES".toList ++ ([' '] ++ vs.headD [])))))))
  | .Update tb v wh => "UPDATE".toList ++ ([' '] ++ (tb ++ ([' '] ++ ("SET".toList ++ ([' '] ++
      (v ++ showWhere wh))))))

def Condition.Good (cc : CharClass) (c : Condition) : Prop :=
  IsWord cc c.field ∧ c.operator ∈ operators ∧ IsWord cc c.value

/-- Names are words, operators are known ones, there is a column, and exactly one inserted value. -/
def SqlQuery.Good (cc : CharClass) : SqlQuery → Prop
  | .Select cols tb wh => cols ≠ [] ∧ (∀ c ∈ cols, IsWord cc c) ∧ IsWord cc tb ∧
      ∀ cs, wh = some cs → ∀ c ∈ cs, c.Good cc
  | .Insert tb vs => IsWord cc tb ∧ ∃ v, vs = [v] ∧ IsWord cc v
  | .Update tb v wh => IsWord cc tb ∧ IsWord cc v ∧ ∀ cs, wh = some cs → ∀ c ∈ cs, c.Good cc

theorem show_sql {cc : CharClass} (sp : cc.isWhitespace ' ' = true) {q : SqlQuery} (h : q.Good cc) :
    Sql cc (Gap cc) q q.show := by
  have hb : Blank cc [' '] := fun c hc => by rw [List.mem_singleton.1 hc]; exact sp
  have hg : Gap cc [' '] := ⟨hb, by simp⟩
  have hcond : ∀ {c : Condition}, c.Good cc → IsCond cc c c.show := fun h => .mk h.1 hb h.2.1 hb h.2.2
  have hmore : ∀ {cs : List Condition}, (∀ c ∈ cs, c.Good cc) → More cc (Gap cc) cs (showMore cs) := by
    intro cs
    induction cs with
    | nil => exact fun _ => .nil
    | cons c cs ih =>
      exact fun h => .cons hg rfl hb (hcond (h c (by simp))) (ih fun c hc => h c (by simp [hc]))
  have hwhere : ∀ {wh : Option (List Condition)}, (∀ cs, wh = some cs → ∀ c ∈ cs, c.Good cc) →
      OptWhere cc (Gap cc) wh (showWhere wh) := by
    intro wh h
    cases wh with
    | none => exact .none
    | some cs =>
      have h := h cs rfl
      refine .some (.mk hg rfl hb ?_)
      cases cs with
      | nil => exact .nil
      | cons c cs => exact .cons (hcond (h c (by simp))) (hmore fun c hc => h c (by simp [hc]))
  have hcols : ∀ {cs : List (List Char)}, (∀ c ∈ cs, IsWord cc c) → Cols cc cs (showCols cs) := by
    intro cs
    induction cs with
    | nil => exact fun _ => .nil
    | cons c cs ih => exact fun h => .cons hb (h c (by simp)) (ih fun c hc => h c (by simp [hc]))
  cases q with
  | Select cols tb wh =>
    obtain ⟨hne, hc, htb, hw⟩ := h
    cases cols with
    | nil => exact absurd rfl hne
    | cons c cs =>
      exact .select rfl hb (hc c (by simp)) (hcols fun c h => hc c (by simp [h])) hg rfl hb htb (hwhere hw)
  | Insert tb vs =>
    obtain ⟨htb, v, rfl, hv⟩ := h
    exact .insert rfl hb rfl hb htb hg rfl hb hv
  | Update tb v wh =>
    obtain ⟨htb, hv, hw⟩ := h
    exact .update rfl hb htb hg rfl hb hv (hwhere hw)

theorem sql_good {cc : CharClass} {gap : List Char → Prop} {q : SqlQuery} {t : List Char}
    (h : Sql cc gap q t) : q.Good cc := by
  have hcond : ∀ {c : Condition} {u : List Char}, IsCond cc c u → c.Good cc := by
    rintro _ _ (⟨hf, _, ho, _, hv⟩)
    exact ⟨hf, ho, hv⟩
  have hmore : ∀ {cs : List Condition} {u : List Char}, More cc gap cs u → ∀ c ∈ cs, c.Good cc := by
    intro cs u h
    induction h with
    | nil => intro c hc; cases hc
    | cons _ _ _ hu _ ih =>
      intro d hd
      rcases List.mem_cons.1 hd with rfl | hd
      · exact hcond hu
      · exact ih d hd
  have hwhere : ∀ {wh : Option (List Condition)} {u : List Char}, OptWhere cc gap wh u →
      ∀ cs, wh = some cs → ∀ c ∈ cs, c.Good cc := by
    rintro _ _ h cs rfl
    cases h with
    | some h =>
      cases h with
      | mk _ _ _ h =>
        cases h with
        | nil => intro c hc; cases hc
        | cons hu ht =>
          intro d hd
          rcases List.mem_cons.1 hd with rfl | hd
          · exact hcond hu
          · exact hmore ht d hd
  have hcols : ∀ {cs : List (List Char)} {u : List Char}, Cols cc cs u → ∀ c ∈ cs, IsWord cc c := by
    intro cs u h
    induction h with
    | nil => intro c hc; cases hc
    | cons _ hc _ ih =>
      intro d hd
      rcases List.mem_cons.1 hd with rfl | hd
      · exact hc
      · exact ih d hd
  cases h with
  | select _ _ hc ht _ _ _ htb hw =>
    refine ⟨by simp, fun d hd => ?_, htb, hwhere hw⟩
    rcases List.mem_cons.1 hd with rfl | hd
    · exact hc
    · exact hcols ht d hd
  | insert _ _ _ _ htb _ _ _ hv => exact ⟨htb, _, rfl, hv⟩
  | update _ _ htb _ _ _ hv hw => exact ⟨htb, hv, hwhere hw⟩

/-- C79: the queries that can come out of the reader are exactly those whose usual text is read back. -/
theorem c79_round_trip {cc : CharClass} (ok : cc.Ok) (sp : cc.isWhitespace ' ' = true) (q : SqlQuery) :
    Leads (sqlQueryParser cc) q.show q [] ↔ ∃ i xs r, Ends (sqlQueryParser cc) i xs ∧ (q, r) ∈ xs := by
  constructor
  · rintro ⟨t, h⟩
    exact ⟨_, _, [], h, by simp⟩
  · rintro ⟨i, xs, r, h, hq⟩
    obtain ⟨s, _, hs⟩ := c79_sound cc h _ hq
    have := c79_reads ok (show_sql sp (sql_good hs)) (r := []) ⟨notWord_nil, notBlank_nil⟩
    rwa [List.append_nil] at this

/-- C79: which queries these are. -/
theorem c79_queries {cc : CharClass} (ok : cc.Ok) (sp : cc.isWhitespace ' ' = true) (q : SqlQuery) :
    Leads (sqlQueryParser cc) q.show q [] ↔ q.Good cc := by
  rw [c79_round_trip ok sp]
  constructor
  · rintro ⟨i, xs, r, h, hq⟩
    obtain ⟨s, _, hs⟩ := c79_sound cc h _ hq
    exact sql_good hs
  · intro h
    rw [← c79_round_trip ok sp]
    have := c79_reads ok (show_sql sp h) (r := []) ⟨notWord_nil, notBlank_nil⟩
    rwa [List.append_nil] at this

/-! ## What goes wrong -/

theorem leads_where_lost {cc : CharClass} (ok : cc.Ok) {g s b r : List Char} (hg : Gap cc g)
    (hs : Cased "WHERE".toList s) (hb : Blank cc b) (hr : NotBlank cc r) (hc : Ends (conditionParser cc) r []) :
    Leads (whereParser cc).optional (g ++ (s ++ (b ++ r))) (some []) r := by
  have h1 : Leads ((conditionParser cc).sepBy (andSep cc)) r [] r :=
    Leads.or_right (fails_then _ hc) (ends_new _ _).leads
  exact Leads.optional ((seq_then (seq_then (ends_whitespace hg.1 (hs.solid ok (k := 'W') rfl (by decide) _))
    (ends_keyword (by decide) hs _)) (ends_whitespace hb hr)).leads.andThen
    (h1.map fun conditions => conditions) fun _ => (total_sepBy cc).map _)

/-- C79: a WHERE clause whose first condition cannot be read is taken for one without conditions, in an
UPDATE too; the text from there on is left over. -/
theorem c79_where_lost {cc : CharClass} (ok : cc.Ok) {s b tb g s' b' v g' s'' b'' r : List Char}
    (hs : Cased "UPDATE".toList s) (hb : Blank cc b) (htb : IsWord cc tb) (hg : Gap cc g)
    (hs' : Cased "SET".toList s') (hb' : Blank cc b') (hv : IsWord cc v) (hg' : Gap cc g')
    (hs'' : Cased "WHERE".toList s'') (hb'' : Blank cc b'') (hr : NotBlank cc r)
    (hc : Ends (conditionParser cc) r []) :
    Leads (sqlQueryParser cc)
      (s ++ (b ++ (tb ++ (g ++ (s' ++ (b' ++ (v ++ (g' ++ (s'' ++ (b'' ++ r))))))))))
      (.Update tb v (some [])) r := by
  refine Leads.or_right (c77_or (xs := []) (ys := []) ?_ ?_) ?_
  · exact fails_then _ (fails_then _ (fails_then _ (other_keyword (k := 'U') (k' := 'S') rfl rfl (by decide) hs _)))
  · exact fails_then _ (fails_then _ (fails_then _ (fails_then _ (fails_then _
      (other_keyword (k := 'U') (k' := 'I') rfl rfl (by decide) hs _)))))
  · refine (seq_then (seq_then (ends_keyword (by decide) hs _) (ends_whitespace hb (htb.solid ok _)))
      (ends_word htb (hg.notWord ok _))).leads.andThen ?_ fun _ =>
        ((((total_whitespace cc).andThen fun _ => total_keyword _).andThen fun _ =>
          total_whitespace cc).andThen fun _ => total_word cc).andThen fun _ => (total_where cc).optional.map _
    refine (seq_then (seq_then (seq_then (ends_whitespace hg.1 (hs'.solid ok (k := 'S') rfl (by decide) _))
      (ends_keyword (by decide) hs' _)) (ends_whitespace hb' (hv.solid ok _)))
      (ends_word hv (hg'.notWord ok _))).leads.andThen ?_ fun _ => (total_where cc).optional.map _
    exact (leads_where_lost ok hg' hs'' hb'' hr hc).map fun whereClause => SqlQuery.Update tb v whereClause

/-- The reader never says "no conditions" where there was text after WHERE. -/
def WhereKept : Prop := ∀ (cc : CharClass), cc.Ok → ∀ (i : List Char) (tb v r : List Char),
  Leads (sqlQueryParser cc) i (.Update tb v (some [])) r → r = []

theorem leads_of_run {p : Parser I O} (ht : Total p) {m : Nat} {i r : List I} {a : O} {t : List (O × List I)}
    (h : p m i = some ⟨(a, r) :: t⟩) : Leads p i a r := by
  obtain ⟨xs, hx⟩ := ht i
  rcases hx.2 m with e | e
  · rw [e] at h; cases h
  · rw [e] at h
    injection h with h
    injection h with h
    rw [h] at hx
    exact ⟨t, hx⟩

/-- C79 is false in this respect: `UPDATE t SET x WHERE id <= 4` is read as an update without conditions. -/
theorem c79_where_kept_false : ¬ WhereKept := by
  intro h
  have := h ascii ascii_ok "UPDATE t SET x WHERE id <= 4".toList ['t'] ['x'] "id <= 4".toList
    (leads_of_run (c79_total ascii) (m := 40) (t := []) (by rfl))
  exact absurd this (by decide)

/-- The reader returns at most one parse of a text. -/
def Unambiguous : Prop := ∀ (cc : CharClass), cc.Ok → ∀ (i : List Char) (xs : List (SqlQuery × List Char)),
  Ends (sqlQueryParser cc) i xs → xs.length ≤ 1

/-- C79: a SELECT clause of one column is returned twice, with the same column and the same rest. -/
theorem c79_twice {cc : CharClass} (ok : cc.Ok) {s b c g r : List Char} (hs : Cased "SELECT".toList s)
    (hb : Blank cc b) (hc : IsWord cc c) (hg : Gap cc g) :
    Ends (selectParser cc) (s ++ (b ++ (c ++ (g ++ r)))) [([c], g ++ r), ([c], g ++ r)] := by
  have hgc : (g ++ r).head? ≠ some ',' := by
    intro e'
    cases g with
    | nil => exact hg.2 rfl
    | cons d g =>
      cases e'
      have := (ok.signs ',' (by simp)).2
      rw [hg.1 ',' (by simp)] at this
      cases this
  refine one_then (seq_then (ends_keyword (by decide) hs _) (ends_whitespace hb (hc.solid ok _))) ?_
  have hw := ends_word hc (hg.notWord ok r)
  exact c77_or (then_many (r := nextCol cc) (g := fun _ => ([], g ++ r)) (fun first rest => [first] ++ rest) hw
    (fun q hq => by
      rcases List.mem_singleton.1 hq with rfl
      exact greedy_cols ok (.nil) (hg.notWord ok _) hgc)) (c77_map (fun col => [col]) hw)

theorem c79_unambiguous_false : ¬ Unambiguous := by
  intro h
  obtain ⟨xs, hx⟩ := c79_total ascii "SELECT name FROM users".toList
  have hl := h ascii ascii_ok _ _ hx
  have hr : (sqlQueryParser ascii 40 "SELECT name FROM users".toList).map (·.values.length) = some 2 := by
    decide +kernel
  rcases hx.2 40 with e | e
  · rw [e] at hr; cases hr
  · rw [e] at hr
    simp only [Option.map_some, Option.some.injEq] at hr
    omega

/-- C79: `keyword` accepts an ASCII keyword in any case, whatever follows it (no white space is needed),
and nothing else. -/
theorem c79_keyword {kw : List Char} (hk : byteLen kw = kw.length) (i : List Char) :
    (∀ s r, Cased kw s → i = s ++ r → Ends (keyword kw) i [(kw, r)]) ∧
    ((∀ s r, Cased kw s → i ≠ s ++ r) → Ends (keyword kw) i []) := by
  refine ⟨fun s r hs e => e ▸ ends_keyword hk hs r, fun h => ?_⟩
  obtain ⟨xs, hx⟩ := total_keyword kw i
  cases xs with
  | nil => exact hx
  | cons q xs =>
    obtain ⟨⟨n, hn⟩, _⟩ := hx
    obtain ⟨s, e, hs⟩ := takes_keyword hk n i _ (hn n (Nat.le_refl n)) q (by simp)
    exact absurd e (h s q.2 hs)

/-- C79: for a keyword that is not ASCII this fails, because the length is counted in bytes: the keyword
itself is not accepted, and with more text after it part of that text is skipped. -/
theorem c79_keyword_false :
    ¬ ∀ (kw : List Char) (r : List Char), kw ≠ [] → Ends (keyword kw) (kw ++ r) [(kw, r)] := by
  intro h
  have := h ['é'] [] (by simp)
  rcases this.2 0 with e | e
  · cases e
  · have e' : (keyword ['é'] 0 (['é'] ++ [])) = some ⟨[]⟩ := by rfl
    rw [e'] at e
    injection e with e
    injection e with e
    cases e

example : Ends (keyword "from".toList) "FROMusers".toList [("from".toList, "users".toList)] :=
  (c79_keyword (by decide) _).1 "FROM".toList "users".toList (by unfold Cased; decide) rfl

example : keyword ['é'] 0 ['é', 'a', 'b'] = some ⟨[(['é'], ['b'])]⟩ := by rfl

/-! ## Non-trivial instances -/

example : Sql ascii (Gap ascii) (.Select ["id".toList, "email".toList] "customers".toList
    (some [⟨"a".toList, "!=".toList, "1".toList⟩, ⟨"b".toList, "<".toList, "c_2".toList⟩]))
    "SELECT id, email FROM customers WHERE a != 1 AND b < c_2".toList := by
  have := show_sql (cc := ascii) rfl (q := .Select ["id".toList, "email".toList] "customers".toList
    (some [⟨"a".toList, "!=".toList, "1".toList⟩, ⟨"b".toList, "<".toList, "c_2".toList⟩]))
    ⟨by decide, by unfold IsWord; decide, by unfold IsWord; decide, by
      rintro cs e
      cases e
      unfold Condition.Good IsWord; decide⟩
  exact this

example : Stop ascii ";".toList := by
  constructor <;> (intro c hc; cases hc; rfl)

example : Ends (conditionParser ascii) "id <= 4".toList [] := by
  obtain ⟨xs, hx⟩ := total_condition ascii "id <= 4".toList
  rcases hx.2 20 with e | e
  · exact absurd e (by
      have : conditionParser ascii 20 "id <= 4".toList = some ⟨[]⟩ := by rfl
      rw [this]; exact Option.some_ne_none _)
  · have : conditionParser ascii 20 "id <= 4".toList = some ⟨[]⟩ := by rfl
    rw [this] at e
    injection e with e
    injection e with e
    rw [← e] at hx
    exact hx

/-! The queries of `parser_examples` (601-609). -/

section Runs

private def firstOf (t : String) : Option (Option (SqlQuery × List Char)) :=
  (sqlQueryParser ascii 80 t.toList).map (·.values.head?)

example : firstOf "SELECT name FROM users" = some (some (.Select ["name".toList] "users".toList none, [])) := by
  decide +kernel
example : firstOf "SELECT id, email FROM customers" =
    some (some (.Select ["id".toList, "email".toList] "customers".toList none, [])) := by decide +kernel
example : firstOf "SELECT name FROM users WHERE age > 18" =
    some (some (.Select ["name".toList] "users".toList
      (some [⟨"age".toList, ">".toList, "18".toList⟩]), [])) := by decide +kernel
example : firstOf "SELECT email FROM customers WHERE active = 1 AND verified = 1" =
    some (some (.Select ["email".toList] "customers".toList
      (some [⟨"active".toList, "=".toList, "1".toList⟩, ⟨"verified".toList, "=".toList, "1".toList⟩]), [])) := by
  decide +kernel
example : firstOf "INSERT INTO users VALUES data" =
    some (some (.Insert "users".toList ["data".toList], [])) := by decide +kernel
example : firstOf "UPDATE users SET active" =
    some (some (.Update "users".toList "active".toList none, [])) := by decide +kernel
example : firstOf "UPDATE users SET status WHERE id = 42" =
    some (some (.Update "users".toList "status".toList
      (some [⟨"id".toList, "=".toList, "42".toList⟩]), [])) := by decide +kernel

/-- The hypotheses of `c79_reads`, `c79_round_trip`, `c79_queries`, `c79_where_lost`, `c79_twice` and `c79_sound` are met. -/
private def sampleQuery : SqlQuery :=
  .Select ["id".toList, "email".toList] "customers".toList (some [⟨"a".toList, "!=".toList, "1".toList⟩])

private theorem sample_good : sampleQuery.Good ascii :=
  ⟨by decide, by unfold IsWord; decide, by unfold IsWord; decide, by
    rintro cs e
    cases e
    unfold Condition.Good IsWord; decide⟩

example : Leads (sqlQueryParser ascii) "SELECT id, email FROM customers WHERE a != 1".toList sampleQuery [] :=
  (c79_queries ascii_ok rfl sampleQuery).2 sample_good

example : ∃ i xs r, Ends (sqlQueryParser ascii) i xs ∧ (sampleQuery, r) ∈ xs :=
  (c79_round_trip ascii_ok rfl sampleQuery).1 ((c79_queries ascii_ok rfl sampleQuery).2 sample_good)

example : Leads (sqlQueryParser ascii) ("SELECT id, email FROM customers WHERE a != 1".toList ++ ";".toList) sampleQuery ";".toList :=
  c79_reads ascii_ok (show_sql (cc := ascii) rfl (q := sampleQuery) sample_good) (by constructor <;> (intro c hc; cases hc; rfl))

example : Ends (selectParser ascii) "select id from t".toList [(["id".toList], " from t".toList), (["id".toList], " from t".toList)] :=
  c79_twice (s := "select".toList) (b := " ".toList) (c := "id".toList) (g := " ".toList) (r := "from t".toList) ascii_ok
    (by unfold Cased; decide) (by unfold Blank; decide) (by unfold IsWord; decide) (by unfold Gap Blank; decide)

example : ∃ s, "SELECT id, email FROM customers WHERE a != 1".toList = s ++ [] ∧ Sql ascii (Blank ascii) sampleQuery s := by
  obtain ⟨t, ht⟩ := (c79_queries ascii_ok rfl sampleQuery).2 sample_good
  exact c79_sound ascii ht (sampleQuery, []) (by simp)

private theorem bad_condition : Ends (conditionParser ascii) "id <= 4".toList [] := by
  obtain ⟨xs, hx⟩ := total_condition ascii "id <= 4".toList
  have e' : conditionParser ascii 20 "id <= 4".toList = some ⟨[]⟩ := by rfl
  rcases hx.2 20 with e | e
  · rw [e'] at e; cases e
  · rw [e'] at e
    injection e with e
    injection e with e
    exact e ▸ hx

example : Leads (sqlQueryParser ascii) "update t set x where id <= 4".toList (.Update ['t'] ['x'] (some [])) "id <= 4".toList :=
  c79_where_lost (s := "update".toList) (b := " ".toList) (tb := ['t']) (g := " ".toList) (s' := "set".toList) (b' := " ".toList)
    (v := ['x']) (g' := " ".toList) (s'' := "where".toList) (b'' := " ".toList) ascii_ok (by unfold Cased; decide)
    (by unfold Blank; decide) (by unfold IsWord; decide) (by unfold Gap Blank; decide) (by unfold Cased; decide)
    (by unfold Blank; decide) (by unfold IsWord; decide) (by unfold Gap Blank; decide) (by unfold Cased; decide)
    (by unfold Blank; decide) (by intro c hc; cases hc; rfl) bad_condition

end Runs

end Rustica.Parse
