import Verif.Examples.Parser

/-!
# C77, C78: the parser combinators of `examples/advanced_parser.rs`
-/

namespace Rustica.Parse

variable {I O B C S : Type}

/-- The call `p.parse(i)` returns, with the parses `xs` in this order (and no number of rounds gives
anything else). -/
def Ends (p : Parser I O) (i : List I) (xs : List (O × List I)) : Prop :=
  (∃ n, ∀ m, n ≤ m → p m i = some ⟨xs⟩) ∧ ∀ m, p m i = none ∨ p m i = some ⟨xs⟩

/-- The call `p.parse(i)` never returns. -/
def Hangs (p : Parser I O) (i : List I) : Prop := ∀ m, p m i = none

/-- `p.parse` returns on every input. -/
def Total (p : Parser I O) : Prop := ∀ i, ∃ xs, Ends p i xs

/-- What `p` leaves over is always the end of the input. -/
def Within (p : Parser I O) : Prop := ∀ m i c, p m i = some c → ∀ q ∈ c.values, q.2 <:+ i

/-- `p` always consumes something. -/
def Shrinks (p : Parser I O) : Prop :=
  ∀ m i c, p m i = some c → ∀ q ∈ c.values, q.2 <:+ i ∧ q.2.length < i.length

theorem Shrinks.within {p : Parser I O} (h : Shrinks p) : Within p :=
  fun m i c hc q hq => (h m i c hc q hq).1

theorem Ends.unique {p : Parser I O} {i : List I} {xs ys : List (O × List I)} (h : Ends p i xs)
    (h' : Ends p i ys) : xs = ys := by
  obtain ⟨⟨n, hn⟩, _⟩ := h
  have a := hn n (Nat.le_refl n)
  rcases h'.2 n with b | b
  · rw [a] at b; cases b
  · rw [a] at b; injection b with b; injection b

theorem Ends.not_hangs {p : Parser I O} {i : List I} {xs : List (O × List I)} (h : Ends p i xs) :
    ¬ Hangs p i := by
  obtain ⟨⟨n, hn⟩, _⟩ := h
  intro hh
  have a := hn n (Nat.le_refl n)
  rw [hh n] at a; cases a

theorem alt_values (a b : Choice O) : (RAlternative.alt a b : Choice O).values = a.values ++ b.values := by
  obtain ⟨a⟩ := a; obtain ⟨b⟩ := b
  cases a <;> cases b <;> simp [RAlternative.alt, Choice.new]

theorem alt_mk (a b : Choice O) : (RAlternative.alt a b : Choice O) = ⟨a.values ++ b.values⟩ := by
  rw [← alt_values a b]

/-! ## The loops of the combinators -/

/-- All calls of `g` one after the other, the answers concatenated. -/
def gather (g : O → Option (Choice B)) : List O → Option (List B)
  | [] => some []
  | q :: l => do
    let c ← g q
    let r ← gather g l
    some (c.values ++ r)

theorem foldlM_gather (g : O → Option (Choice B)) (l : List O) (acc : Choice B) :
    l.foldlM (fun combined q => do let c ← g q; some (RAlternative.alt combined c)) acc =
      (gather g l).map fun r => ⟨acc.values ++ r⟩ := by
  induction l generalizing acc with
  | nil => simp [gather, List.foldlM]
  | cons q l ih =>
    simp only [List.foldlM_cons, gather]
    cases hq : g q with
    | none => rfl
    | some c =>
      simp only [Option.bind_eq_bind, Option.bind_some]
      have := ih (RAlternative.alt acc c)
      simp only [Option.bind_eq_bind] at this
      rw [this]
      cases gather g l <;> simp [alt_values]

theorem gather_append (g : O → Option (Choice B)) (l k : List O) :
    gather g (l ++ k) = (gather g l).bind fun a => (gather g k).map fun b => a ++ b := by
  induction l with
  | nil => cases h : gather g k <;> simp [gather, h]
  | cons q l ih =>
    simp only [List.cons_append, gather, ih]
    cases g q with
    | none => rfl
    | some c => cases gather g l <;> cases gather g k <;> simp

theorem gather_some {g : O → Option (Choice B)} {l : List O} {ys : O → List B}
    (h : ∀ q ∈ l, g q = some ⟨ys q⟩) : gather g l = some (l.flatMap ys) := by
  induction l with
  | nil => rfl
  | cons q l ih => simp [gather, h q (by simp), ih fun q hq => h q (by simp [hq])]

theorem gather_or {g : O → Option (Choice B)} {l : List O} {ys : O → List B}
    (h : ∀ q ∈ l, g q = none ∨ g q = some ⟨ys q⟩) :
    gather g l = none ∨ gather g l = some (l.flatMap ys) := by
  induction l with
  | nil => exact .inr rfl
  | cons q l ih =>
    rcases h q (by simp) with e | e
    · left; simp [gather, e]
    · rcases ih fun q hq => h q (by simp [hq]) with e' | e'
      · left; simp [gather, e, e']
      · right; simp [gather, e, e']

theorem gather_mem {g : O → Option (Choice B)} {l : List O} {r : List B} (h : gather g l = some r) :
    ∀ b ∈ r, ∃ q ∈ l, ∃ c, g q = some c ∧ b ∈ c.values := by
  induction l generalizing r with
  | nil => simp only [gather, Option.some.injEq] at h; subst h; simp
  | cons q l ih =>
    simp only [gather, Option.bind_eq_bind] at h
    cases hq : g q with
    | none => rw [hq] at h; cases h
    | some c =>
      rw [hq] at h
      cases hl : gather g l with
      | none => rw [hl] at h; cases h
      | some s =>
        rw [hl] at h
        simp only [Option.bind_some, Option.some.injEq] at h
        subst h
        intro b hb
        rcases List.mem_append.1 hb with hb | hb
        · exact ⟨q, by simp, c, hq, hb⟩
        · obtain ⟨q', hq', rest⟩ := ih hl b hb
          exact ⟨q', by simp [hq'], rest⟩

theorem andThen_eq (p : Parser I O) (f : O → Parser I B) (n : Nat) (i : List I) :
    p.andThen f n i = (p n i).bind fun c => (gather (fun q => f q.1 n q.2) c.values).map Choice.mk := by
  unfold Parser.andThen
  cases p n i with
  | none => rfl
  | some c =>
    simp only [Option.bind_eq_bind, Option.bind_some]
    have := foldlM_gather (fun q : O × List I => f q.1 n q.2) c.values Choice.newEmpty
    simp only [Option.bind_eq_bind] at this
    rw [this]
    simp [Choice.newEmpty]

theorem or_eq (p q : Parser I O) (n : Nat) (i : List I) :
    p.or q n i = (p n i).bind fun a => (q n i).map fun b => ⟨a.values ++ b.values⟩ := by
  unfold Parser.or
  cases p n i with
  | none => rfl
  | some a =>
    simp only [Option.bind_eq_bind, Option.bind_some]
    split
    · rename_i he
      obtain ⟨a⟩ := a
      have : a = [] := by simpa [Choice.isEmpty] using he
      subst this
      cases q n i <;> simp
    · cases q n i <;> simp [alt_mk]

theorem foldl_map_alt (h : O → B) (l : List O) (acc : Choice B) :
    l.foldl (fun combined q => RAlternative.alt combined (Choice.new (h q) [])) acc =
      ⟨acc.values ++ l.map h⟩ := by
  induction l generalizing acc with
  | nil => simp
  | cons q l ih => rw [List.foldl_cons, ih]; simp [alt_values, Choice.new]

theorem map_eq (p : Parser I O) (f : O → B) (n : Nat) (i : List I) :
    p.map f n i = (p n i).map fun c => ⟨c.values.map fun q => (f q.1, q.2)⟩ := by
  unfold Parser.map
  cases p n i with
  | none => rfl
  | some c =>
    have := foldl_map_alt (fun q : O × List I => (f q.1, q.2)) c.values Choice.newEmpty
    simp only [Option.bind_eq_bind, Option.bind_some, Option.map_some, this]
    simp [Choice.newEmpty]

theorem apply_eq (fp : Parser I (O → B)) (vp : Parser I O) (n : Nat) (i : List I) :
    Parser.apply fp vp n i = (fp.andThen fun f => vp.map f) n i := by
  rw [andThen_eq]
  unfold Parser.apply
  cases fp n i with
  | none => rfl
  | some c =>
    simp only [Option.bind_eq_bind, Option.bind_some]
    have := foldlM_gather (fun q : (O → B) × List I => vp.map q.1 n q.2) c.values Choice.newEmpty
    simp only [Choice.newEmpty, List.nil_append] at this
    rw [← this]
    congr 1
    funext combined q
    rw [map_eq]
    cases vp n q.2 with
    | none => rfl
    | some v =>
      simp only [Option.bind_some, Option.map_some, Option.bind_eq_bind]
      rw [foldl_map_alt (fun r : O × List I => (q.1 r.1, r.2)), alt_mk]

/-! ## C77: what each combinator returns -/

/-- C77: `or` returns the parses of both parsers, those of the first one first. -/
theorem c77_or {p q : Parser I O} {i : List I} {xs ys : List (O × List I)} (hp : Ends p i xs)
    (hq : Ends q i ys) : Ends (p.or q) i (xs ++ ys) := by
  obtain ⟨⟨n, hn⟩, hp⟩ := hp
  obtain ⟨⟨k, hk⟩, hq⟩ := hq
  constructor
  · exact ⟨max n k, fun m hm => by rw [or_eq, hn m (by omega), hk m (by omega)]; rfl⟩
  · intro m
    rw [or_eq]
    rcases hp m with a | a <;> rcases hq m with b | b <;> simp [a, b]

theorem exists_bound {l : List O} {P : O → Nat → Prop} (h : ∀ q ∈ l, ∃ n, ∀ m, n ≤ m → P q m) :
    ∃ n, ∀ m, n ≤ m → ∀ q ∈ l, P q m := by
  induction l with
  | nil => exact ⟨0, fun _ _ q hq => by cases hq⟩
  | cons a l ih =>
    obtain ⟨n, hn⟩ := h a (by simp)
    obtain ⟨k, hk⟩ := ih fun q hq => h q (by simp [hq])
    refine ⟨max n k, fun m hm q hq => ?_⟩
    rcases List.mem_cons.1 hq with rfl | hq
    · exact hn m (by omega)
    · exact hk m (by omega) q hq

/-- C77: `and_then` runs the second parser on what each parse of the first one leaves, in order. -/
theorem c77_and_then {p : Parser I O} {f : O → Parser I B} {i : List I} {xs : List (O × List I)}
    {ys : O × List I → List (B × List I)} (hp : Ends p i xs) (hf : ∀ q ∈ xs, Ends (f q.1) q.2 (ys q)) :
    Ends (p.andThen f) i (xs.flatMap ys) := by
  obtain ⟨⟨n, hn⟩, hp⟩ := hp
  obtain ⟨k, hk⟩ := exists_bound fun q hq => (hf q hq).1
  constructor
  · refine ⟨max n k, fun m hm => ?_⟩
    rw [andThen_eq, hn m (by omega)]
    simp [gather_some fun q hq => hk m (by omega) q hq]
  · intro m
    rw [andThen_eq]
    rcases hp m with a | a
    · left; rw [a]; rfl
    · rw [a]
      rcases gather_or (g := fun q => f q.1 m q.2) (l := xs) fun q hq => (hf q hq).2 m with b | b
      · left; simp [b]
      · right; simp [b]

/-- C77: `map` changes the results and nothing else. -/
theorem c77_map {p : Parser I O} (f : O → B) {i : List I} {xs : List (O × List I)} (hp : Ends p i xs) :
    Ends (p.map f) i (xs.map fun q => (f q.1, q.2)) := by
  obtain ⟨⟨n, hn⟩, hp⟩ := hp
  constructor
  · exact ⟨n, fun m hm => by rw [map_eq, hn m hm]; rfl⟩
  · intro m
    rw [map_eq]
    rcases hp m with a | a <;> simp [a]

/-- C77: `apply` combines every parsed function with every parse of an argument after it. -/
theorem c77_apply {fp : Parser I (O → B)} {vp : Parser I O} {i : List I} {fs : List ((O → B) × List I)}
    {vs : (O → B) × List I → List (O × List I)} (hf : Ends fp i fs) (hv : ∀ g ∈ fs, Ends vp g.2 (vs g)) :
    Ends (Parser.apply fp vp) i (fs.flatMap fun g => (vs g).map fun v => (g.1 v.1, v.2)) := by
  have e : Parser.apply fp vp = fp.andThen fun f => vp.map f := by
    funext n i; exact apply_eq fp vp n i
  rw [e]
  exact c77_and_then hf fun g hg => c77_map g.1 (hv g hg)

/-- C77: `optional` keeps the first parse; without one it succeeds with `None` and consumes nothing. -/
theorem c77_optional {p : Parser I O} {i : List I} {xs : List (O × List I)} (hp : Ends p i xs) :
    Ends p.optional i [xs.head?.elim (none, i) fun q => (some q.1, q.2)] := by
  have e : ∀ m, p m i = some ⟨xs⟩ →
      p.optional m i = some ⟨[xs.head?.elim (none, i) fun q => (some q.1, q.2)]⟩ := by
    intro m hm
    unfold Parser.optional
    rw [hm]
    cases xs with
    | nil => rfl
    | cons q l => rfl
  obtain ⟨⟨n, hn⟩, hp⟩ := hp
  constructor
  · exact ⟨n, fun m hm => e m (hn m hm)⟩
  · intro m
    rcases hp m with a | a
    · left; unfold Parser.optional; rw [a]; rfl
    · exact .inr (e m a)

theorem ends_new (f : List I → Choice (O × List I)) (i : List I) : Ends (Parser.new f) i (f i).values :=
  ⟨⟨0, fun _ _ => rfl⟩, fun _ => .inr rfl⟩

/-- C77: `item`, `satisfy` and `sequence` accept exactly the inputs that begin as they say, and consume
exactly that beginning; on the others they fail. -/
theorem c77_basic [DecidableEq I] (x : I) (pred : I → Bool) (ws i : List I) :
    Ends (item x) i (match i with | [] => [] | y :: r => if y = x then [(y, r)] else []) ∧
    Ends (satisfy pred) i (match i with | [] => [] | y :: r => if pred y then [(y, r)] else []) ∧
    (∀ r, i = ws ++ r → Ends (sequence ws) i [(ws, r)]) ∧
    ((∀ r, i ≠ ws ++ r) → Ends (sequence ws) i []) := by
  refine ⟨?_, ?_, ?_, ?_⟩
  · have := ends_new (fun input : List I => match input with
      | first :: rest => if first = x then Choice.new (first, rest) [] else Choice.newEmpty
      | [] => Choice.newEmpty) i
    refine (congrArg (Ends (item x) i) ?_).mp this
    cases i with
    | nil => rfl
    | cons y r => by_cases h : y = x <;> simp [h, Choice.new, Choice.newEmpty]
  · have := ends_new (fun input : List I => match input with
      | first :: rest => if pred first then Choice.new (first, rest) [] else Choice.newEmpty
      | [] => Choice.newEmpty) i
    refine (congrArg (Ends (satisfy pred) i) ?_).mp this
    cases i with
    | nil => rfl
    | cons y r => by_cases h : pred y <;> simp [h, Choice.new, Choice.newEmpty]
  · rintro r rfl
    have := ends_new (fun input : List I =>
      if input.length ≥ ws.length ∧ input.take ws.length = ws then
        Choice.new (ws, input.drop ws.length) [] else Choice.newEmpty) (ws ++ r)
    refine (congrArg (Ends (sequence ws) (ws ++ r)) ?_).mp this
    simp [Choice.new]
  · intro h
    have := ends_new (fun input : List I =>
      if input.length ≥ ws.length ∧ input.take ws.length = ws then
        Choice.new (ws, input.drop ws.length) [] else Choice.newEmpty) i
    refine (congrArg (Ends (sequence ws) i) ?_).mp this
    rw [if_neg]
    · rfl
    · rintro ⟨_, e⟩
      exact h (i.drop ws.length) (by conv => lhs; rw [← List.take_append_drop ws.length i, e])

/-! ## C77: laws -/

/-- The parser that succeeds with `a` and consumes nothing (written out in `sep_by`, 230). -/
def pureP (a : O) : Parser I O := Parser.new fun input => Choice.new (a, input) []

/-- The parser that fails. -/
def failP : Parser I O := Parser.new fun _ => Choice.newEmpty

theorem gather_assoc (g : O → Option (Choice B)) (h : B → Option (Choice C)) (l : List O) :
    (gather g l).bind (gather h) =
      gather (fun q => (g q).bind fun c => (gather h c.values).map Choice.mk) l := by
  induction l with
  | nil => rfl
  | cons q l ih =>
    simp only [gather, ← ih]
    cases g q with
    | none => rfl
    | some c =>
      cases gather g l with
      | none =>
        simp only [Option.bind_eq_bind, Option.bind_some, Option.bind_none]
        cases gather h c.values <;> rfl
      | some r =>
        simp only [Option.bind_eq_bind, Option.bind_some, gather_append]
        cases gather h c.values <;> cases gather h r <;> rfl

theorem gather_singleton (h : O → B) (l : List O) :
    gather (fun q => some (Choice.new (h q) [])) l = some (l.map h) := by
  induction l with
  | nil => rfl
  | cons q l ih => rw [gather, ih]; rfl

/-- C77: `and_then` satisfies the monad laws, also where a parser does not return. -/
theorem c77_monad (p : Parser I O) (a : O) (f : O → Parser I B) (g : B → Parser I C) :
    (pureP a).andThen f = f a ∧ p.andThen pureP = p ∧
    (p.andThen f).andThen g = p.andThen fun a => (f a).andThen g := by
  refine ⟨?_, ?_, ?_⟩
  · funext n i
    rw [andThen_eq]
    simp only [pureP, Parser.new, Option.bind_some, Choice.new, List.append_nil, gather,
      Option.bind_eq_bind]
    cases f a n i <;> rfl
  · funext n i
    rw [andThen_eq]
    cases h : p n i with
    | none => rfl
    | some c =>
      have := gather_singleton (fun q : O × List I => (q.1, q.2)) c.values
      simp only [pureP, Parser.new, Option.bind_some]
      rw [this]
      simp
  · funext n i
    simp only [andThen_eq]
    cases p n i with
    | none => rfl
    | some c =>
      simp only [Option.bind_some]
      rw [← gather_assoc]
      cases gather (fun q => f q.1 n q.2) c.values <;> rfl

/-- C77: `map` is the functor that belongs to `and_then`, `apply` the applicative. -/
theorem c77_functor (p : Parser I O) (fp : Parser I (O → B)) (f : O → B) (g : B → C) :
    p.map f = (p.andThen fun a => pureP (f a)) ∧ (p.map fun a => a) = p ∧
    (p.map f).map g = (p.map fun a => g (f a)) ∧
    Parser.apply fp p = (fp.andThen fun h => p.andThen fun a => pureP (h a)) := by
  have h1 : ∀ {D : Type} (f : O → D) (p : Parser I O), p.map f = (p.andThen fun a => pureP (f a)) := by
    intro D f p
    funext n i
    rw [andThen_eq, map_eq]
    cases p n i with
    | none => rfl
    | some c =>
      have := gather_singleton (fun q : O × List I => (f q.1, q.2)) c.values
      simp only [pureP, Parser.new, Option.bind_some]
      rw [this]; rfl
  refine ⟨h1 f p, ?_, ?_, ?_⟩
  · funext n i
    rw [map_eq]
    cases p n i <;> simp
  · funext n i
    simp only [map_eq]
    cases p n i <;> simp
  · funext n i
    rw [apply_eq]
    congr 1
    funext h
    exact h1 h p

/-- C77: `or` is associative with the failing parser as identity, and `and_then` distributes over it from
the left. -/
theorem c77_or_laws (p q r : Parser I O) (f : O → Parser I B) :
    (p.or q).or r = p.or (q.or r) ∧ failP.or p = p ∧ p.or failP = p ∧
    (p.or q).andThen f = (p.andThen f).or (q.andThen f) ∧ (failP.andThen f : Parser I B) = failP := by
  refine ⟨?_, ?_, ?_, ?_, rfl⟩
  · funext n i
    simp only [or_eq]
    cases p n i <;> cases q n i <;> cases r n i <;> simp
  · funext n i
    rw [or_eq]
    cases p n i <;> simp [failP, Parser.new, Choice.newEmpty]
  · funext n i
    rw [or_eq]
    cases p n i <;> simp [failP, Parser.new, Choice.newEmpty]
  · funext n i
    rw [or_eq, andThen_eq, andThen_eq, andThen_eq, or_eq]
    cases p n i with
    | none => rfl
    | some a =>
      cases q n i with
      | none => simp
      | some b =>
        simp only [Option.bind_some, Option.map_some, gather_append]
        cases gather (fun q => f q.1 n q.2) a.values <;> cases gather (fun q => f q.1 n q.2) b.values <;>
          simp

/-- The documentation of `or`: "try this parser, if it fails, try the other". -/
def OrOnlyOnFailure : Prop := ∀ (p q : Parser Nat Nat) (i : List Nat) (xs : List (Nat × List Nat)),
  Ends p i xs → xs ≠ [] → Total q → Ends (p.or q) i xs

theorem total_new (f : List I → Choice (O × List I)) : Total (Parser.new f) := fun i => ⟨_, ends_new f i⟩

/-- C77 is false of `or` as documented: the other parser is tried also after a success. -/
theorem c77_or_false : ¬ OrOnlyOnFailure := by
  intro h
  have := h (item 1) (satisfy fun _ => true) [1] [(1, [])] (c77_basic 1 (fun _ => true) [] [1]).1 (by simp)
    (total_new _)
  have h2 := c77_or (c77_basic 1 (fun _ => true) [] [1]).1 (c77_basic 1 (fun _ => true) [] [1]).2.1
  have := this.unique h2
  revert this; decide

/-- C77: `label` does nothing, `skip` forgets the result. -/
theorem c77_label_skip (p : Parser I O) (l : List Char) (i : List I) (xs : List (O × List I))
    (h : Ends p i xs) : p.label l = p ∧ Ends p.skip i (xs.map fun q => ((), q.2)) :=
  ⟨rfl, c77_map (fun _ => ()) h⟩

/-! ## C77: nothing but the input is left over -/

theorem within_new {f : List I → Choice (O × List I)} (h : ∀ i, ∀ q ∈ (f i).values, q.2 <:+ i) :
    Within (Parser.new f) := by
  intro m i c hc q hq
  cases hc
  exact h i q hq

theorem Within.or {p q : Parser I O} (hp : Within p) (hq : Within q) : Within (p.or q) := by
  intro m i c hc
  rw [or_eq] at hc
  cases hp' : p m i with
  | none => rw [hp'] at hc; cases hc
  | some a =>
    cases hq' : q m i with
    | none => rw [hp', hq'] at hc; cases hc
    | some b =>
      rw [hp', hq'] at hc
      cases hc
      intro r hr
      rcases List.mem_append.1 hr with hr | hr
      · exact hp m i a hp' r hr
      · exact hq m i b hq' r hr

theorem andThen_mem {p : Parser I O} {f : O → Parser I B} {m : Nat} {i : List I} {c : Choice (B × List I)}
    (h : p.andThen f m i = some c) : ∀ r ∈ c.values, ∃ a, p m i = some a ∧ ∃ q ∈ a.values,
      ∃ d, f q.1 m q.2 = some d ∧ r ∈ d.values := by
  rw [andThen_eq] at h
  cases hp : p m i with
  | none => rw [hp] at h; cases h
  | some a =>
    rw [hp] at h
    cases hg : gather (fun q => f q.1 m q.2) a.values with
    | none => rw [Option.bind_some, hg] at h; cases h
    | some l =>
      rw [Option.bind_some, hg] at h
      cases h
      intro r hr
      obtain ⟨q, hq, d, hd, hr⟩ := gather_mem hg r hr
      exact ⟨a, rfl, q, hq, d, hd, hr⟩

theorem Within.andThen {p : Parser I O} {f : O → Parser I B} (hp : Within p) (hf : ∀ a, Within (f a)) :
    Within (p.andThen f) := by
  intro m i c hc r hr
  obtain ⟨a, ha, q, hq, d, hd, hr⟩ := andThen_mem hc r hr
  exact (hf q.1 m q.2 d hd r hr).trans (hp m i a ha q hq)

theorem Within.map {p : Parser I O} (hp : Within p) (f : O → B) : Within (p.map f) := by
  intro m i c hc r hr
  rw [map_eq] at hc
  cases h : p m i with
  | none => rw [h] at hc; cases hc
  | some a =>
    rw [h] at hc
    cases hc
    obtain ⟨q, hq, rfl⟩ := List.mem_map.1 hr
    exact hp m i a h q hq

theorem Within.optional {p : Parser I O} (hp : Within p) : Within p.optional := by
  intro m i c hc r hr
  unfold Parser.optional at hc
  cases h : p m i with
  | none => rw [h] at hc; cases hc
  | some a =>
    rw [h] at hc
    obtain ⟨a⟩ := a
    cases a with
    | nil =>
      cases hc
      have : r = (none, i) := by simpa [Choice.new] using hr
      rw [this]; exact List.suffix_refl i
    | cons q l =>
      cases hc
      have : r = (some q.1, q.2) := by simpa [Choice.new] using hr
      rw [this]; exact hp m i _ h q (by simp)

theorem manyLoop_within {step : List I → Option (Choice (O × List I))}
    (h : ∀ i c, step i = some c → ∀ q ∈ c.values, q.2 <:+ i) (k : Nat) (acc : List O) (i : List I)
    {r : List O × List I} (hr : Parser.manyLoop step k acc i = some r) : r.2 <:+ i := by
  induction k generalizing acc i with
  | zero => cases hr
  | succ k ih =>
    unfold Parser.manyLoop at hr
    cases hs : step i with
    | none => rw [hs] at hr; cases hr
    | some c =>
      rw [hs] at hr
      obtain ⟨c⟩ := c
      cases c with
      | nil => cases hr; exact List.suffix_refl i
      | cons q l =>
        obtain ⟨a, rest⟩ := q
        exact (ih _ rest hr).trans (h i _ hs (a, rest) (by simp))

theorem Within.many {p : Parser I O} (hp : Within p) : Within p.many := by
  intro m i c hc r hr
  unfold Parser.many at hc
  cases h : Parser.manyLoop (p m) m [] i with
  | none => rw [h] at hc; cases hc
  | some a =>
    rw [h] at hc
    cases hc
    have : r = a := by simpa [Choice.new] using hr
    rw [this]
    exact manyLoop_within (fun j c hj => hp m j c hj) m [] i h

/-- C77: if parsers only leave over ends of their input, so do all combinations of them. -/
theorem c77_within [DecidableEq I] :
    (∀ x : I, Within (item x)) ∧ (∀ pred : I → Bool, Within (satisfy pred)) ∧
    (∀ ws : List I, Within (sequence ws)) ∧
    (∀ (p q : Parser I O), Within p → Within q → Within (p.or q)) ∧
    (∀ (p : Parser I O) (f : O → Parser I B), Within p → (∀ a, Within (f a)) → Within (p.andThen f)) ∧
    (∀ (p : Parser I O) (fp : Parser I (O → B)), Within p → Within fp → Within (Parser.apply fp p)) ∧
    (∀ (p : Parser I O) (f : O → B), Within p → Within (p.map f)) ∧
    (∀ (p : Parser I O) (sep : Parser I S), Within p → Within sep → Within p.optional ∧ Within p.many ∧
      Within p.many1 ∧ Within (p.sepBy sep) ∧ Within (p.sepBy1 sep)) := by
  refine ⟨?_, ?_, ?_, fun p q hp hq => hp.or hq, fun p f hp hf => hp.andThen hf, ?_,
    fun p f hp => hp.map f, ?_⟩
  · refine fun x => within_new fun i q hq => ?_
    cases i with
    | nil => cases hq
    | cons y r =>
      by_cases h : y = x
      · simp only [h, if_true, Choice.new, List.cons_append, List.nil_append, List.mem_singleton] at hq
        rw [hq]; exact List.suffix_cons _ _
      · simp [h, Choice.newEmpty] at hq
  · refine fun pred => within_new fun i q hq => ?_
    cases i with
    | nil => cases hq
    | cons y r =>
      by_cases h : pred y
      · simp only [h, if_true, Choice.new, List.cons_append, List.nil_append, List.mem_singleton] at hq
        rw [hq]; exact List.suffix_cons _ _
      · simp [h, Choice.newEmpty] at hq
  · refine fun ws => within_new fun i q hq => ?_
    split at hq
    · simp only [Choice.new, List.cons_append, List.nil_append, List.mem_singleton] at hq
      rw [hq]; exact List.drop_suffix _ _
    · cases hq
  · intro p fp hp hf
    have e : Parser.apply fp p = fp.andThen fun f => p.map f := by
      funext n i; exact apply_eq fp p n i
    rw [e]
    exact hf.andThen fun f => hp.map f
  · intro p sep hp hs
    have h1 : Within (p.sepBy1 sep) := hp.andThen fun first => ((hs.andThen fun _ => hp).many).map _
    refine ⟨hp.optional, hp.many, hp.andThen fun first => hp.many.map _, ?_, h1⟩
    exact Within.or h1 (within_new fun i q hq => by
      simp only [Choice.new, List.cons_append, List.nil_append, List.mem_singleton] at hq
      rw [hq]; exact List.suffix_refl i)

/-- C77: the text of a `ParseError` names position, message, and what was expected and found as far as they
are known; the builders set one field and leave the others. -/
theorem c77_error (msg e f : String) (pos : Nat) :
    (ParseError.new msg pos).text = "Parse error at position " ++ toString pos ++ ": " ++ msg ++ "" ++ "" ∧
    (((ParseError.new msg pos).withExpected e).withFound f).text =
      "Parse error at position " ++ toString pos ++ ": " ++ msg ++ (" (expected: " ++ e ++ ")") ++
        (" (found: " ++ f ++ ")") ∧
    ((ParseError.new msg pos).withExpected e).withFound f =
      ((ParseError.new msg pos).withFound f).withExpected e ∧
    ((ParseError.new msg pos).withFound f).expected = none ∧
    ((ParseError.new msg pos).withExpected e).found = none :=
  ⟨rfl, rfl, rfl, rfl, rfl⟩

/-! ## Non-trivial instances -/

example : Ends (item 1 : Parser Nat Nat) [1, 2] [(1, [2])] := (c77_basic 1 (fun _ => true) [] [1, 2]).1

example : Ends ((item 1).or (satisfy fun x : Nat => x < 5)) [1, 2] [(1, [2]), (1, [2])] :=
  c77_or (c77_basic 1 (fun x => decide (x < 5)) [] [1, 2]).1 (c77_basic 1 (fun x => decide (x < 5)) [] [1, 2]).2.1

example : Ends ((item 1 : Parser Nat Nat).andThen fun a => (item 2).map fun b => (a, b)) [1, 2, 3]
    [((1, 2), [3])] :=
  c77_and_then (ys := fun q => [((q.1, 2), [3])]) (c77_basic 1 (fun _ => true) [] [1, 2, 3]).1 fun q hq => by
    rcases List.mem_singleton.1 hq with rfl
    exact c77_map (fun b => (1, b)) (c77_basic 2 (fun _ => true) [] [2, 3]).1

example : Ends (item 1 : Parser Nat Nat).optional [2] [(none, [2])] :=
  c77_optional (c77_basic 1 (fun _ => true) [] [2]).1

example : Ends (Parser.apply ((item 1 : Parser Nat Nat).map fun a b => a + b) (item 2)) [1, 2, 3] [(3, [3])] :=
  c77_apply (vs := fun _ => [(2, [3])]) (c77_map _ (c77_basic 1 (fun _ => true) [] [1, 2, 3]).1) fun g hg => by
    rcases List.mem_singleton.1 hg with rfl
    exact (c77_basic 2 (fun _ => true) [] [2, 3]).1

example : Ends (item 1 : Parser Nat Nat).skip [1, 2] [((), [2])] :=
  (c77_label_skip _ [] _ _ (c77_basic 1 (fun _ => true) [] [1, 2]).1).2

end Rustica.Parse
