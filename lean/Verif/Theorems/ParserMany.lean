import Verif.Theorems.Parser

/-!
# C78: `many`, and the combinators built on it
-/

namespace Rustica.Parse

variable {I O B C S LO RO : Type}

/-- Repetition without backtracking: take the first parse, go on with what it leaves, stop where the
parser fails. -/
inductive Greedy (p : Parser I O) : List I → List O → List I → Prop
  | stop {i : List I} : Ends p i [] → Greedy p i [] i
  | step {i r r' : List I} {a : O} {as : List O} {xs : List (O × List I)} :
      Ends p i ((a, r) :: xs) → Greedy p r as r' → Greedy p i (a :: as) r'

/-- The inputs that repetition goes through. -/
inductive Visits (p : Parser I O) : List I → List I → Prop
  | here {i : List I} : Visits p i i
  | next {i r j : List I} {a : O} {xs : List (O × List I)} :
      Ends p i ((a, r) :: xs) → Visits p r j → Visits p i j

theorem loop_cons {step : List I → Option (Choice (O × List I))} {k : Nat} {acc : List O} {i r : List I} {a : O}
    {xs : List (O × List I)} (h : step i = some ⟨(a, r) :: xs⟩) :
    Parser.manyLoop step (k + 1) acc i = Parser.manyLoop step k (acc ++ [a]) r := by
  rw [Parser.manyLoop, h]; rfl

theorem loop_nil {step : List I → Option (Choice (O × List I))} {k : Nat} {acc : List O} {i : List I}
    (h : step i = some ⟨[]⟩) : Parser.manyLoop step (k + 1) acc i = some (acc, i) := by
  rw [Parser.manyLoop, h]; rfl

theorem loop_none {step : List I → Option (Choice (O × List I))} {k : Nat} {acc : List O} {i : List I}
    (h : step i = none) : Parser.manyLoop step k acc i = none := by
  cases k with
  | zero => rfl
  | succ k => rw [Parser.manyLoop, h]; rfl

theorem Greedy.loop {p : Parser I O} {i r : List I} {as : List O} (h : Greedy p i as r) :
    (∃ n, ∀ m, n ≤ m → ∃ k0, ∀ k, k0 ≤ k → k0 ≤ n ∧
      ∀ acc, Parser.manyLoop (p m) k acc i = some (acc ++ as, r)) ∧
    ∀ m k acc, Parser.manyLoop (p m) k acc i = none ∨
      Parser.manyLoop (p m) k acc i = some (acc ++ as, r) := by
  induction h with
  | @stop i hi =>
    obtain ⟨⟨n, hn⟩, ho⟩ := hi
    constructor
    · refine ⟨n + 1, fun m hm => ⟨1, fun k hk => ⟨by omega, fun acc => ?_⟩⟩⟩
      obtain ⟨k, rfl⟩ : ∃ j, k = j + 1 := ⟨k - 1, by omega⟩
      rw [loop_nil (hn m (by omega)), List.append_nil]
    · intro m k acc
      cases k with
      | zero => exact .inl rfl
      | succ k =>
        rcases ho m with e | e
        · exact .inl (loop_none e)
        · right; rw [loop_nil e, List.append_nil]
  | @step i r r' a as xs hi _ ih =>
    obtain ⟨⟨n, hn⟩, ho⟩ := hi
    obtain ⟨⟨n', hn'⟩, ho'⟩ := ih
    constructor
    · refine ⟨max n n' + 1, fun m hm => ?_⟩
      obtain ⟨k0, hk0⟩ := hn' m (by omega)
      refine ⟨k0 + 1, fun k hk => ?_⟩
      obtain ⟨k, rfl⟩ : ∃ j, k = j + 1 := ⟨k - 1, by omega⟩
      obtain ⟨h1, h2⟩ := hk0 k (by omega)
      refine ⟨by omega, fun acc => ?_⟩
      rw [loop_cons (hn m (by omega)), h2]; simp
    · intro m k acc
      cases k with
      | zero => exact .inl rfl
      | succ k =>
        rcases ho m with e | e
        · exact .inl (loop_none e)
        · rw [loop_cons e]
          rcases ho' m k (acc ++ [a]) with e' | e'
          · exact .inl e'
          · right; rw [e']; simp

/-- C78: `many` returns the greedy repetition, as its only parse. -/
theorem c78_many {p : Parser I O} {i r : List I} {as : List O} (h : Greedy p i as r) :
    Ends p.many i [(as, r)] := by
  obtain ⟨⟨n, hn⟩, ho⟩ := h.loop
  constructor
  · refine ⟨n, fun m hm => ?_⟩
    obtain ⟨k0, hk0⟩ := hn m hm
    obtain ⟨hk, _⟩ := hk0 k0 (Nat.le_refl _)
    have := (hk0 m (by omega)).2 []
    unfold Parser.many
    rw [this]; rfl
  · intro m
    unfold Parser.many
    rcases ho m m [] with e | e
    · left; rw [e]; rfl
    · right; rw [e]; rfl

theorem loop_greedy {p : Parser I O} (ht : Total p) (m k : Nat) (acc : List O) (i : List I)
    {res : List O × List I} (h : Parser.manyLoop (p m) k acc i = some res) :
    ∃ as, res.1 = acc ++ as ∧ Greedy p i as res.2 := by
  induction k generalizing acc i with
  | zero => cases h
  | succ k ih =>
    obtain ⟨xs, hx⟩ := ht i
    rcases hx.2 m with e | e
    · rw [loop_none e] at h; cases h
    · cases xs with
      | nil =>
        rw [loop_nil e] at h
        cases h
        exact ⟨[], by simp, .stop hx⟩
      | cons q xs =>
        obtain ⟨a, r⟩ := q
        rw [loop_cons e] at h
        obtain ⟨as, h1, h2⟩ := ih _ r h
        exact ⟨a :: as, by simp [h1], .step hx h2⟩

theorem many_greedy {p : Parser I O} (ht : Total p) {m : Nat} {i : List I} {c : Choice (List O × List I)}
    (h : p.many m i = some c) : ∃ as r, c = ⟨[(as, r)]⟩ ∧ Greedy p i as r := by
  unfold Parser.many at h
  cases hl : Parser.manyLoop (p m) m [] i with
  | none => rw [hl] at h; cases h
  | some res =>
    rw [hl] at h
    cases h
    obtain ⟨as, h1, h2⟩ := loop_greedy ht m m [] i hl
    refine ⟨as, res.2, ?_, h2⟩
    obtain ⟨u, v⟩ := res
    simp only [List.nil_append] at h1
    rw [← h1]; rfl

/-- C78: exactly what `many` returns, and exactly when it runs for ever, for a parser that itself always
returns. -/
theorem c78_many_iff {p : Parser I O} (ht : Total p) (i : List I) (xs : List (List O × List I)) :
    (Ends p.many i xs ↔ ∃ as r, xs = [(as, r)] ∧ Greedy p i as r) ∧
    (Hangs p.many i ↔ ¬ ∃ as r, Greedy p i as r) := by
  refine ⟨⟨?_, ?_⟩, ⟨?_, ?_⟩⟩
  · rintro ⟨⟨n, hn⟩, _⟩
    obtain ⟨as, r, e, hg⟩ := many_greedy ht (hn n (Nat.le_refl n))
    exact ⟨as, r, by injection e, hg⟩
  · rintro ⟨as, r, rfl, hg⟩
    exact c78_many hg
  · rintro hh ⟨as, r, hg⟩
    exact (c78_many hg).not_hangs hh
  · intro hn m
    cases h : p.many m i with
    | none => rfl
    | some c =>
      obtain ⟨as, r, _, hg⟩ := many_greedy ht h
      exact absurd ⟨as, r, hg⟩ hn

theorem ends_within {p : Parser I O} (hw : Within p) {i : List I} {xs : List (O × List I)} (h : Ends p i xs) :
    ∀ q ∈ xs, q.2 <:+ i := by
  obtain ⟨⟨n, hn⟩, _⟩ := h
  exact hw n i _ (hn n (Nat.le_refl n))

theorem ends_shrinks {p : Parser I O} (hw : Shrinks p) {i : List I} {xs : List (O × List I)}
    (h : Ends p i xs) : ∀ q ∈ xs, q.2.length < i.length := by
  obtain ⟨⟨n, hn⟩, _⟩ := h
  exact fun q hq => (hw n i _ (hn n (Nat.le_refl n)) q hq).2

theorem greedy_or_stuck {p : Parser I O} (ht : Total p) (hw : Within p) (n : Nat) :
    ∀ i : List I, i.length ≤ n →
      (∃ as r, Greedy p i as r) ∨ ∃ j a xs, Visits p i j ∧ Ends p j ((a, j) :: xs) := by
  induction n with
  | zero =>
    intro i hi
    have : i = [] := List.length_eq_zero_iff.1 (by omega)
    subst this
    obtain ⟨xs, hx⟩ := ht []
    cases xs with
    | nil => exact .inl ⟨_, _, .stop hx⟩
    | cons q xs =>
      obtain ⟨a, r⟩ := q
      have hr := ends_within hw hx (a, r) (by simp)
      have : r = [] := List.suffix_nil.1 hr
      subst this
      exact .inr ⟨[], a, xs, .here, hx⟩
  | succ n ih =>
    intro i hi
    obtain ⟨xs, hx⟩ := ht i
    cases xs with
    | nil => exact .inl ⟨_, _, .stop hx⟩
    | cons q xs =>
      obtain ⟨a, r⟩ := q
      have hr : r <:+ i := ends_within hw hx (a, r) (by simp)
      by_cases hl : r.length = i.length
      · have : r = i := hr.eq_of_length hl
        subst this
        exact .inr ⟨r, a, xs, .here, hx⟩
      · have := hr.length_le
        rcases ih r (by omega) with ⟨as, r', hg⟩ | ⟨j, b, ys, hv, hj⟩
        · exact .inl ⟨_, _, .step hx hg⟩
        · exact .inr ⟨j, b, ys, .next hx hv, hj⟩

theorem Visits.stuck {p : Parser I O} {i j : List I} (hv : Visits p i j) {a : O} {xs : List (O × List I)}
    (hj : Ends p j ((a, j) :: xs)) : ¬ ∃ as r, Greedy p i as r := by
  induction hv with
  | @here i =>
    rintro ⟨as, r, hg⟩
    induction hg with
    | stop h => have := h.unique hj; cases this
    | step h _ ih =>
      have := h.unique hj
      simp only [List.cons.injEq, Prod.mk.injEq] at this
      obtain ⟨⟨_, rfl⟩, _⟩ := this
      exact ih hj
  | next h _ ih =>
    rintro ⟨as, r, hg⟩
    cases hg with
    | stop h' => have := h.unique h'; cases this
    | step h' hg' =>
      have := h.unique h'
      simp only [List.cons.injEq, Prod.mk.injEq] at this
      obtain ⟨⟨_, rfl⟩, _⟩ := this
      exact ih hj ⟨_, _, hg'⟩

/-- C78: `many` runs for ever exactly when it comes to an input on which the parser succeeds without
consuming anything. -/
theorem c78_hangs_iff {p : Parser I O} (ht : Total p) (hw : Within p) (i : List I) :
    Hangs p.many i ↔ ∃ j a xs, Visits p i j ∧ Ends p j ((a, j) :: xs) := by
  rw [(c78_many_iff ht i []).2]
  constructor
  · intro hn
    rcases greedy_or_stuck ht hw i.length i (Nat.le_refl _) with h | h
    · exact absurd h hn
    · exact h
  · rintro ⟨j, a, xs, hv, hj⟩
    exact hv.stuck hj

/-- C78: `many` of a parser that always consumes something returns on every input. -/
theorem c78_total_partial {p : Parser I O} (ht : Total p) (hs : Shrinks p) : Total p.many := by
  intro i
  rcases greedy_or_stuck ht hs.within i.length i (Nat.le_refl _) with ⟨as, r, h⟩ | ⟨j, a, xs, _, hj⟩
  · exact ⟨_, c78_many h⟩
  · exact absurd (ends_shrinks hs hj (a, j) (by simp)) (Nat.lt_irrefl _)

/-- C78 is false for parsers that may succeed on nothing: `item('a').optional().many()` and
`whitespace().many()`-like nestings never return, not even on the empty input. -/
theorem c78_total_false : ¬ ∀ p : Parser Nat Nat, Total p → Within p → Total p.optional.many := by
  intro h
  have ht : Total (item 0 : Parser Nat Nat) := total_new _
  have hw : Within (item 0 : Parser Nat Nat) := (c77_within (O := Nat) (B := Nat) (S := Nat)).1 0
  obtain ⟨xs, hx⟩ := h (item 0) ht hw []
  have ho : Total (item 0 : Parser Nat Nat).optional := fun i => by
    obtain ⟨ys, hy⟩ := ht i
    exact ⟨_, c77_optional hy⟩
  refine hx.not_hangs ((c78_hangs_iff ho hw.optional []).2 ⟨[], none, [], .here, ?_⟩)
  exact c77_optional (c77_basic 0 (fun _ => true) [] []).1

/-- C78: `many` of `many` never returns, whatever the parser. -/
theorem c78_many_many {p : Parser I O} (ht : Total p) (hw : Within p) (hm : Total p.many) (i : List I) :
    Hangs p.many.many i := by
  refine (c78_hangs_iff hm hw.many i).2 ?_
  obtain ⟨xs, hx⟩ := hm i
  obtain ⟨as, r, rfl, hg⟩ := ((c78_many_iff ht i xs).1).1 hx
  have hr : Ends p r [] := by
    clear hx
    induction hg with
    | stop h => exact h
    | step _ _ ih => exact ih
  exact ⟨r, [], [], .next hx .here, c78_many (.stop hr)⟩

/-- C78: repeating `satisfy` takes the longest run of accepted elements. -/
theorem c78_run (pred : I → Bool) (i : List I) :
    Ends (satisfy pred).many i [(i.takeWhile pred, i.dropWhile pred)] := by
  refine c78_many ?_
  have hsat : ∀ i : List I, Ends (satisfy pred) i
      (match i with | [] => [] | y :: r => if pred y then [(y, r)] else []) := by
    intro i
    have := ends_new (fun input : List I => match input with
      | first :: rest => if pred first then Choice.new (first, rest) [] else Choice.newEmpty
      | [] => Choice.newEmpty) i
    refine (congrArg (Ends (satisfy pred) i) ?_).mp this
    cases i with
    | nil => rfl
    | cons y r => by_cases h : pred y <;> simp [h, Choice.new, Choice.newEmpty]
  induction i with
  | nil => exact .stop (hsat [])
  | cons y r ih =>
    by_cases h : pred y
    · have := hsat (y :: r)
      simp only [h, if_true] at this
      simp only [List.takeWhile_cons, List.dropWhile_cons, h, if_true]
      exact .step this ih
    · have := hsat (y :: r)
      simp only [h] at this
      simp only [List.takeWhile_cons, List.dropWhile_cons, h]
      exact .stop this

/-- Greedy repetition from each of several places. -/
def GreedyAll (p : Parser I O) (xs : List (B × List I)) (g : B × List I → List O × List I) : Prop :=
  ∀ q ∈ xs, Greedy p q.2 (g q).1 (g q).2

theorem then_many {p : Parser I O} {r : Parser I B} {i : List I} {xs : List (O × List I)}
    {g : O × List I → List B × List I} (h : O → List B → C) (hp : Ends p i xs) (hg : GreedyAll r xs g) :
    Ends (p.andThen fun first => r.many.map fun rest => h first rest) i
      (xs.map fun q => (h q.1 (g q).1, (g q).2)) := by
  have := c77_and_then (f := fun first => r.many.map fun rest => h first rest)
    (ys := fun q => [(h q.1 (g q).1, (g q).2)]) hp fun q hq => c77_map (h q.1) (c78_many (hg q hq))
  have e : (xs.flatMap fun q => [(h q.1 (g q).1, (g q).2)]) = xs.map fun q => (h q.1 (g q).1, (g q).2) := by
    clear this hp hg
    induction xs with
    | nil => rfl
    | cons q xs ih => rw [List.flatMap_cons, ih]; rfl
  rwa [e] at this

/-- C78: `many1` and `sep_by1` are one parse followed by the greedy repetition, for every first parse. -/
theorem c78_many1 {p : Parser I O} {sep : Parser I S} {i : List I} {xs : List (O × List I)}
    {g h : O × List I → List O × List I} (hp : Ends p i xs) (hg : GreedyAll p xs g)
    (hh : GreedyAll (sep.andThen fun _ => p) xs h) :
    Ends p.many1 i (xs.map fun q => (q.1 :: (g q).1, (g q).2)) ∧
    Ends (p.sepBy1 sep) i (xs.map fun q => (q.1 :: (h q).1, (h q).2)) ∧
    Ends (p.sepBy sep) i ((xs.map fun q => (q.1 :: (h q).1, (h q).2)) ++ [([], i)]) := by
  have h1 := then_many (fun first rest => [first] ++ rest) hp hh
  refine ⟨then_many (fun first rest => [first] ++ rest) hp hg, h1, ?_⟩
  exact c77_or h1 (ends_new (fun input => Choice.new ([], input) []) i)

/-- C78: `chainl1` combines the operands from the left. -/
theorem c78_chainl1 {p : Parser I O} {op : Parser I (O → O → O)} {i : List I} {xs : List (O × List I)}
    {g : O × List I → List ((O → O → O) × O) × List I} (hp : Ends p i xs)
    (hg : GreedyAll (op.andThen fun f => p.map fun val => (f, val)) xs g) :
    Ends (p.chainl1 op) i (xs.map fun q => ((g q).1.foldl (fun acc s => s.1 acc s.2) q.1, (g q).2)) :=
  then_many (fun (first : O) (ops : List ((O → O → O) × O)) =>
    ops.foldl (fun (acc : O) (s : (O → O → O) × O) => s.1 acc s.2) first) hp hg

/-- C78: `between` keeps the results of the middle parser that are followed by the closing one. -/
theorem c78_between {l : Parser I LO} {r : Parser I RO} {p : Parser I O} {i : List I}
    {ls : List (LO × List I)} {xs : LO × List I → List (O × List I)} {rs : O × List I → List (RO × List I)}
    (hl : Ends l i ls) (hp : ∀ q ∈ ls, Ends p q.2 (xs q)) (hr : ∀ q ∈ ls, ∀ s ∈ xs q, Ends r s.2 (rs s)) :
    Ends (Parser.between l r p) i
      (ls.flatMap fun q => (xs q).flatMap fun s => (rs s).map fun e => (s.1, e.2)) := by
  refine c77_and_then hl fun q hq => ?_
  exact c77_and_then (hp q hq) fun s hs => c77_map (fun _ => s.1) (hr q hq s hs)

/-! ## Non-trivial instances -/

example : Greedy (satisfy fun x : Nat => x < 5) [1, 2, 7, 3] [1, 2] [7, 3] := by
  have h := ((c78_many_iff (total_new _) _ _).1).1 (c78_run (fun x : Nat => x < 5) [1, 2, 7, 3])
  obtain ⟨as, r, e, hg⟩ := h
  cases e
  exact hg

example : Ends (satisfy fun x : Nat => x < 5).many [1, 2, 7, 3] [([1, 2], [7, 3])] :=
  c78_run _ _

example : Total (satisfy fun x : Nat => x < 5).many := c78_total_partial (total_new _) fun m i c hc q hq => by
  cases hc
  cases i with
  | nil => cases hq
  | cons x r =>
    by_cases h : x < 5
    · have hq : q ∈ [(x, r)] := by simpa [h, Choice.new] using hq
      rcases List.mem_singleton.1 hq with rfl
      exact ⟨⟨[x], rfl⟩, Nat.lt_succ_self _⟩
    · simp [h, Choice.newEmpty] at hq

example : Hangs (satisfy fun x : Nat => x < 5).many.many [1, 2, 7, 3] :=
  c78_many_many (total_new _) ((c77_within (I := Nat) (O := Nat) (B := Nat) (S := Nat)).2.1 _)
    (fun i => ⟨_, c78_run _ i⟩) _

/-- A number below 5, and the separator 9. -/
private theorem low_ends (i : List Nat) : Ends (satisfy fun x : Nat => x < 5) i (match i with
    | [] => []
    | x :: r => if x < 5 then [(x, r)] else []) := by
  refine (congrArg (Ends _ i) ?_).mp (ends_new _ i)
  cases i with
  | nil => rfl
  | cons x r => by_cases h : x < 5 <;> simp [h, Choice.values, Choice.new, Choice.newEmpty]

private theorem low_greedy : Greedy (satisfy fun x : Nat => x < 5) [2, 7, 3] [2] [7, 3] :=
  .step (low_ends _) (.stop (low_ends _))

example : Ends (satisfy fun x : Nat => x < 5).many [2, 7, 3] [([2], [7, 3])] := c78_many low_greedy

private theorem sep_greedy : Greedy ((item 9 : Parser Nat Nat).andThen fun _ => satisfy fun x : Nat => x < 5) [9, 2, 7, 3] [2] [7, 3] := by
  refine .step (xs := []) ?_ (.stop ?_)
  · refine c77_and_then (ys := fun _ => [(2, [7, 3])]) (c77_basic 9 (fun _ => true) [] [9, 2, 7, 3]).1 fun q hq => ?_
    rcases List.mem_singleton.1 hq with rfl
    exact low_ends _
  · exact c77_and_then (ys := fun _ => [])  (c77_basic 9 (fun _ => true) [] [7, 3]).1 fun q hq => nomatch hq

/-- `c78_many1`: numbers below 5 in a row, or separated by 9. -/
example : Ends (satisfy fun x : Nat => x < 5).many1 [1, 2, 7, 3] [([1, 2], [7, 3])] :=
  (c78_many1 (sep := (item 7 : Parser Nat Nat)) (g := fun _ => ([2], [7, 3])) (h := fun _ => ([], [2, 7, 3])) (low_ends [1, 2, 7, 3])
    (fun q hq => by rcases List.mem_singleton.1 hq with rfl; exact low_greedy)
    (fun q hq => by
      rcases List.mem_singleton.1 hq with rfl
      exact .stop (c77_and_then (ys := fun _ => [])  (c77_basic 7 (fun _ => true) [] [2, 7, 3]).1 fun q hq => nomatch hq))).1

/-- `c78_chainl1`: numbers joined by 9, which stands for subtraction. -/
example : Ends (Parser.chainl1 (satisfy fun x : Nat => x < 5) ((item 9 : Parser Nat Nat).map fun _ a b => a - b))
    [4, 9, 2, 7, 3] [(2, [7, 3])] :=
  c78_chainl1 (g := fun _ => ([((fun a b => a - b), 2)], [7, 3])) (low_ends [4, 9, 2, 7, 3]) fun q hq => by
    rcases List.mem_singleton.1 hq with rfl
    refine .step (xs := []) ?_ (.stop ?_)
    · refine c77_and_then (ys := fun _ => [(((fun a b => a - b), 2), [7, 3])])
        (c77_map _ (c77_basic 9 (fun _ => true) [] [9, 2, 7, 3]).1) fun q hq => ?_
      rcases List.mem_singleton.1 hq with rfl
      exact c77_map _ (low_ends [2, 7, 3])
    · exact c77_and_then (ys := fun _ => []) (c77_map _ (c77_basic 9 (fun _ => true) [] [7, 3]).1) fun q hq => nomatch hq

/-- `c78_hangs_iff`: repeating a parser that accepts nothing does not return. -/
example : Hangs (Parser.optional (item 1 : Parser Nat Nat)).many [1, 2] := by
  have h1 : Ends (Parser.optional (item 1 : Parser Nat Nat)) [1, 2] [(some 1, [2])] := c77_optional (c77_basic 1 (fun _ => true) [] [1, 2]).1
  have h2 : Ends (Parser.optional (item 1 : Parser Nat Nat)) [2] [(none, [2])] := c77_optional (c77_basic 1 (fun _ => true) [] [2]).1
  refine (c78_hangs_iff (fun i => ⟨_, c77_optional (c77_basic 1 (fun _ => true) [] i).1⟩) ?_ _).2 ⟨[2], none, [], .next h1 .here, h2⟩
  exact Within.optional ((c77_within (I := Nat) (O := Nat) (B := Nat) (S := Nat)).1 1)

end Rustica.Parse
