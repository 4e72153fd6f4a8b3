import Verif.Utils.Utils
import Verif.Theorems.Validated
import Verif.Theorems.Functor

/-!
# C34, C35: the helper functions of `src/utils`
-/

namespace Rustica

section
variable {σ A B C D E F T U S : Type}

/-! ## C34 -/

/-- Specification: apply an effectful step to every element, in order, and keep all outcomes. -/
def runAll (f : A → Eff σ (Except E B)) : List A → Eff σ (List (Except E B))
  | [], w => ([], w)
  | a :: as, w => ((f a w).1 :: (runAll f as (f a w).2).1, (runAll f as (f a w).2).2)

/-- Specification: the values among outcomes, the errors among outcomes. -/
def oks : List (Except E B) → List B
  | [] => []
  | .ok b :: rest => b :: oks rest
  | .error _ :: rest => oks rest
/-- See `oks`. -/
def errs : List (Except E B) → List E
  | [] => []
  | .ok _ :: rest => errs rest
  | .error e :: rest => e :: errs rest

theorem traverseLoop_spec (f : A → Eff σ (Except E B)) (as : List A) (acc : List B) (w : σ) :
    ((errs (runAll f as w).1 = [] → traverseLoop f as acc w = (.ok (acc ++ oks (runAll f as w).1),
      (runAll f as w).2))) ∧
    (∀ pre a post w1 e w2, as = pre ++ a :: post → errs (runAll f pre w).1 = [] → (runAll f pre w).2 = w1 →
      f a w1 = (.error e, w2) → traverseLoop f as acc w = (.error e, w2)) := by
  induction as generalizing acc w with
  | nil =>
    refine ⟨fun _ => by simp [traverseLoop, runAll, oks], ?_⟩
    intro pre a post w1 e w2 h
    simp at h
  | cons x xs ih =>
    constructor
    · intro h
      simp only [runAll] at h ⊢
      rcases hf : f x w with ⟨o, w'⟩
      rw [hf] at h
      cases o with
      | error e => simp [errs] at h
      | ok b =>
        simp only [traverseLoop, hf]
        rw [(ih (acc ++ [b]) w').1 (by simpa [errs] using h)]
        simp [oks]
    · intro pre a post w1 e w2 h hpre hw hfa
      cases pre with
      | nil =>
        simp only [List.nil_append, List.cons.injEq] at h
        obtain ⟨rfl, rfl⟩ := h
        simp only [runAll] at hw
        subst hw
        simp [traverseLoop, hfa]
      | cons p ps =>
        simp only [List.cons_append, List.cons.injEq] at h
        obtain ⟨rfl, rfl⟩ := h
        simp only [runAll] at hpre hw
        rcases hf : f x w with ⟨o, w'⟩
        rw [hf] at hpre hw
        cases o with
        | error e => simp [errs] at hpre
        | ok b =>
          simp only [traverseLoop, hf]
          exact (ih (acc ++ [b]) w').2 ps a post w1 e w2 rfl (by simpa [errs] using hpre) hw hfa

/-- `traverse` with no failing step: every element is visited once, in order, and the results are in order. -/
theorem c34_traverse_ok (f : A → Eff σ (Except E B)) (as : List A) (w : σ)
    (h : errs (runAll f as w).1 = []) :
    traverse as f w = (.ok (oks (runAll f as w).1), (runAll f as w).2) := by
  simpa [traverse] using (traverseLoop_spec f as [] w).1 h

/-- `traverse` with a failing step: if the elements before `a` succeed and the step on `a` fails, the result is
that error, and no element after `a` is visited: the world is the one right after the step on `a`. -/
theorem c34_traverse_err (f : A → Eff σ (Except E B)) (pre : List A) (a : A) (post : List A) (w : σ) (e : E)
    (w2 : σ) (hpre : errs (runAll f pre w).1 = []) (ha : f a (runAll f pre w).2 = (.error e, w2)) :
    traverse (pre ++ a :: post) f w = (.error e, w2) :=
  (traverseLoop_spec f (pre ++ a :: post) [] w).2 pre a post _ e w2 rfl hpre rfl ha

example : traverse [2, 4] (fun (n calls : Nat) =>
    (if n % 2 = 0 then (.ok n : Except Nat Nat) else .error n, calls + 1)) 0 = (.ok [2, 4], 2) := c34_traverse_ok _ _ _ rfl
example : traverse ([2, 4] ++ 5 :: [6, 7]) (fun (n calls : Nat) =>
    (if n % 2 = 0 then (.ok n : Except Nat Nat) else .error n, calls + 1)) 0 = (.error 5, 3) :=
  c34_traverse_err _ _ _ _ _ _ _ rfl rfl

/-- The two cases are exhaustive: either no step fails, or there is a first failing step. -/
theorem c34_traverse_cases (f : A → Eff σ (Except E B)) (as : List A) (w : σ) :
    errs (runAll f as w).1 = [] ∨
    ∃ pre a post e w2, as = pre ++ a :: post ∧ errs (runAll f pre w).1 = [] ∧
      f a (runAll f pre w).2 = (.error e, w2) := by
  induction as generalizing w with
  | nil => exact .inl rfl
  | cons x xs ih =>
    rcases hf : f x w with ⟨o, w'⟩
    cases o with
    | error e => exact .inr ⟨[], x, xs, e, w', rfl, rfl, hf⟩
    | ok b =>
      rcases ih w' with h | ⟨pre, a, post, e, w2, h1, h2, h3⟩
      · refine .inl ?_
        simp only [runAll, hf, errs]
        exact h
      · refine .inr ⟨x :: pre, a, post, e, w2, by rw [h1]; rfl, ?_, ?_⟩
        · simp only [runAll, hf, errs]; exact h2
        · simp only [runAll, hf]; exact h3

/-- A step that counts its calls and fails on odd numbers: it is called twice on `[2, 3, 4]`. -/
example : traverse [2, 3, 4] (fun (n calls : Nat) =>
    (if n % 2 = 0 then (.ok n : Except Nat Nat) else .error n, calls + 1)) 0 = (.error 3, 2) := by rfl

theorem traverseValidatedLoop_spec (f : A → Eff σ (Except E B)) (as : List A) (vs : List B) (es : List E)
    (had : Bool) (w : σ) :
    traverseValidatedLoop f as (vs, es, had) w =
      ((vs ++ oks (runAll f as w).1, es ++ errs (runAll f as w).1,
        had || !(errs (runAll f as w).1).isEmpty), (runAll f as w).2) := by
  induction as generalizing vs es had w with
  | nil => simp [traverseValidatedLoop, runAll, oks, errs]
  | cons x xs ih =>
    simp only [runAll]
    rcases hf : f x w with ⟨o, w'⟩
    cases o with
    | ok b => simp only [traverseValidatedLoop, hf, ih]; simp [oks, errs]
    | error e => simp only [traverseValidatedLoop, hf, ih]; simp [oks, errs]

/-- `traverse_validated` visits every element, in order, and reports all errors in order, or all values. -/
theorem c34_traverse_validated (f : A → Eff σ (Except E B)) (as : List A) (w : σ) :
    traverseValidated as f w =
      (if errs (runAll f as w).1 = [] then .Valid (oks (runAll f as w).1)
       else .Invalid (errs (runAll f as w).1), (runAll f as w).2) := by
  simp only [traverseValidated, traverseValidatedLoop_spec]
  cases h : errs (runAll f as w).1 <;> simp

example : traverseValidated [2, 3, 4, 5] (fun (n calls : Nat) =>
    (if n % 2 = 0 then (.ok n : Except Nat Nat) else .error n, calls + 1)) 0 = (.Invalid [3, 5], 4) := by rfl

/-- C27 for `traverse_validated`: valid iff no step fails; otherwise exactly the errors of the failing steps, in
input order. -/
theorem c27_traverse_validated (f : A → Eff σ (Except E B)) (as : List A) (w : σ) :
    (IsV (traverseValidated as f w).1 ↔ errs (runAll f as w).1 = []) ∧
    errsOf (traverseValidated as f w).1 = errs (runAll f as w).1 := by
  rw [c34_traverse_validated]
  by_cases h : errs (runAll f as w).1 = []
  · simp [h, IsV, errsOf]
  · simp [h, IsV, errsOf]

theorem sequenceLoop_spec (rs : List (Except E A)) (acc : List A) :
    sequenceLoop rs acc =
      match errs rs with
      | [] => .ok (acc ++ oks rs)
      | e :: _ => .error e := by
  induction rs generalizing acc with
  | nil => simp [sequenceLoop, errs, oks]
  | cons r rs ih =>
    cases r with
    | ok a =>
      rw [sequenceLoop, ih]
      simp only [errs, oks, List.append_assoc, List.singleton_append]
    | error e => simp [sequenceLoop, errs]

/-- `sequence`: the first error in order, or all values in order. -/
theorem c34_sequence (rs : List (Except E A)) :
    sequence rs = match errs rs with
      | [] => .ok (oks rs)
      | e :: _ => .error e := by
  rw [sequence, sequenceLoop_spec]
  rfl

/-- `sequence_results` is the same function. -/
theorem c34_sequence_results (rs : List (Except E A)) :
    sequenceResults rs = match errs rs with
      | [] => .ok (oks rs)
      | e :: _ => .error e := by
  rw [sequenceResults]
  induction rs with
  | nil => rfl
  | cons r rs ih =>
    cases r with
    | ok a =>
      simp only [collectResults, errs, oks]
      rw [ih]
      cases errs rs <;> rfl
    | error e => simp [collectResults, errs]

/-- `sequence_options`: `None` if there is a `None`, otherwise all values in order. -/
theorem c34_sequence_options (os : List (Option A)) :
    (none ∈ os → sequenceOptions os = none) ∧ (∀ as : List A, os = as.map some → sequenceOptions os = some as) ∧
    (none ∉ os → ∃ as : List A, os = as.map some) := by
  rw [sequenceOptions]
  induction os with
  | nil =>
    refine ⟨by simp, ?_, fun _ => ⟨[], rfl⟩⟩
    intro as h
    cases as with
    | nil => rfl
    | cons => simp at h
  | cons o os ih =>
    obtain ⟨ih1, ih2, ih3⟩ := ih
    cases o with
    | none =>
      refine ⟨fun _ => rfl, ?_, by simp⟩
      intro as h
      cases as <;> simp at h
    | some a =>
      refine ⟨?_, ?_, ?_⟩
      · intro h
        have : none ∈ os := by simpa using h
        simp [collectOptions, ih1 this]
      · intro as h
        cases as with
        | nil => simp at h
        | cons b bs =>
          simp only [List.map_cons, List.cons.injEq, Option.some.injEq] at h
          obtain ⟨rfl, h⟩ := h
          simp [collectOptions, ih2 bs h]
      · intro h
        obtain ⟨as, has⟩ := ih3 (by simpa using h)
        exact ⟨a :: as, by simp [has]⟩

example : sequenceOptions [some 1, none, some 2] = none ∧ sequenceOptions [some 1, some 2] = some [1, 2] := by
  decide

theorem sequenceWithErrorLoop_spec [RWithError C E S] (into : S → T) (cs : List C) (acc : List T)
    (rs : List (Except E S)) (h : cs.map RWithError.toResult = rs.map some) :
    sequenceWithErrorLoop into cs acc = some (match errs rs with
      | [] => .ok (acc ++ (oks rs).map into)
      | e :: _ => .error e) := by
  induction cs generalizing acc rs with
  | nil =>
    cases rs with
    | nil => simp [sequenceWithErrorLoop, errs, oks]
    | cons => simp at h
  | cons c cs ih =>
    cases rs with
    | nil => simp at h
    | cons r rs =>
      simp only [List.map_cons, List.cons.injEq] at h
      obtain ⟨hc, h⟩ := h
      cases r with
      | ok s =>
        simp only [sequenceWithErrorLoop, hc]
        rw [ih _ rs h]
        simp [errs, oks]
      | error e => simp [sequenceWithErrorLoop, hc, errs]

/-- `sequence_with_error`: over items whose `to_result` does not panic, the first error or all converted values.
(`to_result` panics only on an empty `Invalid`, `c29_validated_to_result`.) -/
theorem c34_sequence_with_error [RWithError C E S] (into : S → T) (cs : List C) (rs : List (Except E S))
    (h : cs.map RWithError.toResult = rs.map some) :
    sequenceWithError into cs = some (match errs rs with
      | [] => .ok ((oks rs).map into)
      | e :: _ => .error e) := by
  rw [sequenceWithError, sequenceWithErrorLoop_spec into cs [] rs h]
  rfl

example : sequenceWithError id [Either.Right 1, Either.Left 9, Either.Left 8, (.Right 2 : Either Nat Nat)] =
    some (.error 9) := c34_sequence_with_error id _ [.ok 1, .error 9, .error 8, .ok 2] rfl

/-- `sequence_with_error`: an item whose `to_result` panics makes the whole call panic exactly when it is reached, that
is, when everything before it succeeded. -/
theorem c34_sequence_with_error_panics [RWithError C E S] (into : S → T) (pre post : List C) (c : C)
    (rs : List (Except E S)) (h : pre.map RWithError.toResult = rs.map some)
    (hc : (RWithError.toResult c : Option (Except E S)) = none) :
    (sequenceWithError into (pre ++ c :: post) : Option (Except E (List T))) = none ↔ errs rs = [] := by
  have key : ∀ (acc : List T), (sequenceWithErrorLoop into (pre ++ c :: post) acc : Option (Except E (List T))) = none ↔
      errs rs = [] := by
    induction pre generalizing rs with
    | nil =>
      cases rs with
      | nil => intro acc; simp [sequenceWithErrorLoop, hc, errs]
      | cons => simp at h
    | cons d pre ih =>
      cases rs with
      | nil => simp at h
      | cons r rs =>
        simp only [List.map_cons, List.cons.injEq] at h
        obtain ⟨hd, h⟩ := h
        intro acc
        cases r with
        | ok s =>
          simp only [List.cons_append, sequenceWithErrorLoop, hd]
          rw [ih rs h]
          simp [errs]
        | error e => simp [sequenceWithErrorLoop, hd, errs]
  exact key []

example : sequenceWithError id [Either.Right 1, Either.Left 9, Either.Left 8, (.Right 2 : Either Nat Nat)] =
    some (.error 9) := rfl

/-- Specification: run operations one after the other on the value produced by the previous one, as long as
they succeed; the number of operations executed is returned too. -/
def runOps : List (B → Eff σ (Except E B)) → B → σ → (Except E B × σ) × Nat
  | [], b, w => ((.ok b, w), 0)
  | op :: ops, b, w =>
    match op b w with
    | (.error e, w') => ((.error e, w'), 1)
    | (.ok b', w') => ((runOps ops b' w').1, (runOps ops b' w').2 + 1)

theorem pipelineFold_error (ops : List (B → Eff σ (Except E B))) (e : E) (w : σ) :
    pipelineFold ops (.error e) w = (.error e, w) := by
  induction ops with
  | nil => rfl
  | cons op ops ih => simpa [pipelineFold] using ih

theorem pipelineFold_ok (ops : List (B → Eff σ (Except E B))) (b : B) (w : σ) :
    pipelineFold ops (.ok b) w = (runOps ops b w).1 := by
  induction ops generalizing b w with
  | nil => rfl
  | cons op ops ih =>
    simp only [pipelineFold, runOps]
    rcases h : op b w with ⟨o, w'⟩
    cases o with
    | ok b' => simpa using ih b' w'
    | error e => simpa using pipelineFold_error ops e w'

/-- `pipeline_result`/`try_pipeline`: the operations run in order on each other's results; after the first
error no further operation runs and that error is returned. -/
theorem c34_pipeline_result (into : A → B) (a : A) (ops : List (B → Eff σ (Except E B))) (w : σ) :
    pipelineResult into a ops w = (runOps ops (into a) w).1 := by
  cases ops with
  | nil => rfl
  | cons op ops =>
    simp only [pipelineResult, runOps]
    rcases h : op (into a) w with ⟨o, w'⟩
    cases o with
    | ok b => simpa using pipelineFold_ok ops b w'
    | error e => simpa using pipelineFold_error ops e w'

/-- The specification stops exactly at the first failing operation. -/
theorem c34_runOps (ops : List (B → Eff σ (Except E B))) (b : B) (w : σ) :
    (runOps ops b w).2 ≤ ops.length ∧
    runOps (ops.take (runOps ops b w).2) b w = runOps ops b w := by
  induction ops generalizing b w with
  | nil => exact ⟨Nat.le_refl _, rfl⟩
  | cons op ops ih =>
    rcases h : op b w with ⟨o, w'⟩
    cases o with
    | error e => simp [runOps, h]
    | ok b' =>
      obtain ⟨h1, h2⟩ := ih b' w'
      simp only [runOps, h, List.length_cons, List.take_succ_cons]
      exact ⟨by omega, by rw [h2]⟩

/-- An `Option` as a `Result` with a unit error. -/
def asResult : Option B → Except Unit B
  | some b => .ok b
  | none => .error ()

/-- `pipeline_option` is `pipeline_result` with a unit error. -/
theorem c34_pipeline_option (into : A → B) (a : A) (ops : List (B → Eff σ (Option B))) (w : σ) :
    (asResult (pipelineOption into a ops w).1, (pipelineOption into a ops w).2) =
      (runOps (ops.map fun op b w => (asResult (op b w).1, (op b w).2)) (into a) w).1 := by
  rw [pipelineOption]
  generalize into a = b
  induction ops generalizing b w with
  | nil => rfl
  | cons op ops ih =>
    simp only [tryFoldOption, List.map_cons, runOps]
    rcases h : op b w with ⟨o, w'⟩
    cases o with
    | some b' => simpa [asResult] using ih w' b'
    | none => simp [asResult]

example : pipelineResult id 5 [fun (n calls : Nat) => (.ok (n + 1), calls + 1),
    fun n calls => (.error n, calls + 1), fun n calls => (.ok n, calls + 1)] 0 =
      ((.error 6 : Except Nat Nat), 2) := rfl

/-! ## C35 -/

theorem foldl_push_filterMap (f : T → Option U) (xs : List T) (acc : List U) :
    xs.foldl (fun result item => match f item with
      | some value => result ++ [value]
      | none => result) acc = acc ++ xs.filterMap f := by
  induction xs generalizing acc with
  | nil => simp
  | cons x xs ih =>
    rw [List.foldl_cons, ih, List.filterMap_cons]
    cases f x <;> simp

/-- `filter_map_collect` is `filter_map`. -/
theorem c35_filter_map_collect (xs : List T) (f : T → Option U) : filterMapCollect xs f = xs.filterMap f := by
  exact (foldl_push_filterMap f xs []).trans (by simp)

/-- `filter_map` of `hkt_utils`: filter, then map. -/
theorem c35_filter_map (xs : List A) (p : A → Bool) (f : A → B) :
    filterMap' xs p f = (xs.filter p).map f := by
  have H : ∀ acc : List B, xs.foldl (fun result item => if p item then result ++ [f item] else result) acc =
      acc ++ (xs.filter p).map f := by
    induction xs with
    | nil => simp
    | cons x xs ih =>
      intro acc
      rw [List.foldl_cons, ih]
      by_cases h : p x = true <;> simp [h]
  simpa [filterMap'] using H []

/-- `zip_with`: pairs up to the shorter length, elementwise. -/
theorem c35_zip_with (xs : List A) (ys : List B) (f : A → B → C) :
    (zipWith' xs ys f).length = min xs.length ys.length ∧
    ∀ i (h1 : i < xs.length) (h2 : i < ys.length), (zipWith' xs ys f)[i]? = some (f xs[i] ys[i]) := by
  constructor
  · simp [zipWith']
  · intro i h1 h2
    have h3 : i < (xs.zip ys).length := by rw [List.length_zip]; omega
    simp only [zipWith', List.getElem?_map, List.getElem?_eq_getElem h3, List.getElem_zip, Option.map_some]

/-- `fan_out`: every operation applied to the input, in order. -/
theorem c35_fan_out (a : A) (ops : List (A → B)) :
    (fanOut a ops).length = ops.length ∧
    ∀ i (h : i < ops.length), (fanOut a ops)[i]? = some (ops[i] a) := by
  constructor
  · simp [fanOut]
  · intro i h; simp [fanOut, h]

/-- `compose_all` applies its functions left to right, then converts. -/
theorem c35_compose_all (conv : A → B) (f : A → A) (fs gs : List (A → A)) (a : A) :
    composeAll conv [] a = conv a ∧ composeAll conv (f :: fs) a = composeAll conv fs (f a) ∧
    composeAll conv (fs ++ gs) a = composeAll conv gs (composeAll id fs a) := by
  refine ⟨rfl, rfl, ?_⟩
  simp [composeAll, List.foldl_append]

example : composeAll id [(· + 1), (· * 10)] 4 = 50 := rfl

/-- `compose`, `pipe`, `flip`, `id`, `const_fn`. -/
theorem c35_compose_pipe (f : A → B) (g : B → C) (h : C → D) (k : A → B → C) (a : A) (b : B) :
    compose g f a = g (f a) ∧ pipe f g a = g (f a) ∧ compose g f = pipe f g ∧
    compose h (compose g f) = compose (compose h g) f ∧ compose f id' = f ∧ compose id' f = f ∧
    flip' k b a = k a b ∧ flip' (flip' k) = k ∧ constFn a b = a :=
  ⟨rfl, rfl, rfl, rfl, rfl, rfl, rfl, rfl, rfl⟩

/-- The `Option`/`Result` maps. -/
theorem c35_option_result (f : T → U) (g : T → Option U) (k : T → Except E U) (a : T) (e : E) :
    mapOption (some a) f = some (f a) ∧ mapOption none f = none ∧
    liftOption f (some a) = some (f a) ∧ liftOption f none = none ∧
    mapResult (.ok a : Except E T) f = .ok (f a) ∧ mapResult (.error e) f = .error e ∧
    flatMapOption (some a) g = g a ∧ flatMapOption none g = none ∧
    flatMapResult (.ok a) k = k a ∧ flatMapResult (.error e) k = .error e :=
  ⟨rfl, rfl, rfl, rfl, rfl, rfl, rfl, rfl, rfl, rfl⟩

/-- `transform_all`, `transform_chain`: `fmap` on every element. -/
theorem c35_transform {G : Type → Type} [RFunctor G] (vs : List (G A)) (v : G A) (f : A → B) :
    (transformAll vs f).length = vs.length ∧
    (∀ i (h : i < vs.length), (transformAll vs f)[i]? = some (RFunctor.fmap f vs[i])) ∧
    transformChain (some v) f = some (RFunctor.fmap f v) ∧ transformChain (none : Option (G A)) f = none := by
  refine ⟨by simp [transformAll], ?_, rfl, rfl⟩
  intro i h; simp [transformAll, h]

/-- `Pipeline`: `extract` after `map`s is the composed `fmap`; `map_owned` agrees with `map` for every functor
satisfying the laws. -/
theorem c35_pipeline {G : Type → Type} [RFunctor G] (hl : FunctorLaws G) (x : G A) (f : A → B) (g : B → C) :
    (((⟨x⟩ : Pipeline (G A)).map f).map g).val = RFunctor.fmap (fun a => g (f a)) x ∧
    (⟨x⟩ : Pipeline (G A)).mapOwned f = (⟨x⟩ : Pipeline (G A)).map f := by
  have hc := hl.comp_law f g x
  have ho := hl.owned f x
  exact ⟨hc, by simp only [Pipeline.map, Pipeline.mapOwned]; rw [ho]⟩

example : (((⟨some 3⟩ : Pipeline (Option Nat)).map (· + 1)).map (· * 10)).val = some 40 :=
  (c35_pipeline c23_option (some 3) (· + 1) (· * 10)).1

/-- `fold_with` of `categorical_utils`: the combination of the converted elements in order, with the identity for
the empty input. -/
theorem c35_fold_with {W : Type} [RMonoid W] (conv : T → W) (x : T) (xs : List T) :
    utilsFoldWith conv ([] : List T) = (RMonoid.empty : W) ∧
    utilsFoldWith conv [x] = conv x ∧
    utilsFoldWith conv (x :: xs) = (xs.map conv).foldl RSemigroup.combine (conv x) := by
  refine ⟨rfl, rfl, ?_⟩
  simp [utilsFoldWith, List.foldl_map]

end

end Rustica
