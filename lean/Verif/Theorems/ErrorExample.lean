import Verif.Examples.ErrorPipeline
import Verif.Theorems.Error

/-!
# The error pipeline of `examples/error.rs` (C81)

The example keeps a `ComposableError` inside the pipeline, so a context can be attached in two places: to the
pipeline (`with_context`) or to the error inside it (`recover`, `map_error`).
-/

namespace Rustica.ErrorExample

/-! ## Specification -/

/-- The readings of a configuration text that the three steps tell apart. -/
inductive Reading where
  | notNumber | tooShort | odd | fine (n : Int)

/-- Specification of the three steps, in order: the text must be a number, at least 100, and even. -/
def Reads (parse : String → Option Int) (content : String) : Reading → Prop
  | .notNumber => parse content = none
  | .tooShort => ∃ n, parse content = some n ∧ n < 100
  | .odd => ∃ n, parse content = some n ∧ 100 ≤ n ∧ ∃ k, n = 2 * k + 1
  | .fine n => parse content = some n ∧ 100 ≤ n ∧ ∃ k, n = 2 * k

/-- Every text has a reading. -/
theorem reads_total (parse : String → Option Int) (content : String) : ∃ r, Reads parse content r := by
  cases h : parse content with
  | none => exact ⟨.notNumber, h⟩
  | some n =>
    by_cases h1 : n < 100
    · exact ⟨.tooShort, n, h, h1⟩
    · by_cases h2 : n % 2 = 0
      · exact ⟨.fine n, h, by omega, n / 2, by omega⟩
      · exact ⟨.odd, n, h, by omega, n / 2, by omega⟩

private theorem tmod_even (k : Int) : (2 * k).tmod 2 = 0 := Int.mul_tmod_right 2 k
private theorem tmod_odd (k : Int) (h : 100 ≤ 2 * k + 1) : (2 * k + 1).tmod 2 ≠ 0 := by
  rw [Int.tmod_eq_emod_of_nonneg (by omega)]
  omega

/-! ## C81: what the example prints for every text -/

/-- What example 2 prints, for every text: the step that failed first, with its contexts, the one attached last in
front. -/
theorem c81_pipeline (parse : String → Option Int) (content : String) :
    (Reads parse content .notNumber → report (example2 parse content) = "Error occurred:\n" ++
      joinWith " -> " ["Failed to parse configuration file", "Invalid number format"]) ∧
    (Reads parse content .tooShort → report (example2 parse content) = "Error occurred:\n" ++
      joinWith " -> " ["Error occurred during DB connection", "DB connection attempt failed",
        "Connection timeout too short"]) ∧
    (Reads parse content .odd → report (example2 parse content) = "Error occurred:\n" ++
      joinWith " -> " ["Failed to complete data processing pipeline", "Error during data processing",
        "Value must be even number"]) ∧
    (∀ n, Reads parse content (.fine n) → report (example2 parse content) =
      "Success: Processed " ++ toString n ++ " rows via db_connection_handle") := by
  refine ⟨fun h => ?_, fun ⟨n, h, h1⟩ => ?_, fun ⟨n, h, h1, k, h2⟩ => ?_, fun n ⟨h, h1, k, h2⟩ => ?_⟩
  · have h : parse content = none := h
    simp only [example2, steps, parseConfig, h]
    rfl
  · simp only [example2, steps, parseConfig, h, wrapInComposableResultBoxed, mapErr, ErrorPipeline.new,
      ErrorPipeline.withContext, ErrorPipeline.andThen, connectStep, connectDb, h1, if_true]
    rfl
  · subst h2
    have h3 : ¬ (2 * k + 1 < 100) := by omega
    simp only [example2, steps, parseConfig, h, wrapInComposableResultBoxed, mapErr, ErrorPipeline.new,
      ErrorPipeline.withContext, ErrorPipeline.andThen, connectStep, connectDb, h3, if_false, withContextResult,
      processStep, processData, tmod_odd k h1]
    rfl
  · subst h2
    have h3 : ¬ (2 * k < 100) := by omega
    simp only [example2, steps, parseConfig, h, wrapInComposableResultBoxed, mapErr, ErrorPipeline.new,
      ErrorPipeline.withContext, ErrorPipeline.andThen, connectStep, connectDb, h3, if_false, withContextResult,
      processStep, processData, tmod_even k, if_true, ErrorPipeline.finish, report]
    simp only [← String.append_assoc]
    rw [show "Success: " ++ "Processed " = "Success: Processed " from rfl,
      show " rows via db_connection_handle" = " rows via " ++ "db_connection_handle" from rfl, ← String.append_assoc]

/-- What example 1 prints, for every text: the added `recover` never turns a failure into a success and leaves a
success alone; the context it attaches comes first, except when the text is no number. -/
theorem c81_recover (parse : String → Option Int) (content : String) :
    (Reads parse content .notNumber → report (example1 parse content) = "Error occurred:\n" ++
      joinWith " -> " ["Failed to parse configuration file", "Recovery attempt initiated",
        "Invalid number format"]) ∧
    (Reads parse content .tooShort → report (example1 parse content) = "Error occurred:\n" ++
      joinWith " -> " ["Recovery attempt initiated", "Error occurred during DB connection",
        "DB connection attempt failed", "Connection timeout too short"]) ∧
    (Reads parse content .odd → report (example1 parse content) = "Error occurred:\n" ++
      joinWith " -> " ["Recovery attempt initiated", "Failed to complete data processing pipeline",
        "Error during data processing", "Value must be even number"]) ∧
    (∀ n, Reads parse content (.fine n) → example1 parse content = example2 parse content) := by
  refine ⟨fun h => ?_, fun ⟨n, h, h1⟩ => ?_, fun ⟨n, h, h1, k, h2⟩ => ?_, fun n ⟨h, h1, k, h2⟩ => ?_⟩
  · have h : parse content = none := h
    simp only [example1, steps, parseConfig, h]
    rfl
  · simp only [example1, steps, parseConfig, h, wrapInComposableResultBoxed, mapErr, ErrorPipeline.new,
      ErrorPipeline.withContext, ErrorPipeline.andThen, connectStep, connectDb, h1, if_true]
    rfl
  · subst h2
    have h3 : ¬ (2 * k + 1 < 100) := by omega
    simp only [example1, steps, parseConfig, h, wrapInComposableResultBoxed, mapErr, ErrorPipeline.new,
      ErrorPipeline.withContext, ErrorPipeline.andThen, connectStep, connectDb, h3, if_false, withContextResult,
      processStep, processData, tmod_odd k h1]
    rfl
  · subst h2
    have h3 : ¬ (2 * k < 100) := by omega
    simp only [example1, example2, steps, parseConfig, h, wrapInComposableResultBoxed, mapErr, ErrorPipeline.new,
      ErrorPipeline.withContext, ErrorPipeline.andThen, connectStep, connectDb, h3, if_false, withContextResult,
      processStep, processData, tmod_even k, if_true, ErrorPipeline.recover]

/-- Example 3: the contexts given last are printed first. -/
theorem c81_bulk : example3 = joinWith " -> " ["Executing transaction", "Establishing secure connection",
    "Validating authentication token", "Loading user preferences",
    "Transaction failed: insufficient permissions"] := by
  rw [example3, (c31_error_chain _ _).2.2.1, (c31_error_chain _ _).1]
  simp only [accumulateContext, convertAll, List.map, ofString, ErrorContext.new, ComposableError.withContexts,
    ComposableError.new, ComposableError.context, ComposableError.core, ComposableError.code, String.append_empty]
  rfl

/-! ## The order of contexts attached in two places -/

/-- One context: given to the pipeline, or to the error inside it. -/
inductive Note where
  | outer (s : String)
  | inner (s : String)
deriving DecidableEq

namespace Note
/-- The text of the context. -/
def text : Note → String
  | .outer s => s
  | .inner s => s
/-- Given to the error inside. -/
def isInner : Note → Bool
  | .outer _ => false
  | .inner _ => true
@[simp] theorem text_outer (s : String) : (Note.outer s).text = s := rfl
@[simp] theorem text_inner (s : String) : (Note.inner s).text = s := rfl
@[simp] theorem isInner_outer (s : String) : (Note.outer s).isInner = false := rfl
@[simp] theorem isInner_inner (s : String) : (Note.inner s).isInner = true := rfl
/-- The call that attaches it: `with_context` of the pipeline, or `recover` with a closure that gives the context
to the boxed error and fails again (`error.rs` 53-56). -/
def attach {E T : Type} (p : ErrorPipeline T (ComposableError E)) : Note → ErrorPipeline T (ComposableError E)
  | .outer s => (p.withContext (ofString s) ()).1
  | .inner s => (p.recover (fun e w => (.error (addContext e s), w)) ()).1
end Note

/-- A pipeline that starts with an error and gets the contexts one after the other. -/
def annotate {E T : Type} (e : E) (notes : List Note) : Except (ComposableError (ComposableError E)) T :=
  (notes.foldl Note.attach (ErrorPipeline.new (wrapInComposableResultBoxed (.error e)))).finish

theorem foldl_attach {E T : Type} (notes : List Note) (e : ComposableError E) (ctx : List String) :
    notes.foldl Note.attach (⟨.error e, ctx⟩ : ErrorPipeline T (ComposableError E)) =
      ⟨.error ⟨e.coreError, e.ctx ++ (notes.filter Note.isInner).map Note.text, e.errorCode⟩,
        ctx ++ (notes.filter fun n => !n.isInner).map Note.text⟩ := by
  induction notes generalizing e ctx with
  | nil => simp
  | cons n rest ih =>
    cases n with
    | outer s =>
      simp only [List.foldl_cons, Note.attach, ErrorPipeline.withContext, ofString, ErrorContext.new]
      rw [ih]
      simp
    | inner s =>
      simp only [List.foldl_cons, Note.attach, ErrorPipeline.recover, addContext, ComposableError.withContext,
        ofString, ErrorContext.new]
      rw [ih]
      simp [List.filter_cons]

/-- The printed chain: the contexts of the pipeline, then those of the error inside, each latest first, then the
error.  So none is lost, but the two kinds are not interleaved. -/
theorem c81_two_places {E T : Type} (disp : E → String) (e : E) (notes : List Note) :
    ∃ c, (annotate e notes : Except _ T) = .error c ∧
      formatErrorChain (ComposableError.display disp) c =
        joinWith " -> " (((notes.filter fun n => !n.isInner).map Note.text).reverse ++
          ((notes.filter Note.isInner).map Note.text).reverse ++ [disp e]) := by
  have hfold := foldl_attach (T := T) notes (ComposableError.new e) []
  refine ⟨⟨⟨e, (notes.filter Note.isInner).map Note.text, none⟩,
    (notes.filter fun n => !n.isInner).map Note.text, none⟩, ?_, ?_⟩
  · have : (annotate e notes : Except _ T) =
      (notes.foldl Note.attach (⟨.error (ComposableError.new e), []⟩ : ErrorPipeline T _)).finish := rfl
    rw [this, hfold]
    simp [ErrorPipeline.finish, ComposableError.new, ComposableError.withContexts]
  · rw [(c31_error_chain _ _).2.2.1, (c31_error_chain _ _).1]
    simp only [ComposableError.display]
    rw [(c31_error_chain disp _).1]
    simp only [ComposableError.context, ComposableError.core, ComposableError.code, String.append_empty]
    generalize ((notes.filter fun n => !n.isInner).map Note.text).reverse = xs
    generalize ((notes.filter Note.isInner).map Note.text).reverse = ys
    induction xs with
    | nil => rfl
    | cons x xs ih =>
      have hx : ∀ (zs : List String), zs ≠ [] → joinWith " -> " (x :: zs) = x ++ " -> " ++ joinWith " -> " zs := by
        intro zs hz
        cases zs with
        | nil => exact absurd rfl hz
        | cons z zs => rfl
      rw [List.cons_append, hx _ (by simp), ih, List.cons_append, List.cons_append, hx _ (by simp)]

/-- The contexts as printed. -/
def printedOrder (notes : List Note) : List String :=
  ((notes.filter fun n => !n.isInner).map Note.text).reverse ++ ((notes.filter Note.isInner).map Note.text).reverse

/-- With distinct texts, the contexts are printed latest first exactly when every context given to the inner error
was given before every context given to the pipeline. -/
theorem c81_latest_first_iff (notes : List Note) (distinct : (notes.map Note.text).Nodup) :
    printedOrder notes = (notes.map Note.text).reverse ↔
      ∃ inner outer : List String, notes = inner.map .inner ++ outer.map .outer := by
  unfold printedOrder
  rw [← List.reverse_append, List.reverse_inj]
  constructor
  · intro h
    induction notes with
    | nil => exact ⟨[], [], rfl⟩
    | cons n rest ih =>
      rw [List.map_cons, List.nodup_cons] at distinct
      obtain ⟨hd, hr⟩ := distinct
      cases n with
      | inner s =>
        have h' : (rest.filter Note.isInner).map Note.text ++ (rest.filter fun n => !n.isInner).map Note.text =
            rest.map Note.text := by simpa [List.filter_cons] using h
        obtain ⟨i, o, rfl⟩ := ih hr h'
        exact ⟨s :: i, o, by simp⟩
      | outer s =>
        cases hi : rest.filter Note.isInner with
        | nil =>
          have h' : (rest.filter Note.isInner).map Note.text ++ (rest.filter fun n => !n.isInner).map Note.text =
              rest.map Note.text := by
            rw [hi]
            simpa [hi] using h
          obtain ⟨i, o, rfl⟩ := ih hr h'
          have : i = [] := by
            cases i with
            | nil => rfl
            | cons a i => simp [Note.isInner] at hi
          subst this
          exact ⟨[], s :: o, by simp⟩
        | cons m ms =>
          have hm : m ∈ rest := (List.mem_filter.mp (hi ▸ List.mem_cons_self : m ∈ rest.filter Note.isInner)).1
          have : m.text = s := by
            have := congrArg List.head? h
            simpa [hi] using this
          exact absurd (List.mem_map.mpr ⟨m, hm, this⟩) hd
  · rintro ⟨i, o, rfl⟩
    have h1 : (i.map Note.inner ++ o.map Note.outer).filter Note.isInner = i.map Note.inner := by
      induction i with
      | nil => simp [List.filter_eq_nil_iff]
      | cons a i ih =>
        rw [List.map_cons, List.cons_append, List.map_cons, List.nodup_cons] at distinct
        simp [List.filter_cons, ih distinct.2]
    have h2 : (i.map Note.inner ++ o.map Note.outer).filter (fun n => !n.isInner) = o.map Note.outer := by
      have : ∀ l : List String, l.filter (fun _ => false) = [] ∧ l.filter (fun _ => true) = l := by simp
      simp [List.filter_append, List.filter_map, Function.comp_def, this]
    rw [h1, h2, List.map_append]

/-- "The context attached last is printed first" is false of example 1: on a text that is no number the pipeline
context is attached before the recovery context and is still printed in front of it. -/
theorem c81_latest_first_false :
    report (example1 (fun _ => none) "not_a_number") = "Error occurred:\n" ++
      joinWith " -> " (printedOrder [.outer "Failed to parse configuration file", .inner "Recovery attempt initiated"]
        ++ ["Invalid number format"]) ∧
    printedOrder [.outer "Failed to parse configuration file", .inner "Recovery attempt initiated"] ≠
      ([Note.outer "Failed to parse configuration file", .inner "Recovery attempt initiated"].map Note.text).reverse :=
  ⟨rfl, by decide⟩

/-! ## The hypotheses can be met -/

/-- A toy number reader. -/
private def toy : String → Option Int
  | "200" => some 200
  | "50" => some 50
  | "101" => some 101
  | _ => none

example : Reads toy "not_a_number" .notNumber := rfl
example : Reads toy "50" .tooShort := ⟨50, rfl, by decide⟩
example : Reads toy "101" .odd := ⟨101, rfl, by decide, 50, rfl⟩
example : Reads toy "200" (.fine 200) := ⟨rfl, by decide, 100, rfl⟩
example : report (example2 toy "200") = "Success: Processed 200 rows via db_connection_handle" := rfl
example : ([Note.inner "a", .outer "b"].map Note.text).Nodup ∧
    printedOrder [.inner "a", .outer "b"] = ["b", "a"] := ⟨by decide, rfl⟩

example : printedOrder [.outer "a", .inner "b"] ≠ ["b", "a"] := by
  intro h
  obtain ⟨i, o, e⟩ := (c81_latest_first_iff [.outer "a", .inner "b"] (by decide)).1 h
  cases i with
  | nil => cases o with
    | nil => cases e
    | cons x xs => cases xs <;> simp at e
  | cons x xs => simp at e

end Rustica.ErrorExample
