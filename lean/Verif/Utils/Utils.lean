import Verif.Error.Convert
import Verif.Traits.Helpers

/-!
# The helper functions of `src/utils`

Step functions are effectful (`Eff`), so that "which elements were visited" is visible.  Capacity estimates
(`size_hint`, `with_capacity`) are left out.  `Into`/`From` conversions are function parameters.
-/

namespace Rustica

section
variable {σ A B C E F T U S : Type}

/-! ## `error_utils.rs` -/

/-- The loop of `sequence_result` (`error_utils.rs` 716-727), `values` being the vector built so far. -/
def sequenceLoop : List (Except E A) → List A → Except E (List A)
  | [], values => .ok values
  | item :: rest, values =>
    match item with
    | .ok value => sequenceLoop rest (values ++ [value])
    | .error error => .error error
/-- `sequence` (`error_utils.rs` 222-224). -/
def sequence (collection : List (Except E A)) : Except E (List A) := sequenceLoop collection []
/-- The loop of `traverse_result` (`error_utils.rs` 730-746). -/
def traverseLoop (f : A → Eff σ (Except E B)) : List A → List B → Eff σ (Except E (List B))
  | [], values => fun w => (.ok values, w)
  | item :: rest, values => fun w =>
    match f item w with
    | (.ok value, w') => traverseLoop f rest (values ++ [value]) w'
    | (.error error, w') => (.error error, w')
/-- `traverse` (`error_utils.rs` 262-267). -/
def traverse (collection : List A) (f : A → Eff σ (Except E B)) : Eff σ (Except E (List B)) :=
  traverseLoop f collection []
/-- The loop of `traverse_validated` (`error_utils.rs` 315-327); `st` is `(values, errors, had_error)`. -/
def traverseValidatedLoop (f : A → Eff σ (Except E B)) :
    List A → List B × List E × Bool → Eff σ (List B × List E × Bool)
  | [], st => fun w => (st, w)
  | item :: rest, (values, errors, had) => fun w =>
    match f item w with
    | (.ok value, w') => traverseValidatedLoop f rest (values ++ [value], errors, had) w'
    | (.error error, w') => traverseValidatedLoop f rest (values, errors ++ [error], true) w'
/-- `traverse_validated` (`error_utils.rs` 308-334). -/
def traverseValidated (collection : List A) (f : A → Eff σ (Except E B)) : Eff σ (Validated E (List B)) :=
  fun w =>
    let r := traverseValidatedLoop f collection ([], [], false) w
    (if r.1.2.2 then .Invalid r.1.2.1 else .Valid r.1.1, r.2)
/-- The loop of `sequence_with_error` (`error_utils.rs` 376-385); `none` is a panic in `to_result`. -/
def sequenceWithErrorLoop [RWithError C E S] (into : S → T) : List C → List T → Option (Except E (List T))
  | [], values => some (.ok values)
  | item :: rest, values =>
    match RWithError.toResult item with
    | none => none
    | some (.ok value) => sequenceWithErrorLoop into rest (values ++ [into value])
    | some (.error error) => some (.error error)
/-- `sequence_with_error` (`error_utils.rs` 370-386). -/
def sequenceWithError [RWithError C E S] (into : S → T) (collection : List C) : Option (Except E (List T)) :=
  sequenceWithErrorLoop into collection []

/-! ## `categorical_utils.rs` -/

/-- `map_option` (`categorical_utils.rs` 120-125). -/
def mapOption (o : Option T) (f : T → U) : Option U := o.map f
/-- `map_result` (`categorical_utils.rs` 155-160, `hkt_utils.rs` 415-420). -/
def mapResult (r : Except E T) (f : T → U) : Except E U :=
  match r with
  | .ok v => .ok (f v)
  | .error e => .error e
/-- `flat_map_option` (`categorical_utils.rs` 244-249). -/
def flatMapOption (o : Option T) (f : T → Option U) : Option U := o.bind f
/-- `flat_map_result` (`categorical_utils.rs` 283-288). -/
def flatMapResult (r : Except E T) (f : T → Except E U) : Except E U :=
  match r with
  | .ok v => f v
  | .error e => .error e
/-- `compose` (`categorical_utils.rs` 326-332). -/
def compose (g : B → C) (f : A → B) : A → C := fun x => g (f x)
/-- `pipe` (`categorical_utils.rs` 367-373). -/
def pipe (f : A → B) (g : B → C) : A → C := fun x => g (f x)
/-- `flip` (`categorical_utils.rs` 413-418). -/
def flip' (f : A → B → C) : B → A → C := fun b a => f a b
/-- `filter_map_collect` (`categorical_utils.rs` 461-480). -/
def filterMapCollect (iter : List T) (f : T → Option U) : List U :=
  iter.foldl (fun result item =>
    match f item with
    | some value => result ++ [value]
    | none => result) []
/-- `collect::<Option<Vec<T>>>()` of the standard library: stops at the first `None`. -/
def collectOptions : List (Option T) → Option (List T)
  | [] => some []
  | none :: _ => none
  | some a :: rest =>
    match collectOptions rest with
    | some as => some (a :: as)
    | none => none
/-- `sequence_options` (`categorical_utils.rs` 516-518). -/
def sequenceOptions (options : List (Option T)) : Option (List T) := collectOptions options
/-- `collect::<Result<Vec<T>, E>>()` of the standard library: stops at the first `Err`. -/
def collectResults : List (Except E T) → Except E (List T)
  | [] => .ok []
  | .error e :: _ => .error e
  | .ok a :: rest =>
    match collectResults rest with
    | .ok as => .ok (a :: as)
    | .error e => .error e
/-- `sequence_results` (`categorical_utils.rs` 548-550). -/
def sequenceResults (results : List (Except E T)) : Except E (List T) := collectResults results
/-- `fold_with` (`categorical_utils.rs` 614-623). -/
def utilsFoldWith {W : Type} [RMonoid W] (from' : T → W) (iter : List T) : W :=
  match iter with
  | [] => RMonoid.empty
  | first :: rest => rest.foldl (fun acc x => RSemigroup.combine acc (from' x)) (from' first)

/-! ## `hkt_utils.rs` -/

/-- `filter_map` (`hkt_utils.rs` 59-79). -/
def filterMap' (collection : List A) (predicate : A → Bool) (f : A → B) : List B :=
  collection.foldl (fun result item => if predicate item then result ++ [f item] else result) []
/-- `zip_with` (`hkt_utils.rs` 122-127). -/
def zipWith' (xs : List A) (ys : List B) (f : A → B → C) : List C := (xs.zip ys).map fun p => f p.1 p.2
/-- The `try_fold` of `pipeline_option` (`hkt_utils.rs` 185-187), with effectful operations. -/
def tryFoldOption : List (B → Eff σ (Option B)) → B → Eff σ (Option B)
  | [], acc => fun w => (some acc, w)
  | op :: ops, acc => fun w =>
    match op acc w with
    | (some acc', w') => tryFoldOption ops acc' w'
    | (none, w') => (none, w')
/-- `pipeline_option` (`hkt_utils.rs` 179-188). -/
def pipelineOption (into : A → B) (initial : A) (operations : List (B → Eff σ (Option B))) :
    Eff σ (Option B) := tryFoldOption operations (into initial)
/-- The `fold` of `pipeline_result` (`hkt_utils.rs` 262-265), with effectful operations. -/
def pipelineFold : List (B → Eff σ (Except E B)) → Except E B → Eff σ (Except E B)
  | [], acc => fun w => (acc, w)
  | op :: ops, acc => fun w =>
    match acc with
    | .ok value => pipelineFold ops (op value w).1 (op value w).2
    | .error e => pipelineFold ops (.error e) w
/-- `pipeline_result` (`hkt_utils.rs` 248-266), `try_pipeline` (319-325). -/
def pipelineResult (into : A → B) (initial : A) (operations : List (B → Eff σ (Except E B))) :
    Eff σ (Except E B) := fun w =>
  match operations with
  | [] => pipelineFold [] (.ok (into initial)) w
  | first :: rest => pipelineFold rest (first (into initial) w).1 (first (into initial) w).2
/-- `lift_option` (`hkt_utils.rs` 369-374). -/
def liftOption (f : A → B) : Option A → Option B := fun opt => opt.map f
/-- `fan_out` (`hkt_utils.rs` 467-472). -/
def fanOut (input : A) (operations : List (A → B)) : List B := operations.map fun op => op input
/-- `compose_all` (`hkt_utils.rs` 510-519). -/
def composeAll (from' : A → B) (ts : List (A → A)) : A → B :=
  fun input => from' (ts.foldl (fun acc f => f acc) input)

/-! ## `transform_utils.rs` -/

/-- `transform_all` (`transform_utils.rs` 86-93). -/
def transformAll {G : Type → Type} [RFunctor G] (values : List (G A)) (f : A → B) : List (G B) :=
  values.map fun v => RFunctor.fmap f v
/-- `transform_chain` (`transform_utils.rs` 138-145). -/
def transformChain {G : Type → Type} [RFunctor G] (value : Option (G A)) (f : A → B) : Option (G B) :=
  value.map fun v => RFunctor.fmap f v
/-- `struct Pipeline<T>` (`transform_utils.rs` 195); `new` (221), `extract` (247), `IntoIterator` (337-347)
are the wrapper itself. -/
structure Pipeline (T : Type) where
  val : T
/-- `Pipeline::map_owned` (`transform_utils.rs` 286-292). -/
def Pipeline.mapOwned {G : Type → Type} [RFunctor G] (p : Pipeline (G A)) (f : A → B) : Pipeline (G B) :=
  ⟨RFunctor.fmapOwned f p.val⟩
/-- `Pipeline::map` (`transform_utils.rs` 328-334). -/
def Pipeline.map {G : Type → Type} [RFunctor G] (p : Pipeline (G A)) (f : A → B) : Pipeline (G B) :=
  ⟨RFunctor.fmap f p.val⟩

/-! ## `functions.rs` -/

/-- `id` (`functions.rs` 82-84). -/
def id' (a : A) : A := a
/-- `const_fn` (`functions.rs` 113-115). -/
def constFn (value : A) : B → A := fun _ => value

end

end Rustica
