import Verif.Error.Convert
import Verif.Theorems.Validated

/-!
# C29, C30, C55, C56 and the conversion part of C28
-/

namespace Rustica

section
variable {T U E F G B : Type}

/-! ## C29 -/

/-- `Result → Validated → Result` is the identity and never panics, for every conversion function of the
crate: the free functions, the methods of `Validated`, `ResultExt::to_validated`, `ResultValidatedIso`. -/
theorem c29_result_round_trip (r : Except E T) :
    validatedToResult (resultToValidated r) = some r ∧
    (Validated.fromResult r).toResult = some r ∧
    validatedToResult (extToValidated r) = some r ∧
    ResultValidatedIso.backward (ResultValidatedIso.forward r) = some r := by
  cases r <;> exact ⟨rfl, rfl, rfl, rfl⟩

/-- Specification: the validation carries at most one error, and does not carry none: it is a value or exactly
one error. -/
def Single (v : Validated E T) : Prop := (∃ a, v = .Valid a) ∨ (∃ e, v = .Invalid [e])

/-- PARTIAL: `Validated → Result → Validated` is the identity exactly for values and single errors.  What is
missing is the identity on the other values, where it is false (`c29_validated_round_trip_false`). -/
theorem c29_validated_round_trip_partial (v : Validated E T) :
    ((validatedToResult v).map resultToValidated = some v ↔ Single v) ∧
    (v.toResult.map Validated.fromResult = some v ↔ Single v) ∧
    ((ResultValidatedIso.backward v).map ResultValidatedIso.forward = some v ↔ Single v) := by
  cases v with
  | Valid a =>
    have hs : Single (.Valid a : Validated E T) := .inl ⟨a, rfl⟩
    exact ⟨iff_of_true rfl hs, iff_of_true rfl hs, iff_of_true rfl hs⟩
  | Invalid es =>
    match es with
    | [] =>
      have hs : ¬ Single (.Invalid [] : Validated E T) := by
        rintro (⟨a, h⟩ | ⟨e, h⟩)
        · cases h
        · injection h with h; cases h
      have hf : ¬ (none : Option (Validated E T)) = some (.Invalid []) := by intro h; cases h
      exact ⟨iff_of_false hf hs, iff_of_false hf hs, iff_of_false hf hs⟩
    | [e] =>
      have hs : Single (.Invalid [e] : Validated E T) := .inr ⟨e, rfl⟩
      exact ⟨iff_of_true rfl hs, iff_of_true rfl hs, iff_of_true rfl hs⟩
    | e :: e2 :: rest =>
      have hs : ¬ Single (.Invalid (e :: e2 :: rest) : Validated E T) := by
        rintro (⟨a, h⟩ | ⟨e', h⟩)
        · cases h
        · injection h with h; injection h with _ h; cases h
      have hf : ¬ some (.Invalid [e] : Validated E T) = some (.Invalid (e :: e2 :: rest)) := by
        intro h
        injection h with h; injection h with h; injection h with _ h; cases h
      exact ⟨iff_of_false hf hs, iff_of_false hf hs, iff_of_false hf hs⟩

/-- The full claim is false: of two errors the second is lost, and an empty `Invalid` (reachable with
`invalid_many`) panics. -/
theorem c29_validated_round_trip_false :
    (validatedToResult (Validated.invalidMany [1, 2] : Validated Nat Nat)).map resultToValidated =
      some (.Invalid [1]) ∧
    (validatedToResult (Validated.invalidMany [] : Validated Nat Nat)) = none ∧
    (ResultValidatedIso.backward (Validated.invalidMany [1, 2] : Validated Nat Nat)).map
      ResultValidatedIso.forward = some (.Invalid [1]) ∧
    ResultValidatedIso.backward (Validated.invalidMany [] : Validated Nat Nat) = none := by decide +kernel

/-- The conversions of `Validated` to `Result` and `Either` panic exactly on an empty `Invalid`, and otherwise
give the value or the first error. -/
theorem c29_validated_to_result (v : Validated E T) :
    (validatedToResult v = none ↔ v = .Invalid []) ∧ (validatedToEither v = none ↔ v = .Invalid []) ∧
    (v.toResult = validatedToResult v) ∧ (∀ e es, v = .Invalid (e :: es) →
      validatedToResult v = some (.error e) ∧ validatedToEither v = some (.Left e)) ∧
    (∀ a, v = .Valid a → validatedToResult v = some (.ok a) ∧ validatedToEither v = some (.Right a)) := by
  cases v with
  | Valid a => simp [validatedToResult, validatedToEither, Validated.toResult, RWithError.toResult]
  | Invalid es =>
    cases es <;> simp [validatedToResult, validatedToEither, Validated.toResult, RWithError.toResult]

/-! ## C28, conversions to `Result` -/

/-- `to_result`/`from_result` (and the owned versions) round-trip for valid values and single errors. -/
theorem c28_result_round_trip (a : T) (e : E) :
    (.Valid a : Validated E T).toResult = some (.ok a) ∧
    (Validated.invalid e : Validated E T).toResult = some (.error e) ∧
    Validated.fromResult (.ok a : Except E T) = .Valid a ∧
    Validated.fromResult (.error e : Except E T) = Validated.invalid e ∧
    (Validated.fromResult (.ok a : Except E T)).toResult = some (.ok a) ∧
    (Validated.fromResult (.error e : Except E T)).toResult = some (.error e) :=
  ⟨rfl, rfl, rfl, rfl, rfl, rfl⟩

/-! ## C30 -/

/-- `result_to_either` and `either_to_result` are mutually inverse (also as `ResultEitherIso`). -/
theorem c30_either_result (r : Except E T) (e : Either E T) :
    eitherToResult (resultToEither r) = r ∧ resultToEither (eitherToResult e) = e ∧
    ResultEitherIso.backward (ResultEitherIso.forward r) = r ∧
    ResultEitherIso.forward (ResultEitherIso.backward e) = e := by
  refine ⟨?_, ?_, ?_, ?_⟩
  · cases r <;> rfl
  · cases e <;> rfl
  · cases r <;> rfl
  · cases e <;> rfl

/-- They move success to `Right` and failure to `Left`. -/
theorem c30_either_result_cases (a : T) (e : E) :
    resultToEither (.ok a : Except E T) = .Right a ∧ resultToEither (.error e : Except E T) = .Left e ∧
    eitherToResult (.Right a : Either E T) = .ok a ∧ eitherToResult (.Left e : Either E T) = .error e :=
  ⟨rfl, rfl, rfl, rfl⟩

/-- `either_to_validated` then `validated_to_either` is the identity, and the triangle
`Result → Either → Validated` commutes. -/
theorem c30_either_validated (e : Either E T) (r : Except E T) :
    validatedToEither (eitherToValidated e) = some e ∧
    eitherToValidated (resultToEither r) = resultToValidated r := by
  constructor
  · cases e <;> rfl
  · cases r <;> rfl

/-- `wrap_in_composable_result(_boxed)` then `flatten_composable_result` is the identity; wrapping adds neither
context nor code. -/
theorem c30_wrap_flatten (r : Except E T) (e : E) :
    flattenComposableResult (wrapInComposableResult r) = r ∧
    flattenComposableResult (wrapInComposableResultBoxed r) = r ∧
    composableToCore (coreToComposable e) = e ∧
    (coreToComposable e).context = [] ∧ (coreToComposable e).code = none := by
  refine ⟨?_, ?_, rfl, rfl, rfl⟩ <;> cases r <;> rfl

/-- A wrapped error holds the error, no context and no code, whichever of the two functions wraps it. -/
theorem c30_wrap_adds_nothing (r : Except E T) (c : ComposableError E)
    (h : wrapInComposableResult r = .error c ∨ wrapInComposableResultBoxed r = .error c) :
    r = .error c.core ∧ c.context = [] ∧ c.code = none := by
  cases r with
  | ok v => rcases h with h | h <;> cases h
  | error e => rcases h with h | h <;> cases h <;> exact ⟨rfl, rfl, rfl⟩

example : wrapInComposableResult (.error 7 : Except Nat Nat) = .error ⟨7, [], none⟩ ∧
    ((.error 7 : Except Nat Nat) = .error 7) := ⟨rfl, (c30_wrap_adds_nothing (.error 7) ⟨7, [], none⟩ (.inl rfl)).1⟩

/-- Flattening keeps values and core errors (contexts and codes are dropped). -/
theorem c30_flatten_cases (a : T) (c : ComposableError E) :
    flattenComposableResult (.ok a : Except (ComposableError E) T) = .ok a ∧
    flattenComposableResult (.error c : Except (ComposableError E) T) = .error c.core := ⟨rfl, rfl⟩

/-- Specification: the errors in a list of results. -/
def errorsIn : List (Except E T) → List E
  | [] => []
  | .ok _ :: rest => errorsIn rest
  | .error e :: rest => e :: errorsIn rest

theorem errorsIn_map_error (es : List E) : errorsIn (es.map (.error : E → Except E T)) = es := by
  induction es with
  | nil => rfl
  | cons e es ih => rw [List.map_cons, errorsIn, ih]

/-- `split_validated_errors` and `collect_errors` are inverse on non-empty error lists: no error is lost, added
or reordered. -/
theorem c30_split_collect (es : List E) (h : es ≠ []) :
    splitValidatedErrors (collectErrors es) = es.map .error ∧
    collectErrors (errorsIn (splitValidatedErrors (.Invalid es : Validated E T))) = .Invalid es := by
  have he : es.isEmpty = false := by cases es <;> simp_all
  constructor
  · simp [collectErrors, he, Validated.invalidMany, splitValidatedErrors]
  · simp [splitValidatedErrors, errorsIn_map_error, collectErrors, he, Validated.invalidMany]

example : splitValidatedErrors (collectErrors [1, 2]) = [.error 1, .error 2] := rfl

/-- The value side: a valid value is split into one `Ok`; no errors are collected into `Valid(())`. -/
theorem c30_split_collect_valid (a : T) :
    splitValidatedErrors (.Valid a : Validated E T) = [.ok a] ∧
    collectErrors ([] : List E) = .Valid () ∧
    splitValidatedErrors (collectErrors ([] : List E)) = [.ok ()] := ⟨rfl, rfl, rfl⟩

/-- `bimap_result` (`ErrorOps` for `Result` and `Either`, `ResultExt::bimap`, the free function) touches each
side with its own function only. -/
theorem c30_bimap (f : T → B) (g : E → F) (a : T) (e : E) :
    bimapResult (.ok a) f g = .ok (f a) ∧ bimapResult (.error e) f g = .error (g e) ∧
    bimapResultEither (.Right a) f g = .ok (f a) ∧ bimapResultEither (.Left e) f g = .error (g e) :=
  ⟨rfl, rfl, rfl, rfl⟩

/-- `unwrap_or_default`, `to_validated`, `to_either` of `ResultExt`. -/
theorem c30_result_ext [Inhabited T] (r : Except E T) (a : T) (e : E) :
    extUnwrapOrDefault (.ok a : Except E T) = a ∧
    extUnwrapOrDefault (.error e : Except E T) = (default : T) ∧
    extToValidated r = resultToValidated r := by
  refine ⟨rfl, rfl, ?_⟩
  cases r <;> rfl

/-- `ErrorCategory`: `lift` makes a success, `handle_error` a failure with that error, for all three types. -/
theorem c30_error_category (a : T) (e : E) :
    RWithError.toResult (ecLiftResult a : Except E T) = some (.ok a) ∧
    RWithError.toResult (ecLiftEither a : Either E T) = some (.ok a) ∧
    RWithError.toResult (ecLiftValidated a : Validated E T) = some (.ok a) ∧
    RWithError.toResult (ecHandleResult e : Except E T) = some (.error e) ∧
    RWithError.toResult (ecHandleEither e : Either E T) = some (.error e) ∧
    RWithError.toResult (ecHandleValidated e : Validated E T) = some (.error e) :=
  ⟨rfl, rfl, rfl, rfl, rfl, rfl⟩

/-! ## C55 -/

/-- `MonadError` for `Result`. -/
theorem c55_result (m : Except E T) (e : E) (a : T) (h : E → Except E T) (f : E → F) :
    catchResult (throwResult e) h = h e ∧ catchResult (RPure.pure a) h = RPure.pure a ∧
    catchResult m throwResult = m ∧ catchOwnedResult m h = catchResult m h ∧
    mapErrorToResult (.ok a : Except E T) f = .ok a ∧ mapErrorToResult (.error e : Except E T) f = .error (f e) ∧
    mapErrorToOwnedResult m f = mapErrorToResult m f := by
  refine ⟨rfl, rfl, ?_, ?_, rfl, rfl, ?_⟩ <;> cases m <;> rfl

/-- `throw` is a left zero of `bind`. -/
theorem c55_throw_bind (e : E) (k : T → Except E U) (k2 : T → Option U) :
    RMonad.bind (throwResult e : Except E T) k = throwResult e ∧
    RMonad.bind (throwOption () : Option T) k2 = throwOption () := ⟨rfl, rfl⟩

/-- `MonadError<()>` for `Option`. -/
theorem c55_option (m : Option T) (a : T) (h : Unit → Option T) (f : Unit → F) :
    catchOption (throwOption ()) h = h () ∧ catchOption (RPure.pure a) h = RPure.pure a ∧
    catchOption m throwOption = m ∧ catchOwnedOption m h = catchOption m h ∧
    mapErrorToOption (some a) f = .ok a ∧ mapErrorToOption (none : Option T) f = .error (f ()) ∧
    mapErrorToOwnedOption m f = mapErrorToOption m f := by
  refine ⟨rfl, rfl, ?_, ?_, rfl, rfl, ?_⟩ <;> cases m <;> rfl

/-- `ErrorOps::recover` for `Result` and `Either`. -/
theorem c55_recover (e : E) (a : T) (m : Except E T) (n : Either E T) (h : E → Except E T)
    (k : E → Either E T) :
    recoverResult (.error e) h = h e ∧ recoverResult (.ok a) h = .ok a ∧
    recoverResult m .error = m ∧
    recoverEither (.Left e) k = k e ∧ recoverEither (.Right a) k = .Right a ∧
    recoverEither n .Left = n := by
  refine ⟨rfl, rfl, ?_, rfl, rfl, ?_⟩
  · cases m <;> rfl
  · cases n <;> rfl

/-- Handlers compose: catching twice is catching with the combined handler. -/
theorem c55_catch_assoc (m : Except E T) (n : Option T) (h k : E → Except E T) (h' k' : Unit → Option T) :
    catchResult (catchResult m h) k = catchResult m (fun e => catchResult (h e) k) ∧
    catchOption (catchOption n h') k' = catchOption n (fun e => catchOption (h' e) k') := by
  constructor
  · cases m <;> rfl
  · cases n <;> rfl

/-! ## C56 -/

/-- `fmap_error` for `Result`, `Either` and `Validated`: a success is untouched, the error (every error of a
`Validated`, in order) is mapped, and `to_result` afterwards is `to_result` before with its error mapped. -/
theorem c56_fmap_error_partial (f : E → G) (a : T) (e : E) (es : List E) (r : Except E T) (n : Either E T)
    (v : Validated E T) :
    (fmapErrorResult (.ok a) f = .ok a ∧ fmapErrorResult (.error e : Except E T) f = .error (f e)) ∧
    (fmapErrorEither (.Right a) f = .Right a ∧ fmapErrorEither (.Left e : Either E T) f = .Left (f e)) ∧
    (fmapErrorValidated (.Valid a) f = .Valid a ∧
      fmapErrorValidated (.Invalid es : Validated E T) f = .Invalid (es.map f)) ∧
    (RWithError.toResult (fmapErrorResult r f) = (RWithError.toResult r).map (mapErr · f)) ∧
    (RWithError.toResult (fmapErrorEither n f) = (RWithError.toResult n).map (mapErr · f)) ∧
    (RWithError.toResult (fmapErrorValidated v f) = (RWithError.toResult v).map (mapErr · f)) := by
  refine ⟨⟨rfl, rfl⟩, ⟨rfl, rfl⟩, ⟨rfl, rfl⟩, ?_, ?_, ?_⟩
  · cases r <;> rfl
  · cases n <;> rfl
  · cases v with
    | Valid a => rfl
    | Invalid es => cases es <;> rfl

/-- For `Maybe` the claim is false: `fmap_error` replaces a success by the mapped error, as a success. -/
theorem c56_maybe_false :
    (Maybe.Just 5).fmapError (fun _ => 7) = Maybe.Just 7 ∧
    RWithError.toResult ((Maybe.Just 5).fmapError (fun _ => 7)) ≠
      (RWithError.toResult (Maybe.Just 5)).map (mapErr · (fun _ => MaybeError.ValueNotPresent)) := by
  refine ⟨rfl, ?_⟩
  intro h
  cases h

/-- What `Maybe`'s `fmap_error` and `to_result` do. -/
theorem c56_maybe_exact (a : T) (f : MaybeError → G) :
    (Maybe.Just a).fmapError f = .Just (f .ValueNotPresent) ∧
    (Maybe.Nothing : Maybe T).fmapError f = .Nothing ∧
    RWithError.toResult (Maybe.Just a) = some (.ok a) ∧
    RWithError.toResult (Maybe.Nothing : Maybe T) = some (.error .ValueNotPresent) := ⟨rfl, rfl, rfl, rfl⟩

end

end Rustica
