import Verif.Error.Types
import Verif.Data.Either
import Verif.Data.Validated
import Verif.Data.Std

/-!
# Conversions between error types (`src/error/convert.rs`, `src/error/core.rs`,
`src/utils/error_utils.rs`, `src/traits/monad_error.rs`)

Where the code can panic the result is an `Option` and `none` is the panic.
-/

namespace Rustica

section
variable {T U E F G B : Type}

/-! ## `convert.rs` -/

/-- `either_to_result` (`convert.rs` 38-43, deprecated alias `error_utils.rs` 436-438), `Either::to_result`
(`either.rs` 684-686). -/
def eitherToResult : Either E T → Except E T
  | .Left error => .error error
  | .Right value => .ok value
/-- `result_to_either` (`convert.rs` 72-77, alias `error_utils.rs` 411-413), `Either::from_result`
(`either.rs` 708-710), `ResultExt::to_either` (`error_utils.rs` 503-505). -/
def resultToEither : Except E T → Either E T
  | .ok value => .Right value
  | .error error => .Left error
/-- `validated_to_result` (`convert.rs` 107-121): `expect` on the first error; `none` is the panic. -/
def validatedToResult : Validated E T → Option (Except E T)
  | .Valid value => some (.ok value)
  | .Invalid errors => errors.head?.map .error
/-- `result_to_validated` (`convert.rs` 152-161). -/
def resultToValidated : Except E T → Validated E T
  | .ok value => .Valid value
  | .error error => Validated.invalid error
/-- `either_to_validated` (`convert.rs` 192-201). -/
def eitherToValidated : Either E T → Validated E T
  | .Right value => .Valid value
  | .Left error => Validated.invalid error
/-- `validated_to_either` (`convert.rs` 232-245); `none` is the panic. -/
def validatedToEither : Validated E T → Option (Either E T)
  | .Valid value => some (.Right value)
  | .Invalid errors => errors.head?.map .Left
/-- `composable_to_core` (`convert.rs` 272-274). -/
def composableToCore (c : ComposableError E) : E := c.coreError
/-- `core_to_composable` (`convert.rs` 309-311). -/
def coreToComposable (e : E) : ComposableError E := ComposableError.new e
/-- `Result::map_err` of the standard library. -/
def mapErr (r : Except E T) (f : E → F) : Except F T :=
  match r with
  | .ok v => .ok v
  | .error e => .error (f e)
/-- `flatten_composable_result` (`convert.rs` 340-342). -/
def flattenComposableResult (r : Except (ComposableError E) T) : Except E T := mapErr r composableToCore
/-- `wrap_in_composable_result` (`convert.rs` 376-378). -/
def wrapInComposableResult (r : Except E T) : Except (ComposableError E) T := mapErr r coreToComposable
/-- `wrap_in_composable_result_boxed` (`convert.rs` 411-413). -/
def wrapInComposableResultBoxed (r : Except E T) : Except (ComposableError E) T :=
  mapErr r fun e => coreToComposable e
/-- `collect_errors` (`convert.rs` 443-454). -/
def collectErrors (errors : List E) : Validated E Unit :=
  if errors.isEmpty then .Valid () else Validated.invalidMany errors
/-- `split_validated_errors` (`convert.rs` 487-496). -/
def splitValidatedErrors : Validated E T → List (Except E T)
  | .Valid value => [.ok value]
  | .Invalid errors => errors.map .error

/-! ## `core.rs` -/

/-- `ErrorCategory::lift` for `Result`, `Either`, `Validated` (`core.rs` 98, 117, 136). -/
def ecLiftResult (v : T) : Except E T := .ok v
/-- `core.rs` 117-119. -/
def ecLiftEither (v : T) : Either E T := .Right v
/-- `core.rs` 136-138. -/
def ecLiftValidated (v : T) : Validated E T := .Valid v
/-- `ErrorCategory::handle_error` for `Result` (`core.rs` 103-105). -/
def ecHandleResult (e : E) : Except E T := .error e
/-- `ErrorCategory::handle_error` for `Either` (`core.rs` 122-124). -/
def ecHandleEither (e : E) : Either E T := .Left e
/-- `ErrorCategory::handle_error` for `Validated` (`core.rs` 141-143). -/
def ecHandleValidated (e : E) : Validated E T := Validated.invalid e

/-- `ErrorOps::recover` for `Result` (`core.rs` 215-223). -/
def recoverResult (r : Except E T) (recovery : E → Except E T) : Except E T :=
  match r with
  | .ok value => .ok value
  | .error error => recovery error
/-- `ErrorOps::bimap_result` for `Result` (`core.rs` 226-237), `ResultExt::bimap` (`error_utils.rs` 514-523),
`categorical_utils::bimap_result` (`categorical_utils.rs` 192-201). -/
def bimapResult (r : Except E T) (success : T → B) (error : E → F) : Except F B :=
  match r with
  | .ok v => .ok (success v)
  | .error e => .error (error e)
/-- `ErrorOps::recover` for `Either` (`core.rs` 243-251). -/
def recoverEither (r : Either E T) (recovery : E → Either E T) : Either E T :=
  match r with
  | .Right value => .Right value
  | .Left error => recovery error
/-- `ErrorOps::bimap_result` for `Either` (`core.rs` 253-265). -/
def bimapResultEither (r : Either E T) (success : T → B) (error : E → F) : Except F B :=
  match r with
  | .Right v => .ok (success v)
  | .Left e => .error (error e)

/-! ## `WithError` (`error_utils.rs`) -/

/-- `trait WithError<E>` (`error_utils.rs` 78-125), the method `to_result`; `none` is a panic. -/
class RWithError (C : Type) (E S : outParam Type) where
  toResult : C → Option (Except E S)

/-- `WithError for Result` (`error_utils.rs` 127-144), `to_result`. -/
instance : RWithError (Except E T) E T where
  toResult r := some r
/-- `WithError for Either` (`error_utils.rs` 146-166), `to_result`. -/
instance : RWithError (Either E T) E T where
  toResult
    | .Left e => some (.error e)
    | .Right t => some (.ok t)
/-- `WithError for Validated` (`error_utils.rs` 168-190), `to_result`: `unwrap` of the first error. -/
instance : RWithError (Validated E T) E T where
  toResult
    | .Valid t => some (.ok t)
    | .Invalid es => es.head?.map .error
/-- `WithError for Maybe` (`maybe.rs` 1331-1354), `to_result`. -/
instance : RWithError (Maybe T) MaybeError T where
  toResult m := some m.withErrorToResult

/-- `fmap_error` for `Result` (`error_utils.rs` 131-139). -/
def fmapErrorResult (r : Except E T) (f : E → G) : Except G T :=
  match r with
  | .ok t => .ok t
  | .error e => .error (f e)
/-- `fmap_error` for `Either` (`error_utils.rs` 150-158). -/
def fmapErrorEither (r : Either E T) (f : E → G) : Either G T :=
  match r with
  | .Left e => .Left (f e)
  | .Right t => .Right t
/-- `fmap_error` for `Validated` (`error_utils.rs` 172-182). -/
def fmapErrorValidated (r : Validated E T) (f : E → G) : Validated G T :=
  match r with
  | .Valid t => .Valid t
  | .Invalid es => .Invalid (es.map f)

/-- `Validated::from_result` (`core.rs` 1001-1008), `from_result_owned` (1044-1047). -/
def Validated.fromResult (r : Except E T) : Validated E T := resultToValidated r
/-- `Validated::to_result` (`core.rs` 1064-1071), `to_result_owned` (1088-1091). -/
def Validated.toResult (v : Validated E T) : Option (Except E T) := RWithError.toResult v

/-- `ResultExt::to_validated` (`error_utils.rs` 495-501). -/
def extToValidated : Except E T → Validated E T
  | .ok value => .Valid value
  | .error error => .Invalid [error]
/-- `ResultExt::unwrap_or_default` (`error_utils.rs` 507-512). -/
def extUnwrapOrDefault [Inhabited T] : Except E T → T
  | .ok v => v
  | .error _ => default

/-! ## `monad_error.rs` -/

/-- `MonadError::throw` for `Result` (`monad_error.rs` 250-252). -/
def throwResult (e : E) : Except E U := .error e
/-- `catch` for `Result` (`monad_error.rs` 255-264). -/
def catchResult (m : Except E T) (f : E → Except E T) : Except E T :=
  match m with
  | .ok value => .ok value
  | .error error => f error
/-- `catch_owned` for `Result` (`monad_error.rs` 267-277). -/
def catchOwnedResult (m : Except E T) (f : E → Except E T) : Except E T :=
  match m with
  | .ok value => .ok value
  | .error error => f error
/-- `map_error_to` for `Result` (`monad_error.rs` 286-295). -/
def mapErrorToResult (m : Except E T) (f : E → F) : Except F T :=
  match m with
  | .ok value => .ok value
  | .error error => .error (f error)
/-- `map_error_to_owned` for `Result` (`monad_error.rs` 298-308). -/
def mapErrorToOwnedResult (m : Except E T) (f : E → F) : Except F T :=
  match m with
  | .ok value => .ok value
  | .error error => .error (f error)
/-- `throw` for `Option` (`monad_error.rs` 315-317). -/
def throwOption (_ : Unit) : Option U := none
/-- `catch` for `Option` (`monad_error.rs` 320-329). -/
def catchOption (m : Option T) (f : Unit → Option T) : Option T :=
  match m with
  | some value => some value
  | none => f ()
/-- `catch_owned` for `Option` (`monad_error.rs` 332-342). -/
def catchOwnedOption (m : Option T) (f : Unit → Option T) : Option T :=
  match m with
  | some value => some value
  | none => f ()
/-- `map_error_to` for `Option` (`monad_error.rs` 350-359). -/
def mapErrorToOption (m : Option T) (f : Unit → F) : Except F T :=
  match m with
  | some value => .ok value
  | none => .error (f ())
/-- `map_error_to_owned` for `Option` (`monad_error.rs` 362-372). -/
def mapErrorToOwnedOption (m : Option T) (f : Unit → F) : Except F T :=
  match m with
  | some value => .ok value
  | none => .error (f ())

/-! ## The two isomorphism objects of `traits/iso.rs` about error types -/

/-- `ResultEitherIso::forward` (`iso.rs` 692-694). -/
def ResultEitherIso.forward (r : Except E T) : Either E T := resultToEither r
/-- `ResultEitherIso::backward` (`iso.rs` 696-698). -/
def ResultEitherIso.backward (e : Either E T) : Except E T := eitherToResult e
/-- `ResultValidatedIso::forward` (`iso.rs` 725-727). -/
def ResultValidatedIso.forward (r : Except E T) : Validated E T := Validated.fromResult r
/-- `ResultValidatedIso::backward` (`iso.rs` 729-731); `none` is the panic of `to_result`. -/
def ResultValidatedIso.backward (v : Validated E T) : Option (Except E T) := v.toResult

end

end Rustica
