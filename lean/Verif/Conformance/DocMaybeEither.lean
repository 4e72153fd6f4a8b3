import Verif.Data.Access
import Verif.Error.Convert

/-!
The examples in the documentation comments of `/repo/src/datatypes/maybe.rs` and `either.rs` (compiled and run by
`cargo test`), run on the model; each is named by the line its code block starts at.  They are not proofs of any
property; they check that the model computes what the documentation says the code computes.
-/

namespace Rustica.Conformance.DocMaybe

open Maybe

abbrev M := Maybe Int

/-- `bind`, at `i32`. -/
def bind (m : M) (f : Int → M) : M := RMonad.bind m f

def safeDivide (x y : Int) : M := if y = 0 then Nothing else Just (x.tdiv y)

/-- maybe.rs:13, 81, 984 -/
example : bind (bind (Just 10) fun x => Just (x + 5)) (fun x => Just (x * 2)) = Just 30 ∧
    (RFunctor.fmap (· * 2) (Nothing : M) : M) = Nothing ∧
    bind (Just 10) (safeDivide · 2) = Just 5 ∧ bind (Just 10) (safeDivide · 0) = Nothing ∧
    bind (bind (bind (Just 10) (safeDivide · 2)) (safeDivide · 0)) (fun x => Just (x + 1)) = Nothing ∧
    bind (Just 5) (fun x => Just (x * 2)) = Just 10 ∧
    bind (bind (Just 5) fun x => Just (x + 3)) (fun x => Just (x * 2)) = Just 16 ∧
    bind Nothing (fun x => Just (x * 2)) = Nothing := by decide

/-- maybe.rs:214, 855 -/
example : (RApplicative.lift2 (· + ·) (Just 5) (Just 10) : M) = Just 15 ∧
    (RApplicative.lift2 (· + ·) (Just 5) Nothing : M) = Nothing := by decide

/-- maybe.rs:297, 319, 337, 357, 383, 414, 441, 467, 497, 504, 522, 543, 572, 597, 623, 644 -/
example : mkWhen true 42 = (Just 42 : M) ∧ mkWhen false 42 = (Nothing : M) ∧
    (Just 2 : M).isJust = true ∧ (Nothing : M).isJust = false ∧ (Just 2 : M).isNothing = false ∧
    (Nothing : M).isNothing = true ∧ (fromOption (some 42) : M).isJust = true ∧
    (fromOption none : M).isNothing = true ∧ (Just 42 : M).toOption = some 42 ∧ (Nothing : M).toOption = none ∧
    (Just "air").unwrap = some "air" ∧ (Nothing : Maybe String).unwrap = none ∧
    (Just 42 : M).unwrapOr 0 = 42 ∧ (Nothing : M).unwrapOr 0 = 0 ∧
    (Just 41 : M).fmapOr 0 (· + 1) = 42 ∧ (Nothing : M).fmapOr 0 (· + 1) = 0 ∧
    (Just 42 : M).unwrapOrElse (fun _ => 10) = 42 ∧ (Nothing : M).unwrapOrElse (fun _ => 10) = 10 ∧
    (Just 4 : M).filter (· > 2) = Just 4 ∧ (Just 4 : M).filter (· > 5) = Nothing ∧
    (Nothing : M).filter (· > 2) = Nothing := by decide

example : (Just 42 : M).toResult "No value present" = .ok 42 := rfl
example : (Nothing : M).toResult "No value present" = .error "No value present" := rfl
example : (Just 42 : M).toStandardResult = .ok 42 := rfl
example : (Nothing : M).toStandardResult = .error .ValueNotPresent := rfl

/-- maybe.rs:693, 711, 734, 1294, 1404, 1440 -/
example : (Just 42 : M).toVec = [42] ∧ (Nothing : M).toVec = [] ∧ (Just 42 : M).iterMutMap (· + 10) = Just 52 ∧
    (fromIter [1, 2, 3] : M) = Just 1 ∧ (fromIter [] : M) = Nothing ∧
    (Just 1 : M).intoIter.next.1 = some 1 ∧ (Just 1 : M).intoIter.next.2.next.1 = none ∧
    (Nothing : M).intoIter.next.1 = none := by decide

example : RIdentity.value (Just 10 : M) = .ok 10 := rfl

/-- maybe.rs:777, 802, 829, 896, 922 -/
example : (RFunctor.fmap (· * 2) (Just 5 : M) : M) = Just 10 ∧
    RFunctor.fmapOwned String.utf8ByteSize (Just "hello") = Just 5 ∧
    RFunctor.fmapOwned String.utf8ByteSize (Nothing : Maybe String) = Nothing ∧
    (RApplicative.apply (Just (· + 1)) (Just 1) : M) = Just 2 ∧
    (RApplicative.apply (Just (· + 1)) Nothing : M) = Nothing ∧
    RApplicative.applyOwned (Just String.utf8ByteSize) (Just "test") = Just 4 ∧
    RApplicative.lift2Owned (· ++ ·) (Just "hello") (Just " world") = Just "hello world" := by decide +kernel

/-- maybe.rs:1033, 1085, 1136 -/
example : (RMonad.bindOwned (Just "hello") fun s => if s.utf8ByteSize > 3 then Just (s ++ " world") else Nothing) =
      Just "hello world" ∧
    (RMonad.join id (Just (Just 42)) : M) = Just 42 ∧ (RMonad.join id (Just Nothing) : M) = Nothing ∧
    (RMonad.join id (Nothing : Maybe M) : M) = Nothing ∧
    RMonad.joinOwned id (Just (Just "hello")) = Just "hello" := by decide +kernel

/-- maybe.rs:1168, 1183, 1220, 1235, 1260 -/
example : (RMonadPlus.mzero : M) = Nothing ∧ RMonadPlus.mplus (Just 1) (Just 2) = (Just 1 : M) ∧
    RMonadPlus.mplus (Just 1) Nothing = (Just 1 : M) ∧ RMonadPlus.mplus Nothing (Just 2) = (Just 2 : M) ∧
    RMonadPlus.mplus Nothing Nothing = (Nothing : M) ∧ (RAlternative.emptyAlt : M) = Nothing ∧
    RAlternative.alt (Just 1) (Just 2) = (Just 1 : M) ∧ RAlternative.alt (Just 1) Nothing = (Just 1 : M) ∧
    RAlternative.alt Nothing (Just 2) = (Just 2 : M) ∧ RAlternative.alt Nothing Nothing = (Nothing : M) ∧
    (RAlternative.guard true : Maybe Unit) = Just () ∧ (RAlternative.guard false : Maybe Unit) = Nothing := by decide

end Rustica.Conformance.DocMaybe

namespace Rustica.Conformance.DocEither

open Either

abbrev E := Either String Int

def safeDivide (a b : Int) : E := if b = 0 then Left "Division by zero" else Right (a.tdiv b)

/-- either.rs:11 (without the square root), 111, 135 -/
example : (RFunctor.fmap (· * 2) (Right 42 : E) : E) = Right 84 ∧
    (RFunctor.fmap (· * 2) (Left "Something went wrong" : E) : E) = Left "Something went wrong" ∧
    (Left 42 : Either Int String).fmapLeft (· * 2) = Left 84 ∧
    (RMonad.bind (safeDivide 10 2) (safeDivide · 1) : E) = Right 5 ∧
    (RMonad.bind (safeDivide 10 2) (safeDivide · 0) : E) = Left "Division by zero" := by decide

/-- either.rs:196, 1257, 1293, 1329 -/
example : (Right 42 : E).iter = [42] ∧ (Left "error" : E).iter = [] ∧
    (Left 100 : Either Int String).leftIter = [100] ∧ (Right "success" : Either Int String).leftIter = [] ∧
    (Right 42 : E).iterMutMap (· + 1) = Right 43 ∧
    (Right 42 : E).intoIter.next.1 = some 42 ∧ (Left "err" : E).intoIter.next.1 = none := by decide

/-- either.rs:280, 298, 315, 334, 356, 389, 461, 486, 599, 623, 650, 747 -/
example : (Left 42 : Either Int String).isLeft = true ∧ (Right "hello" : Either Int String).isRight = true ∧
    (Right "test" : Either Int String).isLeft = false ∧ (Left 1 : Either Int String).isRight = false ∧
    (Left 10 : Either Int String).fmapLeft (· * 2) = Left 20 ∧
    (Right "hello" : Either Int String).fmapLeft (· * 2) = Right "hello" ∧
    (Right 10 : E).fmapRight (· * 2) = Right 20 ∧ (Left "error" : E).fmapRight (· * 2) = Left "error" ∧
    (Right 42 : E).unwrapRight = some 42 ∧ (Right 42 : E).unwrapOr 0 = 42 ∧ (Left "error" : E).unwrapOr 0 = 0 ∧
    (Left 42 : Either Int String).leftOr 0 = 42 ∧ (Right "ok" : Either Int String).leftOr 0 = 0 ∧
    (Right 10 : E).rightOption = some 10 ∧ (Left "error" : E).rightOption = none ∧
    (Left 42 : Either Int String).leftOption = some 42 ∧ (Right "ok" : Either Int String).leftOption = none := by
  decide

/-- either.rs:163, 675, 699 -/
example : resultToEither (.ok 42 : Except String Int) = Right 42 ∧
    resultToEither (.error "oops" : Except String Int) = Left "oops" := by decide
example : eitherToResult (Right 42 : E) = .ok 42 := rfl
example : eitherToResult (Left "failed" : E) = .error "failed" := rfl

/-- either.rs:1103, 1170 -/
example : (RMonadPlus.mzero : E) = Left "" ∧ RMonadPlus.mplus (Right 42) (Left "error") = (Right 42 : E) ∧
    RMonadPlus.mplus (Left "error") (Right 42) = (Right 42 : E) ∧ (RAlternative.emptyAlt : E) = Left "" ∧
    RAlternative.alt (Right 42) (Left "error") = (Right 42 : E) ∧
    RAlternative.alt (Left "error") (Right 42) = (Right 42 : E) := by decide

end Rustica.Conformance.DocEither
