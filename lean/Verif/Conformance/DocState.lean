import Verif.Trans.StateT

/-!
The examples in the documentation comments of `/repo/src/datatypes/state.rs` and `/repo/src/transformers/state_t.rs`
(compiled and run by `cargo test`), run on the model; each is named by the line its code block starts at.  They are
not proofs of any property; they check that the model computes what the documentation says the code computes.
-/

namespace Rustica.Conformance.DocState

open State

/-- `State::new` with a closure that does not panic. -/
def st {S A : Type} (f : S → A × S) : State S A := State.new fun s => some (f s)

def counter : State Int Int := st fun s => (s, s + 1)

/-- state.rs:10 -/
example : (counter.bind fun first => counter.bind fun second => counter.fmap fun third =>
      (first, second, third)).runState 0 = some ((0, 1, 2), 3) := rfl
example : ((State.get (S := String)).bind fun current => (State.modify (· ++ " world")).bind fun _ =>
      State.get.fmap fun final => (current, final)).runState "hello" =
    some (("hello", "hello world"), "hello world") := by decide +kernel

/-- state.rs:169, 371, 411 -/
example : counter.runState 0 = some (0, 1) ∧ counter.runState 10 = some (10, 11) ∧
    counter.runState 5 = some (5, 6) ∧ (st fun s : Int => (s, s * 2)).runState 5 = some (5, 10) ∧
    (st fun s : Int => (s, s * 2)).runState 21 = some (21, 42) := by decide

/-- state.rs:184 -/
example : ((State.get (S := Int)).bind fun x => (State.modify (· + x)).bind fun _ => State.get.bind fun y =>
      (State.put (y * 2)).bind fun _ => State.pure y).runState 2 = some (4, 8) := rfl

def push (x : Int) : State (List Int) Unit := st fun stack => ((), stack ++ [x])
def pop : State (List Int) (Option Int) := st fun stack => (stack.getLast?, stack.dropLast)

/-- state.rs:206 -/
example : (((((push 1).bind fun _ => push 2).bind fun _ => push 3).bind fun _ => pop).bind fun x =>
      pop.bind fun y => State.pure (x, y)).runState [] = some ((some 3, some 2), [1]) := rfl

/-- state.rs:296 -/
example : ((st fun s : Int => (s, s * 2)).bind fun x => st fun s => (x + s, s + 1)).runState 0 = some (0, 1) ∧
    (((st fun s : Int => (s * 2, s)).bind fun x => st fun s => (x + s, s + 1)).bind fun x =>
      st fun s => ("Result: " ++ x.repr, s * 2)).runState 3 = some ("Result: 9", 8) ∧
    ((st fun s : Int => (s + 1, s * 2)).fmap id).runState 5 = (st fun s : Int => (s + 1, s * 2)).runState 5 := by
  decide +kernel

/-- The loop of state.rs:450. -/
def fibs (f : State (Nat × Nat) Nat) : Nat → Nat × Nat → Option (List Nat)
  | 0, _ => some []
  | n + 1, s => (f.evalState s).bind fun v => (f.execState s).bind fun s' => (fibs f n s').map (v :: ·)

/-- state.rs:450, 505 -/
example : (st fun s : Int => (s * 2, s + 1)).evalState 5 = some 10 ∧
    fibs (State.get.bind fun (a, b) => (State.put (b, a + b)).bind fun _ => State.pure a) 10 (0, 1) =
      some [0, 1, 1, 2, 3, 5, 8, 13, 21, 34] ∧
    ([State.modify (· + 5), State.modify (· * 2), State.modify (· - 3)].foldl
      (fun acc op => acc.bind fun _ => op) (State.pure () : State Int Unit)).execState 0 = some 7 := by decide

/-- state.rs:560, 568, 585, 644, 656, 665 -/
example : let m : State Int Int := st fun s => (s * 3, s + 2)
    let f := fun (x : Int) => (st fun s => (x * 2, s + 5) : State Int Int)
    let g := fun (x : Int) => (st fun s => (x + 10, s * 2) : State Int Int)
    (counter.fmap fun x => (x + 2) * 3).runState 10 = ((counter.fmap (· + 2)).fmap (· * 3)).runState 10 ∧
    (counter.fmap (· * 2)).runState 5 = some (10, 6) ∧
    ((State.pure 10).bind f).runState 5 = (f 10).runState 5 ∧ (m.bind State.pure).runState 5 = m.runState 5 ∧
    ((counter.bind f).bind g).runState 3 = (counter.bind fun x => (f x).bind g).runState 3 := by decide

/-- state.rs:679 -/
example : let c := counter.bind fun x => if x.tmod 2 = 0 then st fun s => ("Even: " ++ x.repr, s * 2)
      else st fun s => ("Odd: " ++ x.repr, s + 10)
    c.runState 4 = some ("Even: 4", 10) ∧ c.runState 5 = some ("Odd: 5", 16) := by decide +kernel

/-- state.rs:749, 802, 855, 896, 940, 985 -/
example : (State.pure 42 : State Int Int).runState 10 = some (42, 10) ∧
    (State.pure "hello" : State Bool String).runState true = some ("hello", true) ∧
    ((State.pure (· + 1) : State Int (Int → Int)).apply (State.pure 41)).runState 0 = some (42, 0) ∧
    ((st fun s : Int => ((· + s), s + 1)).apply (st fun s => (s * 2, s + 2))).runState 5 = some (17, 8) ∧
    (st fun s : Int => (s * 2, s + 1)).execState 42 = some 43 ∧
    (State.get : State Int Int).runState 42 = some (42, 42) ∧
    ((State.get : State Int Int).bind fun s => State.pure (s * 2)).runState 21 = some (42, 21) ∧
    (State.put (42 : Int)).runState 0 = some ((), 42) ∧
    (State.put "new state").runState "old state" = some ((), "new state") ∧
    (State.modify fun x : Int => x + 1).runState 41 = some ((), 42) := by decide

/-- The fallible computation of state.rs:1014-1243. -/
def positive : State Int (Except String Int) :=
  st fun s => if s > 0 then (.ok (s * 2), s + 1) else (.error "Value must be positive", s)

def given : IntoErrorContext Unit := ofString "processing user input"

/-- state.rs:1014, 1052, 1097, 1132, 1171, 1209 -/
example : positive.tryRunState 5 = some (.ok 10, 6) := rfl
example : positive.tryRunState (-1) = some (.error (ComposableError.new "Value must be positive"), -1) := rfl
example : (positive.tryRunStateWithContext 5 given ()).1 = some (.ok 10, 6) := rfl
example : (positive.tryRunStateWithContext (-1) given ()).1 =
    some (.error ⟨"Value must be positive", ["processing user input"], none⟩, -1) := rfl
example : positive.tryEvalState 5 = some (.ok 10) := rfl
example : positive.tryEvalState (-1) = some (.error (ComposableError.new "Value must be positive")) := rfl
example : (positive.tryEvalStateWithContext 5 given ()).1 = some (.ok 10) := rfl
example : (positive.tryEvalStateWithContext (-1) given ()).1 =
    some (.error ⟨"Value must be positive", ["processing user input"], none⟩) := rfl
example : positive.tryExecState 5 = some (.ok 6) := rfl
example : positive.tryExecState (-1) = some (.error (ComposableError.new "Value must be positive")) := rfl
example : (positive.tryExecStateWithContext 5 given ()).1 = some (.ok 6) := rfl
example : (positive.tryExecStateWithContext (-1) given ()).1 =
    some (.error ⟨"Value must be positive", ["processing user input"], none⟩) := rfl

/-- state.rs:1254 -/
example : State.runState ⟨RStateT.new fun s : Int => some ⟨(s + 1, s + 1)⟩⟩ 1 = some (2, 2) := rfl

/-! ### `StateT` over `Option` -/

abbrev T (S A : Type) := RStateT S (Option (S × A)) A

def tr {S A : Type} (f : S → Option (S × A)) : T S A := RStateT.new fun s => some (f s)

/-- `m.and_then(f)` for a callback that can panic. -/
def andThen {A N : Type} (m : Option A) (f : A → Option (Option N)) : Option (Option N) :=
  match m with
  | some a => f a
  | none => some none

/-- state_t.rs:9, 143 -/
example : (tr fun s : Int => some (s + 1, s)).runState 10 = some (some (11, 10)) ∧
    (tr fun s : Int => some (s + 1, s)).runState 0 = some (some (1, 0)) := by decide

/-- state_t.rs:24: the state is the pair (value, increments) -/
example : let increment : T (Int × Int) Int := tr fun (v, n) => some ((v + 1, n + 1), v + 1)
    let double : T (Int × Int) Int := tr fun (v, n) => some ((v * 2, n + 1), v)
    (increment.bindWith (fun _ => double) fun m f => andThen m fun (s, _) => f (s, 0)).runState (5, 0) =
      some (some ((12, 2), 6)) := rfl

/-- state_t.rs:86 -/
example : (RStateT.new fun s : Nat => some (.ok (s + 1, s)) : RStateT Nat (Except String (Nat × Nat)) Nat).runState 5 =
    some (.ok (6, 5)) := rfl

/-- state_t.rs:223, 255, 287, 321 -/
example : (RStateT.get some : T Int Int).runState 42 = some (some (42, 42)) ∧
    (RStateT.modify (· * 2) some : T Int Unit).runState 21 = some (some (42, ())) ∧
    ((tr fun s : Int => some (s + 1, s * 2)).fmapWith (· + 10) fun m f => m.map f).runState 5 =
      some (some (6, 20)) := by decide
example : (RStateT.put 100 .ok : RStateT Int (Except String (Int × Int)) Int).runState 42 = some (.ok (100, 42)) := rfl

/-- state_t.rs:387 -/
example : let inc : T Int Int := tr fun s => some (s + 1, s + 1)
    let validate := fun (n : Int) => (tr fun s => if n > 10 then some (s, n * 2) else some (s, n) : T Int Int)
    (inc.bindWith validate andThen).runState 5 = some (some (6, 6)) ∧
    (inc.bindWith validate andThen).runState 10 = some (some (11, 22)) := by decide

/-- state_t.rs:532, 562 -/
example : (RStateT.pure "hello" some : T Int String).runState 42 = some (some (42, "hello")) ∧
    (tr fun s : Int => some (s + 1, "Value: " ++ s.repr)).execState 42 (fun o => o.map (·.1)) = some (some 43) := by
  decide +kernel

/-- state_t.rs:600 -/
example : ((tr fun s : Int => some (s + 1, 10)).apply (tr fun s : Int => some (s * 2, 5)) fun f v =>
      match f, v with
      | some (_, f), some (s2, v) => some (s2, f + v)
      | _, _ => none : T Int Int).runState 10 = some (some (20, 15)) := rfl

/-- state_t.rs:698 -/
example : let nested : T Int (T Int Int) := tr fun s => some (s + 1, tr fun inner => some (inner * 2, inner + s))
    (nested.join fun m => andThen m fun (outer, t) => t.runState outer).runState 10 = some (some (some (22, 21))) := rfl

def safeDiv : RStateT Int (Except String (Int × Int)) Int :=
  .new fun s => some (if s = 0 then .error "Division by zero" else .ok (s, Int.tdiv 100 s))
def safeDiv' : RStateT Int (Except String (Int × Int)) Int :=
  .new fun s => some (if s = 0 then .error "Division by zero" else .ok (s + 1, Int.tdiv 100 s))

/-- state_t.rs:777, 830, 891, 948, 990, 1038 -/
example : safeDiv.tryRunState 4 = some (.ok (4, 25)) := rfl
example : safeDiv.tryRunState 0 = some (.error (ComposableError.new "Division by zero")) := rfl
example : (safeDiv.tryRunStateWithContext 4 given ()).1 = some (.ok (4, 25)) := rfl
example : (safeDiv.tryRunStateWithContext 0 given ()).1 =
    some (.error ⟨"Division by zero", ["processing user input"], none⟩) := rfl
example : (safeDiv.mapError String.utf8ByteSize).runState 0 = some (.error 16) := rfl
example : safeDiv.tryEvalState 4 = some (.ok 25) := rfl
example : safeDiv.tryEvalState 0 = some (.error (ComposableError.new "Division by zero")) := rfl
example : (safeDiv.tryEvalStateWithContext 4 given ()).1 = some (.ok 25) := rfl
example : (safeDiv.tryEvalStateWithContext 0 given ()).1 =
    some (.error ⟨"Division by zero", ["processing user input"], none⟩) := rfl
example : safeDiv'.tryExecState 4 = some (.ok 5) := rfl
example : safeDiv'.tryExecState 0 = some (.error (ComposableError.new "Division by zero")) := rfl

/-- state_t.rs:1080, 1112 -/
example : (RStateT.new (A := Int) fun s : Int => some (⟨(s * 2, s + 1)⟩ : RId (Int × Int))).toState.runState 21 =
    some (22, 42) := rfl
example : (RStateT.fromState (st fun s : Int => (s * 2, s + 1))).runState 21 = some ⟨(22, 42)⟩ := rfl

end Rustica.Conformance.DocState
