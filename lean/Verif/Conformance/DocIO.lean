import Verif.Effect.IO
import Verif.Data.Writer
import Verif.Data.Std

/-!
The examples in the documentation comments of `/repo/src/datatypes/io.rs` and `writer.rs` (compiled and run by
`cargo test`), run on the model; each is named by the line its code block starts at.  They are not proofs of any
property; they check that the model computes what the documentation says the code computes.
-/

namespace Rustica.Conformance.DocIO

open RIO

/-- What the closures of the examples print. -/
abbrev Out := List String

abbrev P (A : Type) := RIO Out A

/-- A closure without effects. -/
def q {A B : Type} (f : A → B) : A → Act Out B := fun a => Act.ret (f a)
/-- `IO::new` of a closure without effects. -/
def eff {A : Type} (a : A) : P A := RIO.new (Act.ret a)
/-- `println!`. -/
def say {A : Type} (s : String) (a : A) : P A := RIO.new fun w => (.ok a, w ++ [s])
/-- `IO::new(|| panic!(…))`. -/
def boom {A : Type} (s : String) : P A := RIO.new fun w => (.error (.str s), w)
/-- `build().run()` in an empty world: the outcome and what was printed. -/
def go {A : Type} (c : Act Out (P A)) : Except Panic A × Out := c.seq run []

/-- io.rs:11 -/
example : go ((RIO.pure 42 : P Int).fmap (q (· * 2))) = (.ok 84, []) := rfl
example : go (((RIO.pure 42 : P Int).bind (q fun x => RIO.pure (x + 10))).seq fun m =>
    m.bind (q fun x => RIO.pure (x * 2))) = (.ok 104, []) := rfl
example : (RIO.combine (RIO.pure 42 : P Int) (say "Computing value..." 10)).run [] =
    (.ok (42, 10), ["Computing value..."]) := rfl
example : ((eff 21 : P Int).tryGet []).1 = .ok (.ok 21) := rfl
example : (((eff 42 : P Int).bind (q fun x => eff (x * 2))).seq
    (·.tryGetComposableWithContext "processing data")) [] = (.ok (.ok 84), []) := rfl
example : ((boom "failed" : P Int).recover (q fun _ => RIO.pure 0)).run [] = (.ok 0, []) := rfl
example : ((RIO.pure 100 : P Int).intoErrorPipeline.seq fun p w =>
    (.ok ((p.withContext (ofString "Step 1") w).1.finish).toOption, w)) [] = (.ok (some 100), []) := rfl

/-- io.rs:146, 187 -/
example : (RIO.pure 42 : P Int).run [] = (.ok 42, []) := rfl
example : (RIO.pure "hello" : P String).run [] = (.ok "hello", []) := rfl
example : go ((RIO.pure 42 : P Int).bind (q fun x => RIO.pure (x + 1))) = (.ok 43, []) := rfl
example : (RIO.pure 42 : P Int).tryGet [] = (.ok (.ok 42), []) := rfl
example : go (((RIO.pure 42 : P Int).bind (q fun x => eff (x + 1))).seq fun m => m.fmap (q (· * 2))) =
    (.ok 86, []) := rfl

/-- io.rs:173 -/
example : (boom "fail" : P Int).tryGet [] = (.ok (.error (ComposableError.new (.Other "fail"))), []) := rfl

/-- io.rs:211, 231 -/
example : go ((RIO.pure 42 : P Int).fmap (q id)) = (RIO.pure 42 : P Int).run [] := rfl
example : go ((RIO.pure 42 : P Int).fmap (q fun x => (x + 1) * 2)) =
    go (((RIO.pure 42 : P Int).fmap (q (· + 1))).seq fun m => m.fmap (q (· * 2))) := rfl
example : go ((RIO.pure 42 : P Int).bind (q RIO.pure)) = (RIO.pure 42 : P Int).run [] := rfl

/-- io.rs:302, 324, 339 -/
example : (boom "database error" : P Int).tryGetComposableWithContext "fetching user" [] =
    (.ok (.error ⟨.Other "database error", ["fetching user"], none⟩), []) := rfl
example : ((boom "primary failed" : P Int).recover fun _ w => (.ok (RIO.pure 0), w ++ ["Recovering"])).run [] =
    (.ok 0, ["Recovering"]) := rfl

/-- io.rs:354, 1191 -/
example : RIO.sequenceComposable [(RIO.pure 1 : P Int), RIO.pure 2, RIO.pure 3] [] = (.ok (.ok [1, 2, 3]), []) := rfl
example : RIO.sequenceComposable [(RIO.pure 1 : P Int), boom "error 1", RIO.pure 3, boom "error 2"] [] =
    (.ok (.error [ComposableError.new (.Other "error 1"), ComposableError.new (.Other "error 2")]), []) := rfl

/-- io.rs:408, 503, 641 -/
example : (eff (List.replicate 1000 0).length : P Nat).run [] = (.ok 1000, []) := by
  rw [List.length_replicate]; rfl
example : (say "Performing an IO operation" 42 : P Int).run [] = (.ok 42, ["Performing an IO operation"]) := rfl
example : go ((say "Performing an IO operation" 42 : P Int).fmap (q (· * 2))) =
    (.ok 84, ["Performing an IO operation"]) := rfl

/-- io.rs:523 (with a suffix for `to_uppercase`) -/
example : go ((eff "user input" : P String).bind fun input => (eff (input ++ "!") : P String).bind
    (q fun processed => eff ("Output: " ++ processed))) = (.ok "Output: user input!", []) := rfl

/-- io.rs:549 -/
example : let fallback : Except String Int → P Int := fun r => match r with
      | .ok v => RIO.pure v
      | .error _ => RIO.pure 0
    go ((eff (.ok 42)).bind (q fallback)) = (.ok 42, []) ∧
    go ((eff (.error "Operation failed")).bind (q fallback)) = (.ok 0, []) := ⟨rfl, rfl⟩

/-- io.rs:673 -/
example : (eff 42 : P Int).runAsync (fun _ => "") [] = (.ok 42, []) := rfl

/-- io.rs:708, 729, 812, 847, 875, 912 -/
example : (RIO.pure 42 : P Int).isPure = true ∧ (eff 42 : P Int).isPure = false ∧
    (RIO.pure 42 : P Int).isEffect = false ∧ (eff 42 : P Int).isEffect = true := by decide
example : go ((RIO.pure 42 : P Nat).fmap (q fun n => "The answer is " ++ n.repr)) = (.ok "The answer is 42", []) := rfl
example : go ((RIO.pure 42 : P Int).bind (q fun x => RIO.pure (x + 10))) = (.ok 52, []) := rfl

/-- io.rs:953, 1008, 1053, 1092 -/
example : (RIO.pure 42 : P Int).tryGetWithContext "calculating answer" [] = (.ok (.ok 42), []) := rfl
example : (boom "computation failed" : P Int).tryGetWithContext "critical calculation" [] =
    (.ok (.error ⟨.Other "computation failed", ["critical calculation"], none⟩), []) := rfl
example : (RIO.pure 42 : P Int).tryGetComposable [] = (.ok (.ok 42), []) := rfl
example : (boom "computation failed" : P Int).tryGetComposable [] =
    (.ok (.error (ComposableError.new (.Other "computation failed"))), []) := rfl
example : (((RIO.pure 42 : P Int).bind (q fun x => if x > 50 then boom "Value too large" else eff (x * 2))).seq
    (·.tryGetComposableWithContext "processing user input")) [] = (.ok (.ok 84), []) := rfl
example : (boom "database error" : P Int).tryGetComposableWithContext "fetching user data" [] =
    (.ok (.error ⟨.Other "database error", ["fetching user data"], none⟩), []) := rfl

/-- io.rs:1121, 1155 -/
example : ((RIO.pure 42 : P Int).recover (q fun _ => RIO.pure 0)).run [] = (.ok 42, []) := rfl
example : ((boom "failed" : P Int).recoverWith 42).run [] = (.ok 42, []) := rfl
example : ((RIO.pure 100 : P Int).recoverWith 42).run [] = (.ok 100, []) := rfl

/-- io.rs:1247, 1276 -/
example : go ((RIO.pure 10 : P Int).apply (RIO.pure (q (· * 2)))) = (.ok 20, []) := rfl
example : go ((RIO.pure 5 : P Int).apply (eff (q (· * 3)))) = (.ok 15, []) := rfl
example : go (((RIO.pure 10 : P Int).apply (RIO.pure (q (· + 5)))).seq fun m => m.apply (RIO.pure (q (· * 2)))) =
    (.ok 30, []) := rfl
example : go ((RIO.pure 42 : P Int).apply (RIO.pure (q id))) = (RIO.pure 42 : P Int).run [] := rfl
example : go ((RIO.pure 21 : P Int).apply (RIO.pure (q (· * 2)))) = (RIO.pure (21 * 2) : P Int).run [] := rfl

/-- io.rs:1374, 1398, 1431, 1455 -/
example : (RIO.delaySync (fun n w => (.ok (), w ++ ["slept " ++ n.repr])) 10 123 : P Int).run [] =
    (.ok 123, ["slept 10"]) := rfl
example : (RIO.when (Act.ret true) (Act.ret 42) (Act.ret 0) : P Int).run [] = (.ok 42, []) := rfl
example : (RIO.combine (RIO.pure 10 : P Int) (RIO.pure 20 : P Int)).run [] = (.ok (10, 20), []) := rfl
example : (RIO.sequence [(RIO.pure 1 : P Int), RIO.pure 2, RIO.pure 3]).run [] = (.ok [1, 2, 3], []) := rfl

end Rustica.Conformance.DocIO

namespace Rustica.Conformance.DocWriter

/-- The log type of the examples, `struct Log(Vec<String>)`, combined by concatenation. -/
abbrev L := Writer (List String) Int

/-- writer.rs:10, with `String` as the log -/
example : let w1 : Writer String Int := ⟨"Starting computation", 42⟩
    (RFunctor.fmap (· * 2) w1 : Writer String Int) = ⟨"Starting computation", 84⟩ ∧
    (RMonad.bind (RMonad.bind (⟨"Step 1", 10⟩ : Writer String Int) fun x => (⟨"Step 2", x + 5⟩ : Writer String Int))
      fun x => (⟨"Step 3", x * 2⟩ : Writer String Int)) = (⟨"Step 1Step 2Step 3", 30⟩ : Writer String Int) ∧
    (RMonad.bind (Writer.tell "Important note") fun _ => (⟨"Final result", 100⟩ : Writer String Int)).run =
      ("Important noteFinal result", 100) := by decide +kernel

def double (x : Int) : L := ⟨["Doubled " ++ x.repr ++ " to " ++ (x * 2).repr], x * 2⟩
def addTen (x : Int) : L := ⟨["Added 10 to " ++ x.repr ++ " to get " ++ (x + 10).repr], x + 10⟩

/-- writer.rs:112, 210, 257, 305, 349, 403 -/
example : let r : L := RMonad.bind (RMonad.bind (⟨["Starting with 5"], 5⟩ : L) double : L) addTen
    r.run.2 = 20 ∧ r.run.1.length = 3 := by decide +kernel
example : (⟨["Created value 42"], 42⟩ : L).run = (["Created value 42"], 42) ∧
    (Writer.tell ["Important log message"]).run = (["Important log message"], ()) ∧
    (⟨["Log entry"], 42⟩ : L).value = 42 ∧ (⟨["Log entry"], 42⟩ : L).log = ["Log entry"] := by decide

/-- writer.rs:538, 609, 679, 739, 813, 881 -/
example : (RApplicative.apply ⟨["Function: add 5"], (· + 5)⟩ (⟨["Value: 10"], 10⟩ : L) : L).run =
      (["Function: add 5", "Value: 10"], 15) ∧
    (RApplicative.lift2 (· + ·) (⟨["Value a: 10"], 10⟩ : L) (⟨["Value b: 5"], 5⟩ : L) : L).run =
      (["Value a: 10", "Value b: 5"], 15) ∧
    (RApplicative.lift3 (fun x y z => x * y * z) (⟨["Log A"], 2⟩ : L) (⟨["Log B"], 3⟩ : L) (⟨["Log C"], 4⟩ : L) : L).run =
      (["Log A", "Log B", "Log C"], 24) ∧
    (RApplicative.applyOwned ⟨["Function: add 5"], (· + 5)⟩ (⟨["Value: 10"], 10⟩ : L) : L).run =
      (["Function: add 5", "Value: 10"], 15) ∧
    (RApplicative.lift2Owned (· + ·) (⟨["Value a: 10"], 10⟩ : L) (⟨["Value b: 5"], 5⟩ : L) : L).run =
      (["Value a: 10", "Value b: 5"], 15) ∧
    (RApplicative.lift3Owned (fun x y z => x + y * z) (⟨["Value a: 10"], 10⟩ : L) (⟨["Value b: 5"], 5⟩ : L)
      (⟨["Value c: 2"], 2⟩ : L) : L).run = (["Value a: 10", "Value b: 5", "Value c: 2"], 20) := by decide

/-- writer.rs:954, 1022, 1080, 1139 -/
example : (RMonad.bind (⟨["Starting with 3"], 3⟩ : L) double : L).run = (["Starting with 3", "Doubled 3 to 6"], 6) ∧
    (RMonad.bindOwned (⟨["Initial"], 10⟩ : L) fun x => (⟨["Processed"], x * 2⟩ : L)).run =
      (["Initial", "Processed"], 20) ∧
    (RMonad.join id (⟨["Outer log"], ⟨["Inner log"], 42⟩⟩ : Writer (List String) L) : L).run =
      (["Outer log", "Inner log"], 42) ∧
    (RMonad.joinOwned id (⟨["Outer log"], ⟨["Inner log"], 42⟩⟩ : Writer (List String) L) : L).run =
      (["Outer log", "Inner log"], 42) := by decide +kernel

end Rustica.Conformance.DocWriter
