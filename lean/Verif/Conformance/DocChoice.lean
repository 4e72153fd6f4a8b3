import Verif.Data.Choice

/-!
The examples in the documentation comments of `/repo/src/datatypes/choice.rs` (compiled and run by `cargo test`),
run on the model; each is named by the line its code block starts at.  They are not proofs of any property; they check
that the model computes what the documentation says the code computes.
-/

namespace Rustica.Choice.Conformance

open Choice

/-- choice.rs:12 -/
example : let servers := new "primary.example.com" ["backup1.example.com", "backup2.example.com"]
    let ports := new "443" ["8443"]
    let connections := servers.bind fun host => fmap (fun port => host ++ ":" ++ port) ports
    servers.first = some "primary.example.com" ∧ servers.alternatives.length = 2 ∧
    (fmap (fun host => "https://" ++ host ++ "/api") servers).first = some "https://primary.example.com/api" ∧
    connections.first = some "primary.example.com:443" ∧
    "primary.example.com:8443" ∈ connections.alternatives := by decide +kernel

/-- choice.rs:72 -/
example : let choice := new 10 [20, 30, 40]
    choice.first = some 10 ∧ choice.toVec = [10, 20, 30, 40] ∧ (fmap (· * 2) choice).first = some 20 ∧
    (choice.addAlternatives [50, 60]).alternatives.length = 5 ∧
    (choice.filter (· < 35)).first = some 10 ∧ (choice.filter (· < 35)).alternatives = [20, 30] ∧
    (choice.filterValues (· > 25)).first = some 30 := by decide

/-- choice.rs:110 -/
example : let user := new "user123" ["user456", "user789"]
    ((user.bind fun name => if name.utf8ByteSize ≥ 5 then new name [] else newEmpty).bind
      fun name => new ("verified_" ++ name) []).first = some "verified_user123" := by decide +kernel

/-- choice.rs:206, 223, 277, 311, 359, 392 -/
example : (newEmpty : Choice Int).isEmpty = true ∧ (newEmpty : Choice Int).first = none ∧
    (newEmpty : Choice Int).alternatives = [] ∧ (newEmpty : Choice Int).len = 0 ∧
    (new 1 [2, 3, 4]).first = some 1 ∧ (new 1 [2, 3, 4]).alternatives = [2, 3, 4] ∧ (new 1 [2, 3, 4]).len = 4 ∧
    (new "primary" []).first = some "primary" ∧ (new "primary" []).alternatives = [] ∧
    (new "hello" ["world"]).first = some "hello" ∧ (new 100 []).first = some 100 ∧
    (new 100 [200]).alternatives = [200] ∧ (new 100 []).len = 1 ∧
    (new 1 [2, 3]).isEmpty = false ∧ (new 42 []).isEmpty = false := by decide

/-- choice.rs:560 -/
example : let at' := fun (c : Choice Nat) i => (c.removeAlternative i).toOption.map values
    at' (new 10 [20, 30, 40]) 1 = some [10, 20, 40] ∧ at' (new 10 [20, 30]) 0 = some [10, 30] ∧
    at' (new 100 [200, 300, 400]) 2 = some [100, 200, 300] := by decide

/-- choice.rs:585, 594, 602: the three panics -/
example : ((new 1 [2, 3]).removeAlternative 2).toOption.isNone = true ∧
    ((new 1 ([] : List Nat)).removeAlternative 0).toOption.isNone = true ∧
    ((newEmpty : Choice Nat).removeAlternative 0).toOption.isNone = true := by decide

/-- choice.rs:730 -/
example : ((new [1, 2] [[3, 4], [5]]).flatten).toOption.map values = some [1, 2, 3, 4, 5] ∧
    ((fmap String.toList (new "hello" ["world", "rust"])).flatten).toOption.map values =
      some ['h', 'e', 'l', 'l', 'o', 'w', 'o', 'r', 'l', 'd', 'r', 'u', 's', 't'] ∧
    ((new [10, 20, 30] [[], [40]]).flatten).toOption.map values = some [10, 20, 30, 40] ∧
    ((newEmpty : Choice (List Nat)).flatten).toOption.map values = some [] := by decide +kernel

/-- choice.rs:815 -/
example : ((new [1, 2] [[3, 4]]).tryFlatten).toOption.map values = some [1, 2, 3, 4] ∧
    ((new [] [[1, 2]]).tryFlatten).toOption.isNone = true := by decide

/-- choice.rs:916 -/
example : (ofMany [10, 20, 30, 40]).first = some 10 ∧ (ofMany [10, 20, 30, 40]).alternatives = [20, 30, 40] ∧
    (ofMany [1, 2, 3]).first = some 1 ∧ (ofMany [1, 2, 3]).alternatives = [2, 3] ∧
    (ofMany [100]).first = some 100 ∧ (ofMany [100]).alternatives = [] ∧
    (ofMany ([] : List Nat)).isEmpty = true ∧ (ofMany ([] : List Nat)).first = none := by decide

/-- choice.rs:994 -/
example : let choice := new 1 [2, 3, 4, 5, 6]
    (choice.filterValues (· % 2 == 0)).values = [2, 4, 6] ∧ (choice.filterValues (· > 3)).values = [4, 5, 6] ∧
    ((new 10 [1, 12, 3, 14]).filterValues (· % 2 == 0)).values = [10, 12, 14] ∧
    (choice.filterValues (· > 100)).isEmpty = true ∧ (choice.filterValues (· > 100)).first = none ∧
    ((newEmpty : Choice Nat).filterValues (· > 0)).isEmpty = true ∧
    (choice.filterValues fun _ => true).values = [1, 2, 3, 4, 5, 6] := by decide

/-- choice.rs:1066, 1110 -/
example : (new 10 [20, 30, 40]).toVec = [10, 20, 30, 40] ∧ (newEmpty : Choice Nat).toVec = [] ∧
    (new 10 [20, 30, 40]).iterAlternatives = [20, 30, 40] ∧ (new 100 []).iterAlternatives = [] ∧
    (newEmpty : Choice Nat).iterAlternatives = [] := by decide

/-- choice.rs:1187 -/
example : ((new 1 [2, 3]).bindLazy fun x => new (x * 10) [x * 20]).take 4 = [10, 20, 20, 40] := by decide

/-- choice.rs:1228 -/
example : ((new 10 [20, 30, 40]).trySwapWithAlternative 1).toOption.map values = some [30, 20, 10, 40] ∧
    ((new 10 []).trySwapWithAlternative 0).toOption.isNone = true := by decide

/-- choice.rs:1334, 1346, 1405, 1420, 1432 -/
example : fmap id (new 1 [2, 3]) = new 1 [2, 3] ∧
    fmap (· * 2) (fmap (· + 10) (new 1 [2, 3])) = fmap (fun x => (x + 10) * 2) (new 1 [2, 3]) ∧
    (RPure.pure 5 : Choice Nat).bind (fun x => new (x * 2) [x * 3]) = new (5 * 2) [5 * 3] ∧
    (new 10 [20, 30]).bind (fun x => (RPure.pure x : Choice Nat)) = new 10 [20, 30] ∧
    ((new 5 [10]).bind fun x => new (x + 1) [x + 2]).bind (fun x => new (x * 2) [x * 3]) =
      (new 5 [10]).bind fun x => (new (x + 1) [x + 2]).bind fun x => new (x * 2) [x * 3] := by decide

/-- choice.rs:1645, 1659, 1675 -/
example : apply (RPure.pure id) (new 5 [10, 15]) = new 5 [10, 15] ∧
    apply (RPure.pure (· * 2)) (RPure.pure 7 : Choice Nat) = RPure.pure (7 * 2) ∧
    apply (new (· + 1) [(· * 2)]) (RPure.pure 3 : Choice Nat) = fmap (fun f => f 3) (new (· + 1) [(· * 2)]) := by
  decide

/-- choice.rs:1962 -/
example : sequence (new (some 1) [some 2, some 3]) = some (new 1 [2, 3]) ∧
    sequence (new (some 1) [none, some 3]) = none := by decide

end Rustica.Choice.Conformance
