import Verif.Error.Pipeline
import Verif.Error.Convert

/-!
# `examples/error.rs`

`content.parse::<i32>()` is the parameter `parse`; every theorem holds for every such function.  `&'static str` and
`String` are `String`, `Box` is the identity, the closures have no effect, so the world is `Unit`.
-/

namespace Rustica.ErrorExample

/-- `parse_config` (`error.rs` 6-8). -/
def parseConfig (parse : String → Option Int) (content : String) : Except String Int :=
  match parse content with
  | some n => .ok n
  | none => .error "Invalid number format"
/-- `connect_db` (`error.rs` 10-16). -/
def connectDb (timeoutMs : Int) : Except String String :=
  if timeoutMs < 100 then .error "Connection timeout too short" else .ok "db_connection_handle"
/-- `process_data` (`error.rs` 18-24); `%` is the remainder with the sign of the dividend. -/
def processData (connection : String) (value : Int) : Except String String :=
  if value.tmod 2 = 0 then .ok ("Processed " ++ toString value ++ " rows via " ++ connection)
  else .error "Value must be even number"

/-- `*e = e.with_context(s.to_string())` on a boxed error (`error.rs` 37-38, 48-49, 53-54). -/
def addContext {E : Type} (e : ComposableError E) (s : String) : ComposableError E :=
  (e.withContext (ofString s) ()).1

/-- The first `and_then` (`error.rs` 34-42, 73-81). -/
def connectStep (cfg : Int) : Except (ComposableError String) (String × Int) :=
  match mapErr (withContextResult (connectDb cfg) (ofString "DB connection attempt failed") ()).1
      (fun e => addContext e "Error occurred during DB connection") with
  | .ok conn => .ok (conn, cfg)
  | .error e => .error e
/-- The second `and_then` (`error.rs` 43-52, 82-91). -/
def processStep (p : String × Int) : Except (ComposableError String) String :=
  mapErr (withContextResult (processData p.1 p.2) (ofString "Error during data processing") ()).1
    (fun e => addContext e "Failed to complete data processing pipeline")

/-- The calls common to examples 1 and 2 (`error.rs` 32-52, 71-91). -/
def steps (parse : String → Option Int) (content : String) : ErrorPipeline String (ComposableError String) :=
  let p := ErrorPipeline.new (wrapInComposableResultBoxed (parseConfig parse content))
  let p := (p.withContext (ofString "Failed to parse configuration file") ()).1
  let p := (p.andThen (fun cfg w => (connectStep cfg, w)) ()).1
  (p.andThen (fun q w => (processStep q, w)) ()).1

/-- Example 1 (`error.rs` 32-57). -/
def example1 (parse : String → Option Int) (content : String) :
    Except (ComposableError (ComposableError String)) String :=
  (((steps parse content).recover
    (fun e w => (.error (addContext e "Recovery attempt initiated"), w)) ()).1).finish
/-- Example 2 (`error.rs` 71-92). -/
def example2 (parse : String → Option Int) (content : String) :
    Except (ComposableError (ComposableError String)) String := (steps parse content).finish

/-- What `main` prints for the outcome of example 1 or 2, without the trailing newlines (`error.rs` 59-64, 94-99);
the core of the error is a boxed `ComposableError`, whose `Display` is again its chain. -/
def report (r : Except (ComposableError (ComposableError String)) String) : String :=
  match r with
  | .ok message => "Success: " ++ message
  | .error e => "Error occurred:\n" ++ formatErrorChain (ComposableError.display id) e

/-- Example 3 (`error.rs` 103-113). -/
def example3 : String :=
  formatErrorChain id (accumulateContext "Transaction failed: insufficient permissions"
    (["Loading user preferences", "Validating authentication token", "Establishing secure connection",
      "Executing transaction"].map ofString) ()).1

end Rustica.ErrorExample
