import Verif.Model.Capture

/-!
# Which output belongs to which test

`crates/abq_runners/generic_test_runner/src/lib.rs:1163-1275`: a test is sent to the native runner, and the output captured
between the messages it answers with is attached to the results.
-/

namespace Abq.Attribution
open Abq.Capture (Byte)

/-- `abq_utils/src/capture_output.rs` `StdioOutput`. -/
structure Stdio where
  stdout : List Byte
  stderr : List Byte
deriving DecidableEq, Repr

/-- `runners.rs` `TestResult`: its id and the output attached to it; the rest does not matter here. -/
structure TestResult where
  id : Nat
  stdout : Option (List Byte) := none
  stderr : Option (List Byte) := none
deriving DecidableEq, Repr

/-- `v0_2.rs:305-342` `TestResultMessage`, after `reify`. -/
inductive Msg where
  | single (r : TestResult)
  | multiple (rs : List TestResult)
  | one (r : TestResult)
  | done (last : Option TestResult)
deriving DecidableEq, Repr

/-- `queue.rs` `AssociatedTestResults`, without the work id and attempt. -/
structure Associated where
  results : List TestResult
  beforeAny : Stdio
  afterAll : Option Stdio
deriving DecidableEq, Repr

/-- `lib.rs:1268-1272` `attach_pipe_output_to_test_result`. -/
def attach (captured : Stdio) (r : TestResult) : TestResult :=
  { r with stdout := some captured.stdout, stderr := some captured.stderr }

/-- `lib.rs:1252-1266` `attach_pipe_output_to_test_results`. -/
def attachAll (captured : Stdio) (rs : List TestResult) : List TestResult :=
  match rs with
  | [r] => [attach captured r]
  | rs => rs.map (attach captured)

/-- What comes of sending a test: no answer yet; an error of the connection or an answer that cannot be read; or results
(`generic_test_runner/src/lib.rs:1163-1275`). -/
inductive Outcome where
  | waiting
  | error
  | ok (a : Associated)
deriving DecidableEq, Repr

/-- What a read gives, and what `get_captured` gives after it: `none` is an error
(`generic_test_runner/src/lib.rs:1163-1275`). -/
abbrev Reply := Option (Msg × Stdio)

/-- `lib.rs:1210-1241`: the loop over incremental results, with the step and the capture at hand. An answer that is not an
incremental one cannot be read (`v0_2.rs:315-324`), which is an error. -/
def increments (before : Stdio) (results : List TestResult) : Msg → Stdio → List Reply → Outcome
  | .one _, _, [] => .waiting
  | .one _, _, none :: _ => .error
  | .one r, captured, some (.one r', c) :: rest => increments before (results ++ [attach captured r]) (.one r') c rest
  | .one r, captured, some (.done l, c) :: rest => increments before (results ++ [attach captured r]) (.done l) c rest
  | .one _, _, some _ :: _ => .error
  | .done (some r), captured, _ => .ok ⟨results ++ [attach captured r], before, none⟩
  | .done none, captured, _ => .ok ⟨results, before, some captured⟩
  | _, _, _ => .error

/-- `lib.rs:1165-1250` `send_and_wait_for_test_results`. `before` is what `get_captured` gives at the start, `writeOk` whether
the test could be sent. -/
def sendAndWait (before : Stdio) (writeOk : Bool) (replies : List Reply) : Outcome :=
  if !writeOk then .error
  else
    match replies with
    | [] => .waiting
    | none :: _ => .error
    | some (.single r, c) :: _ => .ok ⟨attachAll c [r], before, none⟩
    | some (.multiple rs, c) :: _ => .ok ⟨attachAll c rs, before, none⟩
    | some (.one r, c) :: rest => increments before [] (.one r) c rest
    | some (.done l, c) :: rest => increments before [] (.done l) c rest

end Abq.Attribution
