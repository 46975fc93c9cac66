import Verif.Model.Messages
import Verif.Model.Output

/-!
# The reports of tests that are lost with their native runner

`crates/abq_runners/generic_test_runner/src/lib.rs:1274-1395` `handle_native_runner_failure`, and how a result is shown
(`crates/abq_reporting/src/output.rs:319-376`). Reading bytes as text (`String::from_utf8_lossy`) is a parameter, as are the random
parts of ids. `Duration::as_millis` is at most `2 ^ 53`, so that it is a whole `f64`; logging is left out.
-/

namespace Abq.LostTests
open Abq.Messages Abq.Protocol
open Terminal (Text)

/-- `lib.rs:1089-1096` `NativeTestRunnerError`. -/
inductive Cause where
  | io
  | outOfBand
  | timedOut (seconds : Nat)
deriving DecidableEq, Repr

/-- `lib.rs:1294-1304` `formatted_cmd`: program and arguments. -/
def command (program : String) (args : List String) : Text := (" ".intercalate (program :: args)).toList

/-- `lib.rs:1310-1339`. -/
def reason (cmd : Text) : Cause → Text
  | .io | .outOfBand =>
    "-- Unexpected Test Runner Failure --\n\n".toList ++ "The test command\n\n".toList ++ "    ".toList ++ cmd ++
      "\n\n".toList ++ "stopped communicating with its abq worker before completing all test requests.".toList ++ "\n".toList
  | .timedOut seconds =>
    "-- Test Timeout --\n\n".toList ++ "The test command\n\n".toList ++ "    ".toList ++ cmd ++
      "\n\n".toList ++ "timed out while running a test after ".toList ++ (toString seconds).toList ++ " seconds.".toList ++ "\n".toList

/-- `net_protocol.rs:96-101` `Display` of `WorkerRunner`. -/
def runnerText (r : WorkerRunner) : Text :=
  "worker ".toList ++ (toString r.worker).toList ++ ", runner ".toList ++ (toString r.runner).toList

/-- `lib.rs:1310-1361` `error_message`. -/
def message (decode : List UInt8 → Text) (program : String) (args : List String) (cause : Cause) (out : Stdio)
    (runner : WorkerRunner) : Text :=
  reason (command program args) cause ++ "\n".toList ++
    "Here's the standard output/error we found for the failing command.\n\nStdout:\n\n".toList ++ decode out.stdout ++
    "\n\nStderr:\n\n".toList ++ decode out.stderr ++ "\n\nPlease see ".toList ++ runnerText runner ++ " for more details.\n".toList

/-- `v0_2.rs:279-287` `Location::fake`. -/
def fakeLocation : Location := ⟨"a/b/x.file", some 10, some 15⟩

/-- `runners.rs:743-767` `TestResultSpec::fake`. (`past_attempts` is `None`.) -/
def fake : SpecFields where
  status := .success
  id := "zzz-faux"
  displayName := "zzz-faux"
  output := some "my test output"
  runtime := .nanoseconds 0
  metadata := []
  location := some fakeLocation
  startedAt := some "1994-11-05T13:15:30Z"
  finishedAt := some "1994-11-05T13:17:30Z"
  lineage := some ["TopLevel", "SubModule", "Test"]
  otherErrors := none
  -- `b"my stdout"` and `b"my stderr"`
  stderr := some [109, 121, 32, 115, 116, 100, 111, 117, 116]
  stdout := some [109, 121, 32, 115, 116, 100, 101, 114, 114]
  timestamp := 0

/-- `lib.rs:1366-1377` `error_result`. A whole number of milliseconds is printed as such, with `.0`. -/
def result (source : RunnerMeta) (uuid : String) (error : Text) (millis : Nat) : Result :=
  ⟨source, .mk { fake with
    status := .privateNativeRunnerError
    id := "internal-error-" ++ uuid
    displayName := "<internal test runner error>"
    output := some (String.ofList error)
    runtime := .milliseconds (toString millis ++ ".0")
    metadata := [] } none⟩

/-- `lib.rs:1365-1392`: what is sent for the test that failed and the remaining ones; `uuids` are the random ids. -/
def reports (decode : List UInt8 → Text) (source : RunnerMeta) (program : String) (args : List String) (cause : Cause) (out : Stdio)
    (millis : Nat) (failedOn : List Nat) (runNumber : Nat) (remaining : List (List Nat)) (uuids : Nat → String) : List Associated :=
  let error := message decode program args cause out source.runner
  (failedOn :: remaining).mapIdx fun i workId =>
    { workId, runNumber, results := [result source (uuids i) error millis], beforeAnyTest := out, afterAllTests := none }

/-- `output.rs:331-355`: what is read of a result when it is shown. -/
def status : AbqStatus → Summary.Status
  | .failure .. => .failure
  | .success => .success
  | .error .. => .error
  | .pending => .pending
  | .todo => .todo
  | .skipped => .skipped
  | .timedOut => .timedOut
  | .privateNativeRunnerError => .nativeRunnerError

/-- `output.rs:331-355`: what is read of a result when it is shown. -/
def shown (decode : List UInt8 → Text) (runNumber : Nat) (r : Result) : Output.Shown :=
  match r.result with
  | .mk f _ =>
    { runNumber, name := f.displayName.toList, status := status f.status, worker := r.source.runner.worker,
      output := f.output.map (·.toList), stdout := f.stdout.map decode, stderr := f.stderr.map decode }

end Abq.LostTests
