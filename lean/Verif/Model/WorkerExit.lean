import Verif.Model.WorkerReport
import Verif.Model.Hosted
import Verif.Model.Replay

/-!
# The end of `abq test`

`crates/abq_cli/src/workers.rs:139-238` `do_shutdown`: what is printed once the runners have ended, the message to the hosted API
(`crates/abq_hosted/src/notify.rs`), and the exit code.
-/

namespace Abq.WorkerExit
open Abq.Report (Reporter)

/-! ## The message to the hosted API -/

/-- `runners.rs` `NativeRunnerSpecification` (`v0_2.rs:20-29`): the fields that are sent. -/
structure Spec where
  name : String
  version : String
  host : String
deriving DecidableEq, Repr

/-- `notify.rs:15-19` `RecordTestRunRequest`, with where it is sent and the token it is sent with. -/
structure Request where
  url : String
  token : String
  runId : String
  spec : Spec
deriving DecidableEq, Repr

/-- `notify.rs:29` `ATTEMPTS`. -/
def attempts : Nat := 2

/-- `notify.rs:87-102` `try_n_times`, from `sent` requests on; `replies` are what the requests get, one after the other, where a
request that is never answered gets none. How many requests were sent, and the reply returned, if any. -/
def tryTimes (tries : Nat) (sent : Nat) : List Hosted.Reply → Nat × Option Hosted.Reply
  | [] => (sent + 1, none)
  | .transport :: _ => (sent + 1, some .transport)
  | .status code :: rest =>
    if Hosted.isSuccess code || sent + 1 == tries then (sent + 1, some (.status code)) else tryTimes tries (sent + 1) rest

/-! ## The process -/

/-- What is printed, piece by piece (`workers.rs:161-220`). -/
inductive Piece where
  /-- `workers.rs:253-265` `print_manifest_generation_output` -/
  | manifestOutput (output : List Nat)
  /-- `workers.rs:135-137` `runner_header` -/
  | header (runner : Nat)
  | output (bytes : List Nat)
  /-- an error of a reporter; `workers.rs:183-185` -/
  | reporterError (index : Nat)
  /-- `workers.rs:188-192` -/
  | summary (suite : Summary.SuiteResult)
  /-- `workers.rs:196-205` -/
  | replayHint (runId : String) (worker runners : Nat)
  /-- `workers.rs:216-218` -/
  | workerError (message : String)
deriving DecidableEq, Repr

/-- `workers.rs:38-44` `TestRunMetadata` and the other arguments of `do_shutdown` (`workers.rs:139-148`). `remote` is
`queue_location.is_remote()`; `pipes` is `pipes_to_parent_stdio`, which is the same for all runners. -/
structure Args where
  apiUrl : String
  accessToken : Option String
  runId : String
  remote : Bool
  /-- `record_telemetry` -/
  record : Bool
  mode : Replay.Mode
  worker : Nat
  runners : Nat
  pipes : Bool
deriving DecidableEq, Repr

/-- What the process does (`workers.rs:139-238`). -/
inductive Ev where
  | printed (p : Piece)
  /-- a write that failed -/
  | lost (p : Piece)
  /-- the reporters are finished, among them those that write files -/
  | finished (reporters : List Reporter)
  | request (r : Request)

/-- How it ends: by exiting, with a panic (`abq` then exits with 101), or not at all (`workers.rs:139-238`). -/
inductive End where
  | exited (code : Int)
  | panicked
  | waiting
deriving DecidableEq, Repr

/-- A write to standard output or error: a failure is ignored or makes the process panic (`workers.rs:161-220`). -/
structure Write where
  piece : Piece
  must : Bool
deriving DecidableEq, Repr

/-- Writing pieces one after the other. `ok n` says whether write `n` succeeds; `n` were made before. The number of writes made,
what happened, and whether to go on (`workers.rs:161-220`). -/
def writes (ok : Nat → Bool) (n : Nat) : List Write → Nat × List Ev × Bool
  | [] => (n, [], true)
  | w :: ws =>
    if ok n then
      let r := writes ok (n + 1) ws
      (r.1, .printed w.piece :: r.2.1, r.2.2)
    else if w.must then (n + 1, [.lost w.piece], false)
    else
      let r := writes ok (n + 1) ws
      (r.1, .lost w.piece :: r.2.1, r.2.2)

/-- `workers.rs:253-265`: the manifest's output is printed unless it is blank; `blank` is whitespace. -/
def manifestWrites (blank : Nat → Bool) : Option (Nat × List Nat) → List Write
  | some (_, o) => if o.all blank then [] else [⟨.manifestOutput o, false⟩]
  | none => []

/-- `workers.rs:168-176`. -/
def outputWrites (pipes : Bool) (outputs : List (Nat × List Nat)) : List Write :=
  outputs.flatMap fun (k, o) => if pipes || o.isEmpty then [] else [⟨.header k, true⟩, ⟨.output o, true⟩]

/-- `workers.rs:183-185`: the errors of the reporters, by the number of the reporter. -/
def errorWrites (reporters : List Reporter) : List Write :=
  ((List.range reporters.length).filter fun i =>
    match reporters[i]? with
    | some r => r.refuses r.log .finish
    | none => false).map fun i => ⟨.reporterError i, true⟩

/-- `workers.rs:187-207`. -/
def summaryWrites (a : Args) (status : Pool.Status) (suite : Summary.SuiteResult) : List Write :=
  let completed := match status with
    | .completed _ => true
    | .error _ => false
  if completed || suite.count > 0 then
    ⟨.summary suite, true⟩ ::
      (if a.mode == .writeNormal && a.remote then [⟨.replayHint a.runId a.worker a.runners, true⟩] else [])
  else []

/-- `workers.rs:211-221`: the errors of the runners. -/
def workerErrorWrites : Pool.Status → List Write
  | .completed _ => []
  | .error errors => errors.map fun e => ⟨.workerError e, true⟩

/-- `workers.rs:223-235` with `notify.rs:21-85`: the requests made, and whether the call comes to an end. `push` is what the
library makes of a URL and a path segment to append; `specs` gives the specification of a native runner. Whatever is answered is
ignored. -/
def record (push : String → String → Option String) (specs : Nat → Spec) (a : Args) (info : Option Nat)
    (replies : List Hosted.Reply) : List Ev × Bool :=
  if a.record then
    match a.accessToken, info with
    | some token, some i =>
      match push a.apiUrl "record_test_run" with
      | some url =>
        let r := tryTimes attempts 0 replies
        (List.replicate r.1 (.request ⟨url, token, a.runId, specs i⟩), r.2.isSome)
      | none => ([], true)
    | _, _ => ([], true)
  else ([], true)

/-- `workers.rs:139-238` `do_shutdown`, given what joining the runners yields and the state of the reporting task. -/
def doShutdown (push : String → String → Option String) (specs : Nat → Spec) (blank : Nat → Bool) (a : Args)
    (joined : List Pool.Joined) (reporting : WorkerReport.State) (ok : Nat → Bool) (replies : List Hosted.Reply) :
    List Ev × End :=
  match Pool.shutdown joined with
  | none => ([], .panicked)
  | some exit =>
    match reporting with
    | .working _ => ([], .waiting)
    | .panicked => ([], .panicked)
    | .finished suite reporters =>
      let before := writes ok 0 (manifestWrites blank exit.manifestOutput ++ outputWrites a.pipes exit.processOutputs)
      if !before.2.2 then (before.2.1, .panicked)
      else
        let fin := Ev.finished (WorkerReport.finishAll reporters).1
        let after := writes ok before.1
          (errorWrites reporters ++ summaryWrites a exit.status suite ++ workerErrorWrites exit.status)
        if !after.2.2 then (before.2.1 ++ fin :: after.2.1, .panicked)
        else
          let tele := record push specs a exit.nativeRunnerInfo replies
          (before.2.1 ++ fin :: (after.2.1 ++ tele.1),
            if tele.2 then .exited (Pool.processExitCode suite.exitCode exit.status) else .waiting)

end Abq.WorkerExit
