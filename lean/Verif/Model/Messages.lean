import Verif.Model.Protocol
import Verif.Model.JsonText
import Verif.Model.Address
/-!
# The messages of the queue and its workers

`crates/abq_utils/src/net_protocol.rs`, with `net_protocol/runners.rs`, `abq_workers/src/negotiate.rs` and
`abq_workers/src/assigned_run.rs`: what is sent between the queue and workers, and stored by the queue, as JSON documents. The code
derived by `serde` is modelled as in `Model/Protocol.lean`; `serde_json::Map` is kept as a list of members. Simplification: the structs
of these files are read from objects only, though `serde` would also take arrays of their fields, which neither queue nor workers write.
The text of addresses (`SocketAddr`) is that of `Model/Address.lean`.
-/

namespace Abq.Messages
open RunStateDoc (Json field reqField optField decNat decU32 decI32 encBytes decBytes encTag decTag encEntity decEntity decWorkerRunner)
open Protocol

/-! ## Parts -/

/-- A derived struct: the members which are not left out (`skip_serializing_if`) (the types of `net_protocol.rs:60-923`). -/
def present : List (String × Option Json) → List (String × Json)
  | [] => []
  | (_, none) :: ms => present ms
  | (name, some j) :: ms => (name, j) :: present ms

/-- A derived struct without `serde` attributes on the type (the types of `net_protocol.rs:60-923`). -/
def struct (ms : List (String × Option Json)) : Json := .obj (present ms)

/-- A variant of an externally tagged enum: its name, and what it holds (`null` for nothing) (the types of
`net_protocol.rs:60-923`). -/
def variant : Json → Option (String × Json)
  | .str s => some (s, .null)
  | .obj [(s, j)] => some (s, j)
  | _ => none

/-- A variant that holds nothing (the types of `net_protocol.rs:60-923`). -/
def decUnit {α : Type} (a : α) : Json → Option α
  | .null => some a
  | _ => none

/-- A `Vec` (the types of `net_protocol.rs:60-923`). -/
def decArr {α : Type} (dec : Json → Option α) : Json → Option (List α)
  | .arr l => l.mapM dec
  | _ => none

/-- `Option<u64>`, written as `null` if there is none (`runners.rs:710-741`). -/
def encOptNat : Option Nat → Json
  | none => .null
  | some n => .int n

/-- `Vec<u8>` (`runners.rs:992-995`). -/
def encU8s (l : List UInt8) : Json := .arr (l.map fun b => .int b.toNat)

/-- A byte (`runners.rs:992-995`). -/
def decU8 (j : Json) : Option UInt8 := (decNat 256 j).map UInt8.ofNat
/-- `Vec<u8>` (`runners.rs:992-995`). -/
def decU8s : Json → Option (List UInt8) := decArr decU8

/-- `entity::WorkerRunner` (`net_protocol.rs:93-94`). -/
def encWorkerRunner (r : WorkerRunner) : Json := .arr [.int r.worker, .int r.runner]

/-- `entity::RunnerMeta` (`net_protocol.rs:123-130`). -/
structure RunnerMeta where
  runner : WorkerRunner
  isSingleton : Bool
  hasStdoutReporters : Bool

/-- Derived `Serialize`: `net_protocol.rs:123-130`. -/
def encRunnerMeta (m : RunnerMeta) : Json :=
  struct [("runner", some (encWorkerRunner m.runner)), ("is_singleton", some (.bool m.isSingleton)),
    ("has_stdout_reporters", some (.bool m.hasStdoutReporters))]

/-- Derived `Deserialize`: `net_protocol.rs:123-130`. -/
def decRunnerMeta : Json → Option RunnerMeta
  | .obj ms =>
    (reqField "runner" ms decWorkerRunner).bind fun runner =>
    (reqField "is_singleton" ms decBool).bind fun single =>
    (reqField "has_stdout_reporters" ms decBool).map fun reporters => ⟨runner, single, reporters⟩
  | _ => none

/-- `runners.rs:37-40` `AbqProtocolVersion`; read by `Protocol.decVersion`. -/
def encVersion (v : Version) : Json :=
  struct [("type", some (.str "abq_protocol_version")), ("major", some (.int v.major)), ("minor", some (.int v.minor))]

/-- `v0_2.rs:19-29`; read by `Protocol.decSpecification`. -/
def encSpecification (s : Specification) : Json :=
  struct [("type", some (.str "abq_native_runner_specification")), ("name", some (.str s.name)), ("version", some (.str s.version)),
    ("test_framework", some (.str s.testFramework)), ("test_framework_version", some (.str s.testFrameworkVersion)),
    ("language", some (.str s.language)), ("language_version", some (.str s.languageVersion)), ("host", some (.str s.host))]

/-! ## Results -/

/-- `v0_2.rs:271-277`; read by `Protocol.decLocation`. -/
def encLocation (l : Location) : Json :=
  struct [("file", some (.str l.file)), ("line", some (encOptNat l.line)), ("column", some (encOptNat l.column))]

/-- `v0_2.rs:289-301`; read by `Protocol.decOob`. -/
def encOob (e : OutOfBandError) : Json :=
  struct [("message", some (.str e.message)), ("backtrace", e.backtrace.map encStrs), ("exception", e.exception.map .str),
    ("location", e.location.map encLocation), ("meta", e.metadata.map .obj)]

/-- The two variants of `Status` with content (`runners.rs:585-615`). -/
def encFailure (exception : Option String) (backtrace : Option (List String)) : Json :=
  struct [("exception", exception.map .str), ("backtrace", backtrace.map encStrs)]

/-- `runners.rs:585-615` `Status`. -/
def encStatus : AbqStatus → Json
  | .failure e b => .obj [("Failure", encFailure e b)]
  | .success => .str "Success"
  | .error e b => .obj [("Error", encFailure e b)]
  | .pending => .str "Pending"
  | .todo => .str "Todo"
  | .skipped => .str "Skipped"
  | .timedOut => .str "TimedOut"
  | .privateNativeRunnerError => .str "PrivateNativeRunnerError"

/-- Derived `Deserialize`: `runners.rs:585-615` `Status`. -/
def decFailure : Json → Option (Option String × Option (List String))
  | .obj ms => (optField "exception" ms decStr).bind fun e => (optField "backtrace" ms decStrs).map fun b => (e, b)
  | _ => none

/-- Derived `Deserialize`: `runners.rs:585-615` `Status`. -/
def decAbqStatus (j : Json) : Option AbqStatus :=
  (variant j).bind fun v =>
    if v.1 = "Failure" then (decFailure v.2).map fun p => .failure p.1 p.2
    else if v.1 = "Success" then decUnit .success v.2
    else if v.1 = "Error" then (decFailure v.2).map fun p => .error p.1 p.2
    else if v.1 = "Pending" then decUnit .pending v.2
    else if v.1 = "Todo" then decUnit .todo v.2
    else if v.1 = "Skipped" then decUnit .skipped v.2
    else if v.1 = "TimedOut" then decUnit .timedOut v.2
    else if v.1 = "PrivateNativeRunnerError" then decUnit .privateNativeRunnerError v.2
    else none

/-- `runners.rs:552-556` `TestRuntime`. Milliseconds are given for tests that were lost to a crash
(`generic_test_runner/src/lib.rs:1373`). -/
def encRuntime : Runtime → Json
  | .milliseconds r => .obj [("Milliseconds", .float r)]
  | .nanoseconds n => .obj [("Nanoseconds", .int n)]

/-- Derived `Deserialize`: `runners.rs:552-556` `TestRuntime`. Simplification: for milliseconds `serde_json` also takes whole
numbers, which are never sent; here they are refused. -/
def decRuntime (j : Json) : Option Runtime :=
  (variant j).bind fun v =>
    if v.1 = "Milliseconds" then
      match v.2 with
      | .float r => some (.milliseconds r)
      | _ => none
    else if v.1 = "Nanoseconds" then (decU64 v.2).map .nanoseconds
    else none

/-- `runners.rs:710-741` `TestResultSpec`: its members. Simplification: the time stamp is a `u128`; those beyond `u64` are not
modelled. -/
def specMembers (f : SpecFields) (past : Option Json) : List (String × Option Json) :=
  [("status", some (encStatus f.status)), ("id", some (.str f.id)), ("display_name", some (.str f.displayName)),
   ("output", f.output.map .str), ("runtime", some (encRuntime f.runtime)), ("meta", some (.obj f.metadata)),
   ("location", f.location.map encLocation), ("started_at", f.startedAt.map .str), ("finished_at", f.finishedAt.map .str),
   ("lineage", f.lineage.map encStrs), ("past_attempts", past), ("other_errors", f.otherErrors.map fun es => .arr (es.map encOob)),
   ("stderr", f.stderr.map encU8s), ("stdout", f.stdout.map encU8s), ("timestamp", some (.int f.timestamp))]

mutual
/-- Derived for `TestResultSpec` (`runners.rs:710-741` `TestResultSpec`). -/
def encSpec : ResultSpec → Json
  | .mk f none => struct (specMembers f none)
  | .mk f (some past) => struct (specMembers f (some (.arr (encSpecs past))))
/-- Derived `Serialize`: `runners.rs:710-741` `TestResultSpec`. -/
def encSpecs : List ResultSpec → List Json
  | [] => []
  | r :: rs => encSpec r :: encSpecs rs
end

/-- Derived `Deserialize`: `runners.rs:710-741` `TestResultSpec`. -/
def decSpecFields (ms : List (String × Json)) : Option SpecFields :=
  (reqField "status" ms decAbqStatus).bind fun status =>
  (reqField "id" ms decStr).bind fun id =>
  (reqField "display_name" ms decStr).bind fun displayName =>
  (optField "output" ms decStr).bind fun output =>
  (reqField "runtime" ms decRuntime).bind fun runtime =>
  (reqField "meta" ms decMeta).bind fun metadata =>
  (optField "location" ms decLocation).bind fun location =>
  (optField "started_at" ms decStr).bind fun startedAt =>
  (optField "finished_at" ms decStr).bind fun finishedAt =>
  (optField "lineage" ms decStrs).bind fun lineage =>
  (optField "other_errors" ms decOobs).bind fun otherErrors =>
  (optField "stderr" ms decU8s).bind fun stderr =>
  (optField "stdout" ms decU8s).bind fun stdout =>
  (reqField "timestamp" ms decU64).map fun timestamp =>
    ⟨status, id, displayName, output, runtime, metadata, location, startedAt, finishedAt, lineage, otherErrors, stderr, stdout,
      timestamp⟩

mutual
/-- Derived for `TestResultSpec` (`runners.rs:710-741` `TestResultSpec`). -/
def decSpec : Json → Option ResultSpec
  | .obj ms => (decSpecFields ms).bind fun f => (optOf (decSpecPast ms)).map fun past => .mk f past
  | _ => none
/-- Derived `Deserialize`: `runners.rs:710-741` `TestResultSpec`. -/
def decSpecPast : List (String × Json) → List (Option (Option (List ResultSpec)))
  | [] => []
  | (k, j) :: ms => if k = "past_attempts" then decSpecAttempts j :: decSpecPast ms else decSpecPast ms
/-- Derived `Deserialize`: `runners.rs:710-741` `TestResultSpec`. -/
def decSpecAttempts : Json → Option (Option (List ResultSpec))
  | .null => some none
  | .arr l => (decSpecAll l).map some
  | _ => none
/-- Derived `Deserialize`: `runners.rs:710-741` `TestResultSpec`. -/
def decSpecAll : List Json → Option (List ResultSpec)
  | [] => some []
  | j :: l => (decSpec j).bind fun r => (decSpecAll l).map fun rs => r :: rs
end

/-- `runners.rs:823-829` `TestResult`. -/
structure Result where
  source : RunnerMeta
  result : ResultSpec

/-- Derived `Serialize`: `runners.rs:823-829` `TestResult`. -/
def encResult (r : Result) : Json := struct [("source", some (encRunnerMeta r.source)), ("result", some (encSpec r.result))]

/-- Derived `Deserialize`: `runners.rs:823-829` `TestResult`. -/
def decResult : Json → Option Result
  | .obj ms =>
    (reqField "source" ms decRunnerMeta).bind fun source => (reqField "result" ms decSpec).map fun result => ⟨source, result⟩
  | _ => none

/-- `runners.rs:992-995` `StdioOutput`. -/
structure Stdio where
  stderr : List UInt8
  stdout : List UInt8
deriving DecidableEq

/-- Derived `Serialize`: `runners.rs:992-995` `StdioOutput`. -/
def encStdio (o : Stdio) : Json := struct [("stderr", some (encU8s o.stderr)), ("stdout", some (encU8s o.stdout))]

/-- Derived `Deserialize`: `runners.rs:992-995` `StdioOutput`. -/
def decStdio : Json → Option Stdio
  | .obj ms => (reqField "stderr" ms decU8s).bind fun stderr => (reqField "stdout" ms decU8s).map fun stdout => ⟨stderr, stdout⟩
  | _ => none

/-- `net_protocol.rs:562-571` `AssociatedTestResults`; the id of the work is 16 bytes. -/
structure Associated where
  workId : List Nat
  runNumber : Nat
  results : List Result
  beforeAnyTest : Stdio
  afterAllTests : Option Stdio

/-- `Option`s without `skip_serializing_if` are written as `null` (`net_protocol.rs:562-571` `AssociatedTestResults`). -/
def encOpt {α : Type} (enc : α → Json) : Option α → Json
  | none => .null
  | some a => enc a

/-- Derived `Serialize`: `net_protocol.rs:562-571` `AssociatedTestResults`. -/
def encAssociated (a : Associated) : Json :=
  struct [("work_id", some (encBytes a.workId)), ("run_number", some (.int a.runNumber)),
    ("results", some (.arr (a.results.map encResult))), ("before_any_test", some (encStdio a.beforeAnyTest)),
    ("after_all_tests", some (encOpt encStdio a.afterAllTests))]

/-- Derived `Deserialize`: `net_protocol.rs:562-571` `AssociatedTestResults`. -/
def decAssociated : Json → Option Associated
  | .obj ms =>
    (reqField "work_id" ms (decBytes 16)).bind fun workId =>
    (reqField "run_number" ms decU32).bind fun runNumber =>
    (reqField "results" ms (decArr decResult)).bind fun results =>
    (reqField "before_any_test" ms decStdio).bind fun before =>
    (optField "after_all_tests" ms decStdio).map fun after => ⟨workId, runNumber, results, before, after⟩
  | _ => none

/-! ## Manifests -/

mutual
/-- `v0_2.rs:31-53` `TestOrGroup`, tagged by `type`; read by `Protocol.decTestOrGroup`. -/
def encTree : TestOrGroup → Json
  | .test id tags metadata =>
    struct [("type", some (.str "test")), ("id", some (.str id)), ("tags", some (encStrs tags)), ("meta", some (.obj metadata))]
  | .group name members tags metadata =>
    struct [("type", some (.str "group")), ("name", some (.str name)), ("members", some (.arr (encForest members))),
      ("tags", some (encStrs tags)), ("meta", some (.obj metadata))]
/-- Derived `Serialize`: `v0_2.rs:31-53` `TestOrGroup`. -/
def encForest : List TestOrGroup → List Json
  | [] => []
  | t :: ts => encTree t :: encForest ts
end

/-- `v0_2.rs:56-59` `Manifest`; read by `Protocol.decManifest`. -/
def encManifest (m : Manifest) : Json := struct [("members", some (.arr (encForest m.members))), ("init_meta", some (.obj m.initMeta))]

/-- `net_protocol.rs:446-452` `ReportedManifest`. -/
structure Reported where
  manifest : Manifest
  protocol : Version
  specification : Specification

/-- Derived `Serialize`: `net_protocol.rs:446-452` `ReportedManifest`. -/
def encReported (r : Reported) : Json :=
  struct [("manifest", some (encManifest r.manifest)), ("native_runner_protocol", some (encVersion r.protocol)),
    ("native_runner_specification", some (encSpecification r.specification))]

/-- Derived `Deserialize`: `net_protocol.rs:446-452` `ReportedManifest`. -/
def decReported : Json → Option Reported
  | .obj ms =>
    (reqField "manifest" ms decManifest).bind fun manifest =>
    (reqField "native_runner_protocol" ms decVersion).bind fun protocol =>
    (reqField "native_runner_specification" ms decSpecification).map fun specification => ⟨manifest, protocol, specification⟩
  | _ => none

/-- `net_protocol.rs:457-468` `ManifestResult`. -/
inductive ManifestResult where
  | manifest (r : Reported)
  | runnerError (error : String) (output : Stdio)

/-- Derived `Serialize`: `net_protocol.rs:457-468` `ManifestResult`. -/
def encManifestResult : ManifestResult → Json
  | .manifest r => .obj [("Manifest", encReported r)]
  | .runnerError error output => .obj [("TestRunnerError", struct [("error", some (.str error)), ("output", some (encStdio output))])]

/-- Derived `Deserialize`: `net_protocol.rs:457-468` `ManifestResult`. -/
def decRunnerError : Json → Option ManifestResult
  | .obj ms => (reqField "error" ms decStr).bind fun error => (reqField "output" ms decStdio).map fun output => .runnerError error output
  | _ => none

/-- Derived `Deserialize`: `net_protocol.rs:457-468` `ManifestResult`. -/
def decManifestResult (j : Json) : Option ManifestResult :=
  (variant j).bind fun v =>
    if v.1 = "Manifest" then (decReported v.2).map .manifest
    else if v.1 = "TestRunnerError" then decRunnerError v.2
    else none

/-! ## Requests to the queue -/

/-- `net_protocol.rs:656-684` `queue::Message`. Deprecations have no values (`net_protocol.rs:36-42`): the list of them is empty. -/
inductive Message where
  | healthCheck
  | activeTestRuns
  | negotiatorInfo (run : String)
  | cancelRun (run : String)
  | manifestResult (run : String) (r : ManifestResult)
  | workerResult (run : String) (rs : List Associated)
  | workerRanAllTests (run : String)
  | testResults (run : String)
  | runStatus (run : String)

/-- Derived `Serialize`: `net_protocol.rs:656-684` `queue::Message`. -/
def encMessage : Message → Json
  | .healthCheck => .str "HealthCheck"
  | .activeTestRuns => .str "ActiveTestRuns"
  | .negotiatorInfo run => .obj [("NegotiatorInfo", struct [("run_id", some (.str run)), ("deprecations", some (.arr []))])]
  | .cancelRun run => .obj [("CancelRun", .str run)]
  | .manifestResult run r => .obj [("ManifestResult", .arr [.str run, encManifestResult r])]
  | .workerResult run rs => .obj [("WorkerResult", .arr [.str run, .arr (rs.map encAssociated)])]
  | .workerRanAllTests run => .obj [("WorkerRanAllTests", .str run)]
  | .testResults run => .obj [("TestResults", .str run)]
  | .runStatus run => .obj [("RunStatus", .str run)]

/-- No deprecation is understood, as there are none (`net_protocol.rs:656-684` `queue::Message`). -/
def decDeprecations : Json → Option Unit
  | .arr [] => some ()
  | _ => none

/-- Derived `Deserialize`: `net_protocol.rs:656-684` `queue::Message`. -/
def decNegotiatorInfo : Json → Option Message
  | .obj ms => (reqField "run_id" ms decStr).bind fun run => (reqField "deprecations" ms decDeprecations).map fun _ => .negotiatorInfo run
  | _ => none

/-- A variant that holds two values (`net_protocol.rs:656-684` `queue::Message`). -/
def decPair {α β : Type} (dec : Json → Option α) (dec' : Json → Option β) : Json → Option (α × β)
  | .arr [a, b] => (dec a).bind fun a => (dec' b).map fun b => (a, b)
  | _ => none

/-- Derived `Deserialize`: `net_protocol.rs:656-684` `queue::Message`. -/
def decMessage (j : Json) : Option Message :=
  (variant j).bind fun v =>
    if v.1 = "HealthCheck" then decUnit .healthCheck v.2
    else if v.1 = "ActiveTestRuns" then decUnit .activeTestRuns v.2
    else if v.1 = "NegotiatorInfo" then decNegotiatorInfo v.2
    else if v.1 = "CancelRun" then (decStr v.2).map .cancelRun
    else if v.1 = "ManifestResult" then (decPair decStr decManifestResult v.2).map fun p => .manifestResult p.1 p.2
    else if v.1 = "WorkerResult" then (decPair decStr (decArr decAssociated) v.2).map fun p => .workerResult p.1 p.2
    else if v.1 = "WorkerRanAllTests" then (decStr v.2).map .workerRanAllTests
    else if v.1 = "TestResults" then (decStr v.2).map .testResults
    else if v.1 = "RunStatus" then (decStr v.2).map .runStatus
    else none

/-- `net_protocol.rs:626-630` `queue::Request`. -/
structure Request where
  entity : RunStateDoc.Entity
  message : Message

/-- Derived `Serialize`: `net_protocol.rs:626-630` `queue::Request`. -/
def encRequest (r : Request) : Json := struct [("entity", some (encEntity r.entity)), ("message", some (encMessage r.message))]

/-- Derived `Deserialize`: `net_protocol.rs:626-630` `queue::Request`. -/
def decRequest : Json → Option Request
  | .obj ms =>
    (reqField "entity" ms decEntity).bind fun entity => (reqField "message" ms decMessage).map fun message => ⟨entity, message⟩
  | _ => none

/-! ## What the queue stores and hands out -/

/-- `net_protocol.rs:590-594` `NativeRunnerInfo`, net_protocol.rs:743-747 `Summary`, net_protocol.rs:734-741 `ResultsLine`. -/
inductive Line where
  | results (rs : List Associated)
  | summary (manifestSize : Nat) (protocol : Version) (specification : Specification)

/-- Derived `Serialize`: `net_protocol.rs:734-747` `ResultsLine`, `Summary`. -/
def encSummary (n : Nat) (v : Version) (s : Specification) : Json :=
  struct [("manifest_size_nonce", some (.int n)),
    ("native_runner_info", some (struct [("protocol_version", some (encVersion v)), ("specification", some (encSpecification s))]))]

/-- Derived `Serialize`: `net_protocol.rs:734-747` `ResultsLine`, `Summary`. -/
def encLine : Line → Json
  | .results rs => .obj [("Results", .arr (rs.map encAssociated))]
  | .summary n v s => .obj [("Summary", encSummary n v s)]

/-- Derived `Deserialize`: `net_protocol.rs:734-747` `ResultsLine`, `Summary`. -/
def decRunnerInfo : Json → Option (Version × Specification)
  | .obj ms =>
    (reqField "protocol_version" ms decVersion).bind fun v => (reqField "specification" ms decSpecification).map fun s => (v, s)
  | _ => none

/-- Derived `Deserialize`: `net_protocol.rs:734-747` `ResultsLine`, `Summary`. -/
def decSummary : Json → Option Line
  | .obj ms =>
    (reqField "manifest_size_nonce" ms decU64).bind fun n =>
    (reqField "native_runner_info" ms decRunnerInfo).map fun p => .summary n p.1 p.2
  | _ => none

/-- Derived `Deserialize`: `net_protocol.rs:734-747` `ResultsLine`, `Summary`. -/
def decLine (j : Json) : Option Line :=
  (variant j).bind fun v =>
    if v.1 = "Results" then (decArr decAssociated v.2).map .results
    else if v.1 = "Summary" then decSummary v.2
    else none

/-- `v0_2.rs:99-104` `TestCase` (untagged in `runners.rs:147-152`). -/
def encTestCase (t : TestCase) : Json :=
  struct [("id", some (.str t.id)), ("meta", some (.obj t.metadata)),
    ("focus", t.focus.map fun ids => struct [("test_ids", some (encStrs ids))])]

/-- Derived `Deserialize`: `v0_2.rs:99-104` `TestCase`. -/
def decFocus : Json → Option (List String)
  | .obj ms => reqField "test_ids" ms decStrs
  | _ => none

/-- Derived `Deserialize`: `v0_2.rs:99-104` `TestCase`. -/
def decTestCase : Json → Option TestCase
  | .obj ms =>
    (reqField "id" ms decStr).bind fun id =>
    (reqField "meta" ms decMeta).bind fun metadata =>
    (optField "focus" ms decFocus).map fun focus => ⟨id, metadata, focus⟩
  | _ => none

/-- `net_protocol.rs:394-401` `WorkerTest` with net_protocol.rs:553-559 `TestSpec`. -/
structure Test where
  workId : List Nat
  testCase : TestCase
  runNumber : Nat

/-- Derived `Serialize`: `net_protocol.rs:394-401` `WorkerTest`. -/
def encTestSpec (t : Test) : Json := struct [("work_id", some (encBytes t.workId)), ("test_case", some (encTestCase t.testCase))]

/-- Derived `Serialize`: `net_protocol.rs:394-401` `WorkerTest`. -/
def encTest (t : Test) : Json := struct [("spec", some (encTestSpec t)), ("run_number", some (.int t.runNumber))]

/-- Derived `Deserialize`: `net_protocol.rs:394-401` `WorkerTest`. -/
def decTestSpec : Json → Option (List Nat × TestCase)
  | .obj ms =>
    (reqField "work_id" ms (decBytes 16)).bind fun workId => (reqField "test_case" ms decTestCase).map fun t => (workId, t)
  | _ => none

/-- Derived `Deserialize`: `net_protocol.rs:394-401` `WorkerTest`. -/
def decTest : Json → Option Test
  | .obj ms =>
    (reqField "spec" ms decTestSpec).bind fun spec => (reqField "run_number" ms decU32).map fun n => ⟨spec.1, spec.2, n⟩
  | _ => none

/-- `net_protocol.rs:427-432` `NextWorkBundle`. -/
structure Bundle where
  work : List Test
  eow : Bool

/-- Derived `Serialize`: `net_protocol.rs:427-432` `NextWorkBundle`. -/
def encBundle (b : Bundle) : Json := struct [("work", some (.arr (b.work.map encTest))), ("eow", some (.bool b.eow))]

/-- Derived `Deserialize`: `net_protocol.rs:427-432` `NextWorkBundle`. -/
def decBundle : Json → Option Bundle
  | .obj ms => (reqField "work" ms (decArr decTest)).bind fun work => (reqField "eow" ms decBool).map fun eow => ⟨work, eow⟩
  | _ => none

/-- `net_protocol.rs:888-892` `NextTestResponse`. -/
def encNextTests (b : Bundle) : Json := .obj [("Bundle", encBundle b)]

/-- Derived `Deserialize`: `net_protocol.rs:888-892` `NextTestResponse`. -/
def decNextTests (j : Json) : Option Bundle := (variant j).bind fun v => if v.1 = "Bundle" then decBundle v.2 else none

/-- `net_protocol.rs:913-923` `RetryManifestError`. -/
inductive RetryError where
  | runDoesNotExist
  | manifestNeverReceived
  | failedToLoad
  | runCancelled
deriving DecidableEq

/-- Derived `Serialize`: `net_protocol.rs:913-923` `RetryManifestError`. -/
def encRetryError : RetryError → Json
  | .runDoesNotExist => .str "RunDoesNotExist"
  | .manifestNeverReceived => .str "ManifestNeverReceived"
  | .failedToLoad => .str "FailedToLoad"
  | .runCancelled => .str "RunCancelled"

/-- Derived `Deserialize`: `net_protocol.rs:913-923` `RetryManifestError`. -/
def decRetryError (j : Json) : Option RetryError :=
  (variant j).bind fun v =>
    if v.1 = "RunDoesNotExist" then decUnit .runDoesNotExist v.2
    else if v.1 = "ManifestNeverReceived" then decUnit .manifestNeverReceived v.2
    else if v.1 = "FailedToLoad" then decUnit .failedToLoad v.2
    else if v.1 = "RunCancelled" then decUnit .runCancelled v.2
    else none

/-- `net_protocol.rs:894-900` `RetryManifestResponse`. -/
inductive RetryManifest where
  | manifest (b : Bundle)
  | notYetPersisted
  | error (e : RetryError)

/-- Derived `Serialize`: `net_protocol.rs:894-900` `RetryManifestResponse`. -/
def encRetryManifest : RetryManifest → Json
  | .manifest b => .obj [("Manifest", encBundle b)]
  | .notYetPersisted => .str "NotYetPersisted"
  | .error e => .obj [("Error", encRetryError e)]

/-- Derived `Deserialize`: `net_protocol.rs:894-900` `RetryManifestResponse`. -/
def decRetryManifest (j : Json) : Option RetryManifest :=
  (variant j).bind fun v =>
    if v.1 = "Manifest" then (decBundle v.2).map .manifest
    else if v.1 = "NotYetPersisted" then decUnit .notYetPersisted v.2
    else if v.1 = "Error" then (decRetryError v.2).map .error
    else none

/-- `net_protocol.rs:865-880` `InitContext`, `InitContextResponse`. -/
inductive Context where
  | waitingForManifest
  | init (metadata : Metadata)
  | runAlreadyCompleted (cancelled : Bool)

/-- Derived `Serialize`: `net_protocol.rs:865-880` `InitContext`, `InitContextResponse`. -/
def encContext : Context → Json
  | .waitingForManifest => .str "WaitingForManifest"
  | .init m => .obj [("InitContext", struct [("init_meta", some (.obj m))])]
  | .runAlreadyCompleted c => .obj [("RunAlreadyCompleted", struct [("cancelled", some (.bool c))])]

/-- Derived `Deserialize`: `net_protocol.rs:865-880` `InitContext`, `InitContextResponse`. -/
def decInit : Json → Option Metadata
  | .obj ms => reqField "init_meta" ms decMeta
  | _ => none

/-- Derived `Deserialize`: `net_protocol.rs:865-880` `InitContext`, `InitContextResponse`. -/
def decCompleted : Json → Option Bool
  | .obj ms => reqField "cancelled" ms decBool
  | _ => none

/-- Derived `Deserialize`: `net_protocol.rs:865-880` `InitContext`, `InitContextResponse`. -/
def decContext (j : Json) : Option Context :=
  (variant j).bind fun v =>
    if v.1 = "WaitingForManifest" then decUnit .waitingForManifest v.2
    else if v.1 = "InitContext" then (decInit v.2).map .init
    else if v.1 = "RunAlreadyCompleted" then (decCompleted v.2).map .runAlreadyCompleted
    else none

/-- `abq_queue/src/persistence/manifest.rs:22-26` `ManifestView`. -/
structure View where
  items : List Test
  assigned : List Tag

/-- Derived `Serialize`: `abq_queue/src/persistence/manifest.rs:22-26` `ManifestView`. -/
def encView (v : View) : Json :=
  struct [("items", some (.arr (v.items.map encTest))), ("assigned_entities", some (.arr (v.assigned.map encTag)))]

/-- Derived `Deserialize`: `abq_queue/src/persistence/manifest.rs:22-26` `ManifestView`. -/
def decView : Json → Option View
  | .obj ms =>
    (reqField "items" ms (decArr decTest)).bind fun items =>
    (reqField "assigned_entities" ms (decArr decTag)).map fun assigned => ⟨items, assigned⟩
  | _ => none

/-! ## Requests of runners, and negotiation -/

/-- `net_protocol.rs:846-863` `work_server::Message`. -/
inductive WorkMessage where
  | healthCheck
  | initContext (run : String)
  | nextTests (run : String)
  | retryManifest (run : String) (entity : RunStateDoc.Entity)

/-- Derived `Serialize`: `net_protocol.rs:846-863` `work_server::Message`. -/
def encWorkMessage : WorkMessage → Json
  | .healthCheck => .str "HealthCheck"
  | .initContext run => .obj [("InitContext", struct [("run_id", some (.str run))])]
  | .nextTests run => .obj [("PersistentWorkerNextTestsConnection", .str run)]
  | .retryManifest run e => .obj [("RetryManifestPartition", struct [("run_id", some (.str run)), ("entity", some (encEntity e))])]

/-- Derived `Deserialize`: `net_protocol.rs:846-863` `work_server::Message`. -/
def decInitContext : Json → Option WorkMessage
  | .obj ms => (reqField "run_id" ms decStr).map .initContext
  | _ => none

/-- Derived `Deserialize`: `net_protocol.rs:846-863` `work_server::Message`. -/
def decPartition : Json → Option WorkMessage
  | .obj ms => (reqField "run_id" ms decStr).bind fun run => (reqField "entity" ms decEntity).map fun e => .retryManifest run e
  | _ => none

/-- Derived `Deserialize`: `net_protocol.rs:846-863` `work_server::Message`. -/
def decWorkMessage (j : Json) : Option WorkMessage :=
  (variant j).bind fun v =>
    if v.1 = "HealthCheck" then decUnit .healthCheck v.2
    else if v.1 = "InitContext" then decInitContext v.2
    else if v.1 = "PersistentWorkerNextTestsConnection" then (decStr v.2).map .nextTests
    else if v.1 = "RetryManifestPartition" then decPartition v.2
    else none

/-- `net_protocol.rs:840-844` `work_server::Request`. -/
structure WorkRequest where
  entity : RunStateDoc.Entity
  message : WorkMessage

/-- Derived `Serialize`: `net_protocol.rs:840-844` `work_server::Request`. -/
def encWorkRequest (r : WorkRequest) : Json := struct [("entity", some (encEntity r.entity)), ("message", some (encWorkMessage r.message))]

/-- Derived `Deserialize`: `net_protocol.rs:840-844` `work_server::Request`. -/
def decWorkRequest : Json → Option WorkRequest
  | .obj ms =>
    (reqField "entity" ms decEntity).bind fun entity => (reqField "message" ms decWorkMessage).map fun message => ⟨entity, message⟩
  | _ => none

/-- `net_protocol.rs:503-514` `TestStrategy`. -/
inductive Strategy where
  | byTest
  | byTopLevelGroup
deriving DecidableEq

/-- Derived `Serialize`: `net_protocol.rs:503-514` `TestStrategy`. -/
def encStrategy : Strategy → Json
  | .byTest => .str "ByTest"
  | .byTopLevelGroup => .str "ByTopLevelGroup"

/-- Derived `Deserialize`: `net_protocol.rs:503-514` `TestStrategy`. -/
def decStrategy (j : Json) : Option Strategy :=
  (variant j).bind fun v =>
    if v.1 = "ByTest" then decUnit .byTest v.2
    else if v.1 = "ByTopLevelGroup" then decUnit .byTopLevelGroup v.2
    else none

/-- `net_protocol.rs:544-550` `InvokeWork`; the hint is not zero, the hash is 32 bytes. -/
structure Invoke where
  run : String
  batchSizeHint : Nat
  strategy : Strategy
  commandHash : List Nat

/-- Derived `Serialize`: `net_protocol.rs:544-550` `InvokeWork`. -/
def encInvoke (w : Invoke) : Json :=
  struct [("run_id", some (.str w.run)), ("batch_size_hint", some (.int w.batchSizeHint)), ("test_strategy", some (encStrategy w.strategy)),
    ("test_command_hash", some (encBytes w.commandHash))]

/-- `NonZeroU64` (`net_protocol.rs:544-550` `InvokeWork`). -/
def decNonZero (j : Json) : Option Nat := (decU64 j).bind fun n => if n = 0 then none else some n

/-- Derived `Deserialize`: `net_protocol.rs:544-550` `InvokeWork`. -/
def decInvoke : Json → Option Invoke
  | .obj ms =>
    (reqField "run_id" ms decStr).bind fun run =>
    (reqField "batch_size_hint" ms decNonZero).bind fun hint =>
    (reqField "test_strategy" ms decStrategy).bind fun strategy =>
    (reqField "test_command_hash" ms (decBytes 32)).map fun hash => ⟨run, hint, strategy, hash⟩
  | _ => none

/-- `negotiate.rs:93-103` `Request`, `MessageToQueueNegotiator`. -/
structure Negotiation where
  entity : RunStateDoc.Entity
  /-- `HealthCheck` if there is none -/
  invoke : Option Invoke

/-- Derived `Serialize`: `negotiate.rs:93-103` `Request`, `MessageToQueueNegotiator`. -/
def encNegotiation (n : Negotiation) : Json :=
  struct [("entity", some (encEntity n.entity)),
    ("message", some (match n.invoke with
      | none => .str "HealthCheck"
      | some w => .obj [("WantsToAttach", struct [("invoke_data", some (encInvoke w))])]))]

/-- Derived `Deserialize`: `negotiate.rs:93-103` `Request`, `MessageToQueueNegotiator`. -/
def decAttach : Json → Option Invoke
  | .obj ms => reqField "invoke_data" ms decInvoke
  | _ => none

/-- Derived `Deserialize`: `negotiate.rs:93-103` `Request`, `MessageToQueueNegotiator`. -/
def decToNegotiator (j : Json) : Option (Option Invoke) :=
  (variant j).bind fun v =>
    if v.1 = "HealthCheck" then decUnit none v.2
    else if v.1 = "WantsToAttach" then (decAttach v.2).map some
    else none

/-- Derived `Deserialize`: `negotiate.rs:93-103` `Request`, `MessageToQueueNegotiator`. -/
def decNegotiation : Json → Option Negotiation
  | .obj ms => (reqField "entity" ms decEntity).bind fun e => (reqField "message" ms decToNegotiator).map fun m => ⟨e, m⟩
  | _ => none

/-- `net_protocol.rs:615-623` `CancelReason`. -/
inductive Reason where
  | user
  | manifestHadNoProgress
  | manifestNeverReceived
deriving DecidableEq

/-- Derived `Serialize`: `net_protocol.rs:615-623` `CancelReason`. -/
def encReason : Reason → Json
  | .user => .str "User"
  | .manifestHadNoProgress => .str "ManifestHadNoProgress"
  | .manifestNeverReceived => .str "ManifestNeverReceived"

/-- Derived `Deserialize`: `net_protocol.rs:615-623` `CancelReason`. -/
def decReason (j : Json) : Option Reason :=
  (variant j).bind fun v =>
    if v.1 = "User" then decUnit .user v.2
    else if v.1 = "ManifestHadNoProgress" then decUnit .manifestHadNoProgress v.2
    else if v.1 = "ManifestNeverReceived" then decUnit .manifestNeverReceived v.2
    else none

/-- `assigned_run.rs:9-23` `AssignedRunKind`, `AssignedRun`. -/
inductive RunKind where
  | fresh (shouldGenerateManifest : Bool)
  | retryAndContinue
deriving DecidableEq

/-- Derived `Serialize`: `assigned_run.rs:9-23` `AssignedRunKind`, `AssignedRun`. -/
def encRunKind : RunKind → Json
  | .fresh b => .obj [("Fresh", struct [("should_generate_manifest", some (.bool b))])]
  | .retryAndContinue => .str "RetryAndContinue"

/-- Derived `Deserialize`: `assigned_run.rs:9-23` `AssignedRunKind`, `AssignedRun`. -/
def decFresh : Json → Option RunKind
  | .obj ms => (reqField "should_generate_manifest" ms decBool).map .fresh
  | _ => none

/-- Derived `Deserialize`: `assigned_run.rs:9-23` `AssignedRunKind`, `AssignedRun`. -/
def decRunKind (j : Json) : Option RunKind :=
  (variant j).bind fun v =>
    if v.1 = "Fresh" then decFresh v.2
    else if v.1 = "RetryAndContinue" then decUnit .retryAndContinue v.2
    else none

/-- `negotiate.rs:66-91` `MessageFromQueueNegotiator`, `ExecutionContext`. -/
inductive Negotiated where
  | runAlreadyCompleted (exitCode : Int)
  | runCancelled (reason : Reason)
  | context (workServer queueResults : Address.Sock) (kind : RunKind) (commandDiffers : Bool)
  | runUnknown
  | fatalError (message : String)

/-- `Serialize` of `SocketAddr` in `serde` (`negotiate.rs:66-75`, `net_protocol.rs:487-492`): its text. -/
def encAddr (a : Address.Sock) : Json := .str (String.ofList (Address.write a))

/-- `Deserialize` of `SocketAddr` in `serde` (`negotiate.rs:66-75`, `net_protocol.rs:487-492`). -/
def decAddr (j : Json) : Option Address.Sock := (decStr j).bind fun s => Address.parse s.toList

/-- Derived `Serialize`: `negotiate.rs:66-91` `MessageFromQueueNegotiator`, `ExecutionContext`. -/
def encAssigned (kind : RunKind) (differs : Bool) : Json :=
  struct [("kind", some (encRunKind kind)), ("runner_test_command_differs", some (.bool differs))]

/-- Derived `Serialize`: `negotiate.rs:66-91` `MessageFromQueueNegotiator`, `ExecutionContext`. -/
def encNegotiated : Negotiated → Json
  | .runAlreadyCompleted c => .obj [("RunAlreadyCompleted", struct [("exit_code", some (.int c))])]
  | .runCancelled r => .obj [("RunCancelled", struct [("reason", some (encReason r))])]
  | .context w q k d => .obj [("ExecutionContext", struct [("work_server_addr", some (encAddr w)), ("queue_results_addr", some (encAddr q)),
      ("assigned", some (encAssigned k d))])]
  | .runUnknown => .str "RunUnknown"
  | .fatalError e => .obj [("FatalError", .str e)]

/-- Derived `Deserialize`: `negotiate.rs:66-91` `MessageFromQueueNegotiator`, `ExecutionContext`. -/
def decExitCode : Json → Option Int
  | .obj ms => reqField "exit_code" ms decI32
  | _ => none

/-- Derived `Deserialize`: `negotiate.rs:66-91` `MessageFromQueueNegotiator`, `ExecutionContext`. -/
def decCancelled : Json → Option Reason
  | .obj ms => reqField "reason" ms decReason
  | _ => none

/-- Derived `Deserialize`: `negotiate.rs:66-91` `MessageFromQueueNegotiator`, `ExecutionContext`. -/
def decAssigned : Json → Option (RunKind × Bool)
  | .obj ms =>
    (reqField "kind" ms decRunKind).bind fun k => (reqField "runner_test_command_differs" ms decBool).map fun d => (k, d)
  | _ => none

/-- Derived `Deserialize`: `negotiate.rs:66-91` `MessageFromQueueNegotiator`, `ExecutionContext`. -/
def decExecution : Json → Option Negotiated
  | .obj ms =>
    (reqField "work_server_addr" ms decAddr).bind fun w =>
    (reqField "queue_results_addr" ms decAddr).bind fun q =>
    (reqField "assigned" ms decAssigned).map fun a => .context w q a.1 a.2
  | _ => none

/-- Derived `Deserialize`: `negotiate.rs:66-91` `MessageFromQueueNegotiator`, `ExecutionContext`. -/
def decNegotiated (j : Json) : Option Negotiated :=
  (variant j).bind fun v =>
    if v.1 = "RunAlreadyCompleted" then (decExitCode v.2).map .runAlreadyCompleted
    else if v.1 = "RunCancelled" then (decCancelled v.2).map .runCancelled
    else if v.1 = "ExecutionContext" then decExecution v.2
    else if v.1 = "RunUnknown" then decUnit .runUnknown v.2
    else if v.1 = "FatalError" then (decStr v.2).map .fatalError
    else none

/-! ## As text

`net_protocol.rs` `read_help`, `write` and their asynchronous forms (`Model/Framing.lean`): `serde_json::to_vec` and `from_slice`. -/

/-- What is sent for a value (`net_protocol.rs:1354`, `results.rs:187-194`). -/
def send {T : Type} (enc : T → Json) (m : T) : List JsonText.Byte := JsonText.print (enc m)

/-- What is received (`net_protocol.rs:983, 1175-1177`). -/
def receive {T : Type} (dec : Json → Option T) (f : JsonText.Floats) (t : List JsonText.Byte) : Option T := (JsonText.parse f t).bind dec

end Abq.Messages
