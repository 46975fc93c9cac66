import Verif.Model.RwxJson
import Verif.Model.Messages

/-!
# The document of the JSON report

`crates/reporters/rwx_v1_json/src/lib.rs`: what the reporter `rwx-v1-json` writes, on top of `Model/RwxJson.lean`, which says how the
results are collected. The code derived by `serde` is modelled as in `Model/Messages.lean`. Parameters are reading bytes as text
(`String::from_utf8_lossy`) and the number of nanoseconds of an `f64` of milliseconds. Counters (`u64`) are natural numbers.
-/

namespace Abq.RwxDoc
open RunStateDoc (Json)
open Protocol (SpecFields ResultSpec AbqStatus Metadata Runtime Specification encStrs)
open Messages (Result struct)
open RwxJson (Spec Attempt Test Collector Summary)

/-- What is copied into an attempt: the fields of the result, and the runner it comes from (rwx_v1_json/src/lib.rs:259-372). -/
abbrev Copied := SpecFields × WorkerRunner

/-- The cases of rwx_v1_json/src/lib.rs:274-305. -/
def status : AbqStatus → Abq.Summary.Status
  | .failure .. => .failure
  | .success => .success
  | .error .. => .error
  | .pending => .pending
  | .todo => .todo
  | .skipped => .skipped
  | .timedOut => .timedOut
  | .privateNativeRunnerError => .nativeRunnerError

mutual
/-- A result as it is taken apart at rwx_v1_json/src/lib.rs:259-372, rwx_v1_json/src/lib.rs:404-437. The past attempts are taken to be of
the same runner (rwx_v1_json/src/lib.rs:336). -/
def specOf (source : WorkerRunner) : ResultSpec → Spec Copied
  | .mk f none => .mk f.id f.displayName (status f.status) f.output f.location.isSome (f, source) none
  | .mk f (some past) =>
    .mk f.id f.displayName (status f.status) f.output f.location.isSome (f, source) (some (specsOf source past))
/-- As above, for a list (rwx_v1_json/src/lib.rs:331-355). -/
def specsOf (source : WorkerRunner) : List ResultSpec → List (Spec Copied)
  | [] => []
  | r :: rs => specOf source r :: specsOf source rs
end

/-- The result of a runner (rwx_v1_json/src/lib.rs:483-554). -/
def given (r : Result) : Spec Copied := specOf r.source.runner r.result

/-- rwx_v1_json/src/lib.rs:483-554: the collector after all results. -/
def collected (rs : List Result) : Collector Copied := RwxJson.collect (rs.map given)

/-- The parameters: `String::from_utf8_lossy` (rwx_v1_json/src/lib.rs:312-317), and `(runtime * 1000000.0).round() as u64`
(rwx_v1_json/src/lib.rs:308) for the text of an `f64`. -/
structure Readers where
  lossy : List UInt8 → String
  nanos : String → Nat

/-- rwx_v1_json/src/lib.rs:307-310. -/
def duration (rd : Readers) : Runtime → Nat
  | .milliseconds text => rd.nanos text
  | .nanoseconds ns => ns

/-- `Map::insert` (rwx_v1_json/src/lib.rs:324-327): a member of the same name is replaced. The order of members is not kept. -/
def insert (name : String) (j : Json) (m : Metadata) : Metadata := m.filter (fun x => x.1 ≠ name) ++ [(name, j)]

/-- rwx_v1_json/src/lib.rs:319-329. -/
def metadata (c : Copied) : Metadata :=
  insert "abq_metadata" (.obj [("worker", .int c.2.worker), ("runner", .int c.2.runner)]) c.1.metadata

/-- rwx_v1_json/src/lib.rs:276-287 `exception`. -/
def exception : AbqStatus → Option String
  | .failure e _ => e
  | .error e _ => e
  | _ => none

/-- rwx_v1_json/src/lib.rs:276-287 `backtrace`. -/
def backtrace : AbqStatus → Option (List String)
  | .failure _ b => b
  | .error _ b => b
  | _ => none

/-- rwx_v1_json/src/lib.rs:186-224 `AttemptStatus`, tagged by `kind`. (`originalStatus` of `quarantined` is left out: this status is
never used.) -/
def encStatus (a : Attempt Copied) : Json :=
  match a.status with
  | .canceled => struct [("kind", some (.str "canceled"))]
  | .failed message => struct [("kind", some (.str "failed")), ("exception", (exception a.payload.1.status).map .str),
      ("message", message.map .str), ("backtrace", (backtrace a.payload.1.status).map encStrs)]
  | .pended message => struct [("kind", some (.str "pended")), ("message", message.map .str)]
  | .skipped message => struct [("kind", some (.str "skipped")), ("message", message.map .str)]
  | .successful => struct [("kind", some (.str "successful"))]
  | .timedOut => struct [("kind", some (.str "timedOut"))]
  | .todo message => struct [("kind", some (.str "todo")), ("message", message.map .str)]
  | .quarantined => struct [("kind", some (.str "quarantined"))]

/-- rwx_v1_json/src/lib.rs:228-245 `Attempt`, made at rwx_v1_json/src/lib.rs:357-365. -/
def encAttempt (rd : Readers) (a : Attempt Copied) : Json :=
  struct [("durationInNanoseconds", some (.int (duration rd a.payload.1.runtime))), ("meta", some (.obj (metadata a.payload))),
    ("status", some (encStatus a)), ("stderr", a.payload.1.stderr.map fun b => .str (rd.lossy b)),
    ("stdout", a.payload.1.stdout.map fun b => .str (rd.lossy b)), ("startedAt", a.payload.1.startedAt.map .str),
    ("finishedAt", a.payload.1.finishedAt.map .str)]

/-- rwx_v1_json/src/lib.rs:167-184 `Location`. -/
def encLocation (l : Protocol.Location) : Json :=
  struct [("file", some (.str l.file)), ("line", l.line.map fun n : Nat => .int n), ("column", l.column.map fun n : Nat => .int n)]

/-- rwx_v1_json/src/lib.rs:375-388 `Test`, made at rwx_v1_json/src/lib.rs:424-432. -/
def encTest (rd : Readers) (t : String × Test Copied) : Json :=
  struct [("id", some (.str t.1)), ("name", some (.str t.2.name)), ("lineage", t.2.first.1.lineage.map encStrs),
    ("location", t.2.first.1.location.map encLocation), ("attempt", some (encAttempt rd t.2.attempt)),
    ("pastAttempts", t.2.past.map fun l => .arr (l.map (encAttempt rd)))]

/-- rwx_v1_json/src/lib.rs:17-62 `Framework`. -/
def encFramework : Option Specification → Json
  | none => struct [("kind", some (.str "other")), ("language", some (.str "other"))]
  | some s =>
    if s.language = "ruby" ∧ s.testFramework = "rspec" then
      struct [("kind", some (.str "RSpec")), ("language", some (.str "Ruby"))]
    else if s.language = "javascript" ∧ s.testFramework = "jest" then
      struct [("kind", some (.str "Jest")), ("language", some (.str "JavaScript"))]
    else struct [("kind", some (.str "other")), ("language", some (.str "other")), ("providedKind", some (.str s.testFramework)),
      ("providedLanguage", some (.str s.language))]

/-- rwx_v1_json/src/lib.rs:64-95 `Summary`, `SummaryStatus`. -/
def encSummary (s : Summary) : Json :=
  struct [("status", some (struct [("kind", some (.str (if s.failed then "failed" else "successful")))])),
    ("tests", some (.int s.tests)), ("otherErrors", some (.int s.otherErrors)), ("retries", some (.int s.retries)),
    ("canceled", some (.int s.canceled)), ("failed", some (.int s.failures)), ("pended", some (.int s.pended)),
    ("quarantined", some (.int s.quarantined)), ("skipped", some (.int s.skipped)), ("successful", some (.int s.successful)),
    ("timedOut", some (.int s.timedOut)), ("todo", some (.int s.todo))]

/-- rwx_v1_json/src/lib.rs:439-462 `OtherError::from_message`. -/
def encError (message : String) : Json := struct [("message", some (.str message))]

/-- The schema (rwx_v1_json/src/lib.rs:600-602). -/
def schema : String := "https://raw.githubusercontent.com/rwx-research/test-results-schema/main/v1.json"

/-- rwx_v1_json/src/lib.rs:574-609 `test_results`, with the tests in the order in which the hash map is traversed. -/
def document (rd : Readers) (c : Collector Copied) (order : List (String × Test Copied)) (spec : Option Specification) : Json :=
  struct [("$schema", some (.str schema)), ("framework", some (encFramework spec)),
    ("summary", some (encSummary (RwxJson.summarise c))), ("tests", some (.arr (order.map (encTest rd)))),
    ("otherErrors", some (.arr (c.errors.map encError)))]

/-- rwx_v1_json/src/lib.rs:556-564 `write_json`: `j` may be written for the results. -/
def Writes (rd : Readers) (rs : List Result) (spec : Option Specification) (j : Json) : Prop :=
  ∃ order, order.Perm (collected rs).tests ∧ j = document rd (collected rs) order spec

end Abq.RwxDoc
