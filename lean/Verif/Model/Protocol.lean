import Verif.Model.RunStateDoc
import Verif.Model.Flatten
/-!
# The native runner protocol

`crates/abq_utils/src/net_protocol/runners.rs` and `runners/v0_2.rs`: the messages between a worker and a native runner, as
JSON documents. The code derived by `serde` 1.0.158 is modelled as in `Model/RunStateDoc.lean`: unknown members are ignored, a
known one must not be given twice, `Option`s may be missing or `null`. It takes an array of all fields for a struct as well, and for
an enum with a tag an array that begins with the tag. All messages of native runners are read through `#[serde(untagged)]` enums
(`runners.rs:120-127, 514-520, 881-887, 936-942`), where a tag may also be given as a number. (Where the same types are read in
messages between workers and queues, a number is not taken; nothing is claimed about such messages.) Simplifications: the limit of
`serde_json` on nesting is left out here; metadata (`serde_json::Map`) is kept as the list of members it was read from. The structs
with `#[serde(tag = "type")]` are written with a member `type`, but `serde` does not look at it when it reads them: it does so for
enums only.
-/

namespace Abq.Protocol
open RunStateDoc (Json field reqField optField decNat)

/-- `runners.rs` `MetadataMap`, in the order of the text: a field of several types of `v0_2.rs:12-342`. -/
abbrev Metadata := List (String × Json)

/-- `String`, where `v0_2.rs:12-342` has one. -/
def decStr : Json → Option String
  | .str s => some s
  | _ => none

/-- `Vec<String>`, where `v0_2.rs:12-342` has one. -/
def decStrs : Json → Option (List String)
  | .arr l => l.mapM decStr
  | _ => none

/-- `bool`, where `v0_2.rs:12-342` has one. -/
def decBool : Json → Option Bool
  | .bool b => some b
  | _ => none

/-- `MetadataMap`, where `v0_2.rs:12-342` has one. -/
def decMeta : Json → Option Metadata
  | .obj ms => some ms
  | _ => none

/-- How many `u64`s there are (`runners.rs:37-40`, `v0_2.rs:138-139`). -/
def u64Bound : Nat := 18446744073709551616
/-- `u64` (`runners.rs:37-40`, `v0_2.rs:138-139`). -/
def decU64 : Json → Option Nat := decNat u64Bound

/-- Derived `Deserialize` of a struct with these fields: from an object, or from an array of exactly its fields (`v0_2.rs:12-342`). -/
def members (keys : List String) : Json → Option (List (String × Json))
  | .obj ms => some ms
  | .arr l => if l.length = keys.length then some (keys.zip l) else none
  | _ => none

/-- A tag: the name of a variant, or its number (`v0_2.rs:46-53, 158-175, 315-324`). -/
def decVariant (names : List String) : Json → Option String
  | .str s => if s ∈ names then some s else none
  | .int n => if 0 ≤ n then names[n.toNat]? else none
  | _ => none

/-- Derived `Deserialize` of an enum with `#[serde(tag = "type")]`, given the fields of its variants: the variant and its members
(`v0_2.rs:158-175, 315-324`). -/
def tagged (variants : List (String × List String)) : Json → Option (String × List (String × Json))
  | .obj ms => (reqField "type" ms (decVariant (variants.map (·.1)))).map fun t => (t, ms)
  | .arr (t :: l) => (decVariant (variants.map (·.1)) t).bind fun t => (members ((variants.lookup t).getD []) (.arr l)).map fun ms => (t, ms)
  | _ => none

/-! ## Spawning -/

/-- `runners.rs:37-40` `AbqProtocolVersion`. -/
structure Version where
  major : Nat
  minor : Nat
deriving DecidableEq, Repr

/-- Derived `Deserialize`: `runners.rs:37-40` `AbqProtocolVersion`. -/
def decVersion (j : Json) : Option Version :=
  (members ["major", "minor"] j).bind fun ms =>
  (reqField "major" ms decU64).bind fun major => (reqField "minor" ms decU64).map fun minor => ⟨major, minor⟩

/-- `v0_2.rs:19-29` `AbqNativeRunnerSpecification`. -/
structure Specification where
  name : String
  version : String
  testFramework : String
  testFrameworkVersion : String
  language : String
  languageVersion : String
  host : String
deriving DecidableEq, Repr

/-- Derived `Deserialize`: `v0_2.rs:19-29` `AbqNativeRunnerSpecification`. -/
def decSpecification (j : Json) : Option Specification :=
  (members ["name", "version", "test_framework", "test_framework_version", "language", "language_version", "host"] j).bind fun ms =>
  (reqField "name" ms decStr).bind fun name =>
  (reqField "version" ms decStr).bind fun version =>
  (reqField "test_framework" ms decStr).bind fun testFramework =>
  (reqField "test_framework_version" ms decStr).bind fun testFrameworkVersion =>
  (reqField "language" ms decStr).bind fun language =>
  (reqField "language_version" ms decStr).bind fun languageVersion =>
  (reqField "host" ms decStr).map fun host =>
    ⟨name, version, testFramework, testFrameworkVersion, language, languageVersion, host⟩

/-- `v0_2.rs:12-17` `AbqNativeRunnerSpawnedMessage`; `runners.rs:120-127`. -/
structure Spawned where
  protocolVersion : Version
  specification : Specification
deriving DecidableEq, Repr

/-- Derived `Deserialize`: `v0_2.rs:12-17` `AbqNativeRunnerSpawnedMessage`. -/
def decSpawned (j : Json) : Option Spawned :=
  (members ["protocol_version", "runner_specification"] j).bind fun ms =>
  (reqField "protocol_version" ms decVersion).bind fun v =>
  (reqField "runner_specification" ms decSpecification).map fun s => ⟨v, s⟩

/-! ## Manifests -/

/-- `v0_2.rs:31-53` `Test`, `Group`, `TestOrGroup`. -/
inductive TestOrGroup where
  | test (id : String) (tags : List String) (metadata : Metadata)
  | group (name : String) (members : List TestOrGroup) (tags : List String) (metadata : Metadata)

mutual
/-- Derived for `TestOrGroup`, tagged by `type` (`v0_2.rs:31-53` `Test`, `Group`, `TestOrGroup`). -/
def decTestOrGroup : Json → Option TestOrGroup
  | .obj ms =>
    (reqField "type" ms (decVariant ["test", "group"])).bind fun type =>
      if type = "test" then
        (reqField "id" ms decStr).bind fun id =>
        (reqField "tags" ms decStrs).bind fun tags =>
        (reqField "meta" ms decMeta).map fun metadata => .test id tags metadata
      else if type = "group" then
        (reqField "name" ms decStr).bind fun name =>
        (reqField "tags" ms decStrs).bind fun tags =>
        (reqField "meta" ms decMeta).bind fun metadata =>
        match decMembers ms with
        | [some members] => some (.group name members tags metadata)
        | _ => none
      else none
  | .arr (t :: l) =>
    (decVariant ["test", "group"] t).bind fun type =>
      if type = "test" then
        (members ["id", "tags", "meta"] (.arr l)).bind fun ms =>
        (reqField "id" ms decStr).bind fun id =>
        (reqField "tags" ms decStrs).bind fun tags =>
        (reqField "meta" ms decMeta).map fun metadata => .test id tags metadata
      else if type = "group" then
        (members ["name", "members", "tags", "meta"] (.arr l)).bind fun ms =>
        (reqField "name" ms decStr).bind fun name =>
        (reqField "tags" ms decStrs).bind fun tags =>
        (reqField "meta" ms decMeta).bind fun metadata =>
        (decTreesAt l 1).map fun members => .group name members tags metadata
      else none
  | _ => none
/-- The values of the members of that name (`v0_2.rs:31-53` `Test`, `Group`, `TestOrGroup`). -/
def decMembers : List (String × Json) → List (Option (List TestOrGroup))
  | [] => []
  | (k, j) :: ms => if k = "members" then decTrees j :: decMembers ms else decMembers ms
/-- Derived `Deserialize`: `v0_2.rs:31-53` `Test`, `Group`, `TestOrGroup`. -/
def decTrees : Json → Option (List TestOrGroup)
  | .arr l => decForest l
  | _ => none
/-- The entry of an array, counted from 0 (`v0_2.rs:31-53` `Test`, `Group`, `TestOrGroup`). -/
def decTreesAt : List Json → Nat → Option (List TestOrGroup)
  | [], _ => none
  | j :: _, 0 => decTrees j
  | _ :: l, n + 1 => decTreesAt l n
/-- Derived `Deserialize`: `v0_2.rs:31-53` `Test`, `Group`, `TestOrGroup`. -/
def decForest : List Json → Option (List TestOrGroup)
  | [] => some []
  | j :: l => (decTestOrGroup j).bind fun t => (decForest l).map fun ts => t :: ts
end

/-- `v0_2.rs:273-277` `Location`. -/
structure Location where
  file : String
  line : Option Nat
  column : Option Nat
deriving DecidableEq, Repr

/-- Derived `Deserialize`: `v0_2.rs:273-277` `Location`. -/
def decLocation (j : Json) : Option Location :=
  (members ["file", "line", "column"] j).bind fun ms =>
  (reqField "file" ms decStr).bind fun file =>
  (optField "line" ms decU64).bind fun line =>
  (optField "column" ms decU64).map fun column => ⟨file, line, column⟩

/-- `v0_2.rs:291-301` `OutOfBandError`. -/
structure OutOfBandError where
  message : String
  backtrace : Option (List String)
  exception : Option String
  location : Option Location
  metadata : Option Metadata

/-- Derived `Deserialize`: `v0_2.rs:291-301` `OutOfBandError`. -/
def decOob (j : Json) : Option OutOfBandError :=
  (members ["message", "backtrace", "exception", "location", "meta"] j).bind fun ms =>
  (reqField "message" ms decStr).bind fun message =>
  (optField "backtrace" ms decStrs).bind fun backtrace =>
  (optField "exception" ms decStr).bind fun exception =>
  (optField "location" ms decLocation).bind fun location =>
  (optField "meta" ms decMeta).map fun metadata => ⟨message, backtrace, exception, location, metadata⟩

/-- Derived `Deserialize`: `v0_2.rs:291-301` `OutOfBandError`. -/
def decOobs : Json → Option (List OutOfBandError)
  | .arr l => l.mapM decOob
  | _ => none

/-- `v0_2.rs:56-59` `Manifest`. -/
structure Manifest where
  members : List TestOrGroup
  initMeta : Metadata

/-- Derived `Deserialize`: `v0_2.rs:56-59` `Manifest`. -/
def decManifest (j : Json) : Option Manifest :=
  (members ["members", "init_meta"] j).bind fun ms =>
  (reqField "members" ms decTrees).bind fun members =>
  (reqField "init_meta" ms decMeta).map fun initMeta => ⟨members, initMeta⟩

/-- `v0_2.rs:60-82` `ManifestMessage`. -/
inductive ManifestMessage where
  | success (manifest : Manifest) (otherErrors : Option (List OutOfBandError))
  | failure (error : OutOfBandError) (otherErrors : Option (List OutOfBandError))

/-- Derived `Deserialize`: `v0_2.rs:60-82` `ManifestMessage`. -/
def decManifestSuccess (j : Json) : Option ManifestMessage :=
  (members ["manifest", "other_errors"] j).bind fun ms =>
  (reqField "manifest" ms decManifest).bind fun manifest =>
  (optField "other_errors" ms decOobs).map fun others => .success manifest others

/-- Derived `Deserialize`: `v0_2.rs:60-82` `ManifestMessage`. -/
def decManifestFailure (j : Json) : Option ManifestMessage :=
  (members ["error", "other_errors"] j).bind fun ms =>
  (reqField "error" ms decOob).bind fun error =>
  (optField "other_errors" ms decOobs).map fun others => .failure error others

/-- Derived for `ManifestMessage`, untagged: the first variant that fits (`v0_2.rs:60-82` `ManifestMessage`). -/
def decManifestMessage (j : Json) : Option ManifestMessage :=
  match decManifestSuccess j with
  | some m => some m
  | none => decManifestFailure j

/-! ## Test cases -/

/-- `v0_2.rs:99-104` `TestCase`, `v0_2.rs:133-136` `TestFocus`. -/
structure TestCase where
  id : String
  metadata : Metadata
  focus : Option (List String)

/-- `Vec<String>` is an array (`v0_2.rs:133-136`). -/
def encStrs (l : List String) : Json := .arr (l.map .str)

/-- Derived for `TestCaseMessage` (`v0_2.rs:92-95`). -/
def encTestCaseMessage (t : TestCase) : Json :=
  .obj [("test_case", .obj ([("id", .str t.id), ("meta", .obj t.metadata)] ++
    (match t.focus with
     | none => []
     | some ids => [("focus", .obj [("test_ids", encStrs ids)])])))]

/-- Derived for `InitMessage` (`v0_2.rs:83-87`). -/
def encInitMessage (initMeta : Metadata) (fastExit : Bool) : Json :=
  .obj [("init_meta", .obj initMeta), ("fast_exit", .bool fastExit)]

/-- Derived for `InitSuccessMessage`, a struct without fields (`v0_2.rs:90-91`, `runners.rs:978-980`). -/
def decInitSuccess (j : Json) : Option Unit := (members [] j).map fun _ => ()

mutual
/-- What `flatten_manifest` (`runners.rs:338-391`) looks at: the loop over it is `Model/Flatten.lean`. -/
def TestOrGroup.tree (enc : Metadata → String) : TestOrGroup → Flatten.Tree
  | .test id _ metadata => .test ⟨id, enc metadata⟩
  | .group _ members _ _ => .group (forest enc members)
/-- As above, for the members of a group (`runners.rs:338-391`). -/
def forest (enc : Metadata → String) : List TestOrGroup → List Flatten.Tree
  | [] => []
  | t :: ts => t.tree enc :: forest enc ts
end

/-! ## Results -/

/-- `v0_2.rs:160-175` `Status`. -/
inductive Status where
  | failure (exception : Option String) (backtrace : Option (List String))
  | error (exception : Option String) (backtrace : Option (List String))
  | success
  | pending
  | skipped
  | todo
  | timedOut
deriving DecidableEq, Repr

/-- The variants of `Status` and their fields (`v0_2.rs:141-175`). -/
def statusVariants : List (String × List String) :=
  [("failure", ["exception", "backtrace"]), ("error", ["exception", "backtrace"]), ("success", []), ("pending", []), ("skipped", []),
    ("todo", []), ("timed_out", [])]

/-- Derived for `Status`, tagged by `type` (`v0_2.rs:160-175` `Status`). -/
def decStatus (j : Json) : Option Status :=
  (tagged statusVariants j).bind fun x =>
    let ms := x.2
    if x.1 = "failure" then
      (optField "exception" ms decStr).bind fun e => (optField "backtrace" ms decStrs).map fun b => .failure e b
    else if x.1 = "error" then
      (optField "exception" ms decStr).bind fun e => (optField "backtrace" ms decStrs).map fun b => .error e b
    else if x.1 = "success" then some .success
    else if x.1 = "pending" then some .pending
    else if x.1 = "skipped" then some .skipped
    else if x.1 = "todo" then some .todo
    else if x.1 = "timed_out" then some .timedOut
    else none

/-- `v0_2.rs:209-235` `TestResult`, but for its past attempts. -/
structure Fields where
  status : Status
  id : String
  displayName : String
  output : Option String
  runtime : Nat
  metadata : Metadata
  location : Option Location
  startedAt : Option String
  finishedAt : Option String
  lineage : Option (List String)
  otherErrors : Option (List OutOfBandError)

/-- `v0_2.rs:209-235` `TestResult`, with its past attempts. -/
inductive TestResult where
  | mk (fields : Fields) (pastAttempts : Option (List TestResult))

/-- Derived `Deserialize`: `v0_2.rs:209-235` `TestResult`. -/
def decFields (ms : List (String × Json)) : Option Fields :=
  (reqField "status" ms decStatus).bind fun status =>
  (reqField "id" ms decStr).bind fun id =>
  (reqField "display_name" ms decStr).bind fun displayName =>
  (optField "output" ms decStr).bind fun output =>
  (reqField "runtime" ms decU64).bind fun runtime =>
  (reqField "meta" ms decMeta).bind fun metadata =>
  (optField "location" ms decLocation).bind fun location =>
  (optField "started_at" ms decStr).bind fun startedAt =>
  (optField "finished_at" ms decStr).bind fun finishedAt =>
  (optField "lineage" ms decStrs).bind fun lineage =>
  (optField "other_errors" ms decOobs).map fun otherErrors =>
    ⟨status, id, displayName, output, runtime, metadata, location, startedAt, finishedAt, lineage, otherErrors⟩

/-- The value of an `Option` field, given the values of the members of its name (`v0_2.rs:12-342`). -/
def optOf {α : Type} : List (Option (Option α)) → Option (Option α)
  | [] => some none
  | [x] => x
  | _ => none

/-- The fields of `TestResult` (`v0_2.rs:209-235`). -/
def resultKeys : List String :=
  ["status", "id", "display_name", "output", "runtime", "meta", "location", "started_at", "finished_at", "lineage", "past_attempts",
    "other_errors"]

mutual
/-- Derived for `TestResult` (`v0_2.rs:209-235`). -/
def decResult : Json → Option TestResult
  | .obj ms => (decFields ms).bind fun f => (optOf (decPast ms)).map fun past => .mk f past
  | .arr l =>
    (members resultKeys (.arr l)).bind fun ms => (decFields ms).bind fun f => (decAttemptsAt l 10).map fun past => .mk f past
  | _ => none
/-- Derived `Deserialize`: `v0_2.rs:12-342`. -/
def decPast : List (String × Json) → List (Option (Option (List TestResult)))
  | [] => []
  | (k, j) :: ms => if k = "past_attempts" then decAttempts j :: decPast ms else decPast ms
/-- Derived `Deserialize`: `v0_2.rs:12-342`. -/
def decAttempts : Json → Option (Option (List TestResult))
  | .null => some none
  | .arr l => (decAll l).map some
  | _ => none
/-- The entry of an array, counted from 0 (`v0_2.rs:209-235`). -/
def decAttemptsAt : List Json → Nat → Option (Option (List TestResult))
  | [], _ => none
  | j :: _, 0 => decAttempts j
  | _ :: l, n + 1 => decAttemptsAt l n
/-- Derived `Deserialize`: `v0_2.rs:12-342`. -/
def decAll : List Json → Option (List TestResult)
  | [] => some []
  | j :: l => (decResult j).bind fun r => (decAll l).map fun rs => r :: rs
end

/-- Derived `Deserialize`: `v0_2.rs:12-342`. -/
def decResults : Json → Option (List TestResult)
  | .arr l => decAll l
  | _ => none

/-- `v0_2.rs:317-324` `IncrementalTestResultMessage`. -/
inductive Incremental where
  | one (r : TestResult)
  | done (last : Option TestResult)

/-- Derived for it, tagged by `type` (`v0_2.rs:317-324` `IncrementalTestResultMessage`). -/
def decIncremental (j : Json) : Option Incremental :=
  (tagged [("incremental_result", ["one_test_result"]), ("incremental_result_done", ["last_test_result"])] j).bind fun x =>
    if x.1 = "incremental_result" then (reqField "one_test_result" x.2 decResult).map .one
    else if x.1 = "incremental_result_done" then (optField "last_test_result" x.2 decResult).map .done
    else none

/-- `v0_2.rs:338-342` `TestResultMessage`. -/
inductive ResultMessage where
  | incremental (m : Incremental)
  | single (r : TestResult)
  | multiple (rs : List TestResult)

/-- Derived `Deserialize`: `v0_2.rs:338-342` `TestResultMessage`. -/
def decSingle (j : Json) : Option TestResult := (members ["test_result"] j).bind fun ms => reqField "test_result" ms decResult

/-- Derived `Deserialize`: `v0_2.rs:338-342` `TestResultMessage`. -/
def decMultiple (j : Json) : Option (List TestResult) := (members ["test_results"] j).bind fun ms => reqField "test_results" ms decResults

/-- Derived for `TestResultMessage`, untagged: the first variant that fits (`v0_2.rs:338-342` `TestResultMessage`). -/
def decResultMessage (j : Json) : Option ResultMessage :=
  match decIncremental j with
  | some m => some (.incremental m)
  | none =>
    match decSingle j with
    | some r => some (.single r)
    | none => (decMultiple j).map .multiple

/-! ## What the rest of abq sees -/

/-- `runners.rs:585-615` `Status`. -/
inductive AbqStatus where
  | failure (exception : Option String) (backtrace : Option (List String))
  | success
  | error (exception : Option String) (backtrace : Option (List String))
  | pending
  | todo
  | skipped
  | timedOut
  | privateNativeRunnerError
deriving DecidableEq, Repr

/-- `runners.rs:620-628` `is_fail_like`. -/
def AbqStatus.isFailLike : AbqStatus → Bool
  | .failure .. => true
  | .error .. => true
  | .timedOut => true
  | .privateNativeRunnerError => true
  | _ => false

/-- `runners.rs:631-657` `From<v0_2::Status>`. -/
def Status.abq : Status → AbqStatus
  | .failure e b => .failure e b
  | .success => .success
  | .error e b => .error e b
  | .pending => .pending
  | .skipped => .skipped
  | .todo => .todo
  | .timedOut => .timedOut

/-- `runners.rs:552-556` `TestRuntime`. Milliseconds are an `f64`, which is given by the text that is printed for it. -/
inductive Runtime where
  | milliseconds (text : String)
  | nanoseconds (ns : Nat)

/-- `runners.rs:710-741` `TestResultSpec`, but for its past attempts. `timestamp` is the time at which the message was
read. -/
structure SpecFields where
  status : AbqStatus
  id : String
  displayName : String
  output : Option String
  runtime : Runtime
  metadata : Metadata
  location : Option Location
  startedAt : Option String
  finishedAt : Option String
  lineage : Option (List String)
  otherErrors : Option (List OutOfBandError)
  stderr : Option (List UInt8)
  stdout : Option (List UInt8)
  timestamp : Nat

/-- `runners.rs:710-741` `TestResultSpec`, with its past attempts. -/
inductive ResultSpec where
  | mk (fields : SpecFields) (pastAttempts : Option (List ResultSpec))

/-- `runners.rs:770-810`, the fields. -/
def Fields.spec (now : Nat) (f : Fields) : SpecFields :=
  { status := f.status.abq
    id := f.id
    displayName := f.displayName
    output := f.output
    runtime := .nanoseconds f.runtime
    metadata := f.metadata
    location := f.location
    startedAt := f.startedAt
    finishedAt := f.finishedAt
    lineage := f.lineage
    otherErrors := f.otherErrors
    stderr := none
    stdout := none
    timestamp := now }

mutual
/-- `runners.rs:770-810` `From<v0_2::TestResult> for TestResultSpec`. `now` is the clock, read once for each result (simplification:
it shows the same time). -/
def TestResult.spec (now : Nat) : TestResult → ResultSpec
  | .mk f none => .mk (f.spec now) none
  | .mk f (some past) => .mk (f.spec now) (some (specs now past))
/-- As above, for a list (`runners.rs:789-790`). -/
def specs (now : Nat) : List TestResult → List ResultSpec
  | [] => []
  | r :: rs => r.spec now :: specs now rs
end

/-- `runners.rs:923-934` `TestResultSet`, `IncrementalTestResultStep`; `S` is the runner the results come from. -/
inductive ResultSet (S : Type) where
  | all (rs : List (S × ResultSpec))
  | one (r : S × ResultSpec)
  | done (r : Option (S × ResultSpec))

/-- `v0_2.rs:345-356` `into_test_results`, v0_2.rs:327-333 `into_step`. -/
def ResultMessage.set {S : Type} (now : Nat) (source : S) : ResultMessage → ResultSet S
  | .single r => .all [(source, r.spec now)]
  | .multiple rs => .all (rs.map fun r => (source, r.spec now))
  | .incremental (.one r) => .one (source, r.spec now)
  | .incremental (.done r) => .done (r.map fun r => (source, r.spec now))

end Abq.Protocol
