import Verif.Model.Protocol
import Verif.Spec.Flatten
/-!
# The native runner protocol

What a JSON document says, whatever the order of its members, and whatever members it has beside those of the protocol.
`SaysX w x j`: the document `j` says `x`, in the form `w`.
-/

namespace Abq.Protocol
open RunStateDoc (Json)

abbrev Members := List (String × Json)

/-- There is one member of that name, and this is its value. -/
def Only (ms : Members) (name : String) (j : Json) : Prop := ms.filter (fun m => m.1 = name) = [(name, j)]

/-- There is no member of that name. -/
def Absent (ms : Members) (name : String) : Prop := ∀ m ∈ ms, m.1 ≠ name

/-- There is one member of that name, and it says so. -/
def Given {α : Type} (ms : Members) (name : String) (says : α → Json → Prop) (a : α) : Prop := ∃ j, Only ms name j ∧ says a j

/-- Nothing is said by leaving it out or by `null`. -/
def Maybe {α : Type} (ms : Members) (name : String) (says : α → Json → Prop) : Option α → Prop
  | none => Absent ms name ∨ Only ms name .null
  | some a => Given ms name says a

/-- The entries of an array say so, one by one. -/
def Pairs {α : Type} (says : α → Json → Prop) : List α → List Json → Prop
  | [], [] => True
  | a :: as, j :: js => says a j ∧ Pairs says as js
  | _, _ => False

def Each {α : Type} (says : α → Json → Prop) (as : List α) (j : Json) : Prop := ∃ js, j = .arr js ∧ Pairs says as js

/-- How a document is written. -/
inductive Form where
  /-- As in the protocol: what has fields is an object, what has variants has the name of one as its `type`. -/
  | protocol
  /-- In any form that is taken: what has fields may be the array of all of them, in their order; the variant may be the first entry of
  an array, before the fields; and for its name there may be its number, counted from 0. -/
  | loose

/-- A struct with these fields, and the members it has. -/
def Written (w : Form) (keys : List String) (j : Json) (ms : Members) : Prop :=
  j = .obj ms ∨ w = .loose ∧ ∃ l, j = .arr l ∧ l.length = keys.length ∧ ms = keys.zip l

/-- The variant of this name, among these. -/
def Named (w : Form) (names : List String) (name : String) (t : Json) : Prop :=
  t = .str name ∨ w = .loose ∧ ∃ n : Nat, t = .int n ∧ names[n]? = some name

/-- The variant of this name, among these, that has these fields, and the members it has. -/
def Variant (w : Form) (names : List String) (name : String) (keys : List String) (j : Json) (ms : Members) : Prop :=
  (j = .obj ms ∧ ∃ t, Only ms "type" t ∧ Named w names name t) ∨
  (w = .loose ∧ ∃ t l, j = .arr (t :: l) ∧ Named w names name t ∧ l.length = keys.length ∧ ms = keys.zip l)

def SaysStr (s : String) (j : Json) : Prop := j = .str s
def SaysNat (n : Nat) (j : Json) : Prop := j = .int n ∧ n < 2 ^ 64
def SaysMeta (m : Metadata) (j : Json) : Prop := j = .obj m
def SaysStrs : List String → Json → Prop := Each SaysStr

def SaysVersion (w : Form) (v : Version) (j : Json) : Prop :=
  ∃ ms, Written w ["major", "minor"] j ms ∧ Given ms "major" SaysNat v.major ∧ Given ms "minor" SaysNat v.minor

def SaysSpecification (w : Form) (s : Specification) (j : Json) : Prop :=
  ∃ ms, Written w ["name", "version", "test_framework", "test_framework_version", "language", "language_version", "host"] j ms ∧ Given ms "name" SaysStr s.name ∧ Given ms "version" SaysStr s.version ∧
    Given ms "test_framework" SaysStr s.testFramework ∧ Given ms "test_framework_version" SaysStr s.testFrameworkVersion ∧
    Given ms "language" SaysStr s.language ∧ Given ms "language_version" SaysStr s.languageVersion ∧
    Given ms "host" SaysStr s.host

def SaysSpawned (w : Form) (s : Spawned) (j : Json) : Prop :=
  ∃ ms, Written w ["protocol_version", "runner_specification"] j ms ∧ Given ms "protocol_version" (SaysVersion w) s.protocolVersion ∧
    Given ms "runner_specification" (SaysSpecification w) s.specification

/-- What a manifest is made of. -/
def treeNames : List String := ["test", "group"]

mutual
def SaysTree (w : Form) : TestOrGroup → Json → Prop
  | .test id tags metadata, j => ∃ ms, Variant w treeNames "test" ["id", "tags", "meta"] j ms ∧ Given ms "id" SaysStr id ∧
      Given ms "tags" SaysStrs tags ∧ Given ms "meta" SaysMeta metadata
  | .group name members tags metadata, j => ∃ ms, Variant w treeNames "group" ["name", "members", "tags", "meta"] j ms ∧
      Given ms "name" SaysStr name ∧ (∃ l, Only ms "members" (.arr l) ∧ SaysForest w members l) ∧
      Given ms "tags" SaysStrs tags ∧ Given ms "meta" SaysMeta metadata
def SaysForest (w : Form) : List TestOrGroup → List Json → Prop
  | [], [] => True
  | t :: ts, j :: js => SaysTree w t j ∧ SaysForest w ts js
  | _, _ => False
end

def SaysLocation (w : Form) (l : Location) (j : Json) : Prop :=
  ∃ ms, Written w ["file", "line", "column"] j ms ∧ Given ms "file" SaysStr l.file ∧ Maybe ms "line" SaysNat l.line ∧ Maybe ms "column" SaysNat l.column

def SaysOob (w : Form) (e : OutOfBandError) (j : Json) : Prop :=
  ∃ ms, Written w ["message", "backtrace", "exception", "location", "meta"] j ms ∧ Given ms "message" SaysStr e.message ∧ Maybe ms "backtrace" SaysStrs e.backtrace ∧
    Maybe ms "exception" SaysStr e.exception ∧ Maybe ms "location" (SaysLocation w) e.location ∧ Maybe ms "meta" SaysMeta e.metadata

def SaysManifest (w : Form) (m : Manifest) (j : Json) : Prop :=
  ∃ ms, Written w ["members", "init_meta"] j ms ∧ (∃ l, Only ms "members" (.arr l) ∧ SaysForest w m.members l) ∧ Given ms "init_meta" SaysMeta m.initMeta

/-- What a manifest message says, in the member it says it in. -/
def SaysManifestMessage (w : Form) : ManifestMessage → Json → Prop
  | .success m errors, j => ∃ ms, Written w ["manifest", "other_errors"] j ms ∧ Given ms "manifest" (SaysManifest w) m ∧
      Maybe ms "other_errors" (Each (SaysOob w)) errors
  | .failure e errors, j => ∃ ms, Written w ["error", "other_errors"] j ms ∧ Given ms "error" (SaysOob w) e ∧ Maybe ms "other_errors" (Each (SaysOob w)) errors

/-- How a test can end. -/
def statusNames : List String := ["failure", "error", "success", "pending", "skipped", "todo", "timed_out"]

def SaysStatus (w : Form) (s : Status) (j : Json) : Prop :=
  match s with
  | .failure e b => ∃ ms, Variant w statusNames "failure" ["exception", "backtrace"] j ms ∧ Maybe ms "exception" SaysStr e ∧
      Maybe ms "backtrace" SaysStrs b
  | .error e b => ∃ ms, Variant w statusNames "error" ["exception", "backtrace"] j ms ∧ Maybe ms "exception" SaysStr e ∧
      Maybe ms "backtrace" SaysStrs b
  | .success => ∃ ms, Variant w statusNames "success" [] j ms
  | .pending => ∃ ms, Variant w statusNames "pending" [] j ms
  | .skipped => ∃ ms, Variant w statusNames "skipped" [] j ms
  | .todo => ∃ ms, Variant w statusNames "todo" [] j ms
  | .timedOut => ∃ ms, Variant w statusNames "timed_out" [] j ms

def SaysFields (w : Form) (f : Fields) (ms : Members) : Prop :=
  Given ms "status" (SaysStatus w) f.status ∧ Given ms "id" SaysStr f.id ∧ Given ms "display_name" SaysStr f.displayName ∧
  Maybe ms "output" SaysStr f.output ∧ Given ms "runtime" SaysNat f.runtime ∧ Given ms "meta" SaysMeta f.metadata ∧
  Maybe ms "location" (SaysLocation w) f.location ∧ Maybe ms "started_at" SaysStr f.startedAt ∧
  Maybe ms "finished_at" SaysStr f.finishedAt ∧ Maybe ms "lineage" SaysStrs f.lineage ∧
  Maybe ms "other_errors" (Each (SaysOob w)) f.otherErrors

/-- The fields of a result. -/
def resultFields : List String :=
  ["status", "id", "display_name", "output", "runtime", "meta", "location", "started_at", "finished_at", "lineage", "past_attempts",
    "other_errors"]

mutual
def SaysResult (w : Form) : TestResult → Json → Prop
  | .mk f none, j => ∃ ms, Written w resultFields j ms ∧ SaysFields w f ms ∧ (Absent ms "past_attempts" ∨ Only ms "past_attempts" .null)
  | .mk f (some past), j => ∃ ms, Written w resultFields j ms ∧ SaysFields w f ms ∧
      ∃ l, Only ms "past_attempts" (.arr l) ∧ SaysResults w past l
def SaysResults (w : Form) : List TestResult → List Json → Prop
  | [], [] => True
  | r :: rs, j :: js => SaysResult w r j ∧ SaysResults w rs js
  | _, _ => False
end

/-- The messages of which there can be several for a test. -/
def incrementalNames : List String := ["incremental_result", "incremental_result_done"]

/-- What a message with results says, in the member it says it in. -/
def SaysResultMessage (w : Form) : ResultMessage → Json → Prop
  | .incremental (.one r), j => ∃ ms, Variant w incrementalNames "incremental_result" ["one_test_result"] j ms ∧
      Given ms "one_test_result" (SaysResult w) r
  | .incremental (.done r), j => ∃ ms, Variant w incrementalNames "incremental_result_done" ["last_test_result"] j ms ∧
      Maybe ms "last_test_result" (SaysResult w) r
  | .single r, j => ∃ ms, Written w ["test_result"] j ms ∧ Given ms "test_result" (SaysResult w) r
  | .multiple rs, j => ∃ ms l, Written w ["test_results"] j ms ∧ Only ms "test_results" (.arr l) ∧ SaysResults w rs l

/-- A message with a test to run. -/
def SaysTestCase (t : TestCase) (j : Json) : Prop :=
  ∃ ms inner, j = .obj ms ∧ Only ms "test_case" (.obj inner) ∧ Given inner "id" SaysStr t.id ∧ Given inner "meta" SaysMeta t.metadata ∧
    match t.focus with
    | none => Absent inner "focus"
    | some ids => ∃ fs, Only inner "focus" (.obj fs) ∧ Given fs "test_ids" SaysStrs ids

/-- The message a native runner is initialized with. -/
def SaysInit (initMeta : Metadata) (fastExit : Bool) (j : Json) : Prop :=
  ∃ ms, j = .obj ms ∧ Given ms "init_meta" SaysMeta initMeta ∧ Only ms "fast_exit" (.bool fastExit)

/-- The status abq shows is the one that was said. -/
def SameStatus : Status → AbqStatus → Prop
  | .failure e b, .failure e' b' => e = e' ∧ b = b'
  | .error e b, .error e' b' => e = e' ∧ b = b'
  | .success, .success => True
  | .pending, .pending => True
  | .skipped, .skipped => True
  | .todo, .todo => True
  | .timedOut, .timedOut => True
  | _, _ => False

def SameFields (f : Fields) (s : SpecFields) : Prop :=
  SameStatus f.status s.status ∧ f.id = s.id ∧ f.displayName = s.displayName ∧ f.output = s.output ∧ s.runtime = .nanoseconds f.runtime ∧
  f.metadata = s.metadata ∧ f.location = s.location ∧ f.startedAt = s.startedAt ∧ f.finishedAt = s.finishedAt ∧
  f.lineage = s.lineage ∧ f.otherErrors = s.otherErrors

mutual
/-- What abq makes of a result is what was said, with all its attempts. -/
def Same : TestResult → ResultSpec → Prop
  | .mk f none, .mk s none => SameFields f s
  | .mk f (some past), .mk s (some past') => SameFields f s ∧ SameAll past past'
  | _, _ => False
def SameAll : List TestResult → List ResultSpec → Prop
  | [], [] => True
  | r :: rs, s :: ss => Same r s ∧ SameAll rs ss
  | _, _ => False
end

/-- The tests under a member of a manifest, in the order of the document. -/
def TestOrGroup.ids : TestOrGroup → List String
  | .test id _ _ => [id]
  | .group _ members _ _ => idsL members
where
  idsL : List TestOrGroup → List String
    | [] => []
    | t :: ts => t.ids ++ idsL ts

end Abq.Protocol
