import Verif.Model.Messages
/-!
# What the queue answers

`crates/abq_utils/src/net_protocol.rs`: the answers of the queue that carry no tests (those are in `Model/Messages.lean`) as JSON
documents, with the simplifications of `Model/Messages.lean`.
-/

namespace Abq.QueueAnswers
open RunStateDoc (Json reqField encTag decTag)
open Protocol Messages

/-- `net_protocol.rs:18-22` `Health`. -/
structure Health where
  healthy : Bool
  version : String
deriving DecidableEq

/-- Derived `Serialize`: `net_protocol.rs:18-22` `Health`. -/
def encHealth (h : Health) : Json := struct [("healthy", some (.bool h.healthy)), ("version", some (.str h.version))]

/-- Derived `Deserialize`: `net_protocol.rs:18-22` `Health`. -/
def decHealth : Json → Option Health
  | .obj ms => (reqField "healthy" ms decBool).bind fun h => (reqField "version" ms decStr).map fun v => ⟨h, v⟩
  | _ => none

/-- `net_protocol.rs:487-492` `NegotiatorInfo`. -/
structure Info where
  address : Address.Sock
  version : String
deriving DecidableEq

/-- Derived `Serialize`: `net_protocol.rs:487-492` `NegotiatorInfo`. -/
def encInfo (i : Info) : Json := struct [("negotiator_address", some (encAddr i.address)), ("version", some (.str i.version))]

/-- Derived `Deserialize`: `net_protocol.rs:487-492` `NegotiatorInfo`. -/
def decInfo : Json → Option Info
  | .obj ms => (reqField "negotiator_address" ms decAddr).bind fun a => (reqField "version" ms decStr).map fun v => ⟨a, v⟩
  | _ => none

/-- Derived `Serialize`: `net_protocol.rs:609-612` `ActiveTestRunsResponse`. -/
def encActive (n : Nat) : Json := struct [("active_runs", some (.int n))]

/-- Derived `Deserialize`: `net_protocol.rs:609-612` `ActiveTestRunsResponse`. -/
def decActive : Json → Option Nat
  | .obj ms => reqField "active_runs" ms decU64
  | _ => none

/-- `net_protocol.rs:596-606` `RunStatus`. -/
inductive Status where
  | active
  | initialManifestDone (activeWorkers : Nat)
  | cancelled
deriving DecidableEq

/-- Derived `Serialize`: `net_protocol.rs:596-606` `RunStatus`. -/
def encStatus : Status → Json
  | .active => .str "Active"
  | .initialManifestDone n => .obj [("InitialManifestDone", struct [("num_active_workers", some (.int n))])]
  | .cancelled => .str "Cancelled"

/-- Derived `Deserialize`: `net_protocol.rs:596-606` `RunStatus`. -/
def decDone : Json → Option Status
  | .obj ms => (reqField "num_active_workers" ms decU64).map .initialManifestDone
  | _ => none

/-- Derived `Deserialize`: `net_protocol.rs:596-606` `RunStatus`. -/
def decStatus (j : Json) : Option Status :=
  (variant j).bind fun v =>
    if v.1 = "Active" then decUnit .active v.2
    else if v.1 = "InitialManifestDone" then decDone v.2
    else if v.1 = "Cancelled" then decUnit .cancelled v.2
    else none

/-- `net_protocol.rs:686-698` `TestResultsResponse`. -/
inductive Results where
  | streaming
  | pending
  | inProgress (runners : List Tag)
  | error (message : String)
deriving DecidableEq

/-- Derived `Serialize`: `net_protocol.rs:686-698` `TestResultsResponse`. -/
def encResults : Results → Json
  | .streaming => .str "StreamingResults"
  | .pending => .str "Pending"
  | .inProgress rs => .obj [("RunInProgress", struct [("active_runners", some (.arr (rs.map encTag)))])]
  | .error m => .obj [("Error", .str m)]

/-- Derived `Deserialize`: `net_protocol.rs:686-698` `TestResultsResponse`. -/
def decInProgress : Json → Option Results
  | .obj ms => (reqField "active_runners" ms (decArr decTag)).map .inProgress
  | _ => none

/-- Derived `Deserialize`: `net_protocol.rs:686-698` `TestResultsResponse`. -/
def decResults (j : Json) : Option Results :=
  (variant j).bind fun v =>
    if v.1 = "StreamingResults" then decUnit .streaming v.2
    else if v.1 = "Pending" then decUnit .pending v.2
    else if v.1 = "RunInProgress" then decInProgress v.2
    else if v.1 = "Error" then (decStr v.2).map .error
    else none

/-- The acknowledgements, and the request for the next tests: `net_protocol.rs:632-653, 884-886`. -/
inductive Marker where
  | ackManifest
  | ackTestResults
  | ackWorkerRanAllTests
  | ackTestCancellation
  | nextTestRequest
deriving DecidableEq

/-- The name that `#[serde(tag = "type")]` writes (`net_protocol.rs:632-653, 884-886`). -/
def Marker.name : Marker → String
  | .ackManifest => "AckManifest"
  | .ackTestResults => "AckTestResults"
  | .ackWorkerRanAllTests => "AckWorkerRanAllTests"
  | .ackTestCancellation => "AckTestCancellation"
  | .nextTestRequest => "NextTestRequest"

/-- Derived `Serialize`: `net_protocol.rs:632-653, 884-886`. -/
def encMarker (m : Marker) : Json := .obj [("type", .str m.name)]

/-- Derived `Deserialize`: `net_protocol.rs:632-653, 884-886`. `serde` does not look at the tag of a struct when it reads one, and the
structs have no fields: the members of the object are ignored. -/
def decMarker (m : Marker) : Json → Option Marker
  | .obj _ => some m
  | _ => none

end Abq.QueueAnswers
