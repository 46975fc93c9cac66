import Verif.Model.AllRuns
import Verif.Model.Backoff
import Verif.Model.Framing
import Verif.Model.Report

/-!
# Fetching the results of a run

`abq report` and `abq list-tests` (`abq_cli/src/report.rs:41-80`, report.rs:227-310), the lines they read
(`abq_utils/src/net_protocol.rs:750-783`), and the handler of the queue that answers them
(`abq_queue/src/queue.rs:2318-2364`, queue.rs:2465-2500).
-/

namespace Abq.Fetch
open Wire (Byte)

/-! ## The queue -/

/-- What the queue puts on the connection in answer to a request for results
(`net_protocol.rs:687-698` `TestResultsResponse`). -/
inductive Served where
  /-- the message `StreamingResults`, then these bytes -/
  | streaming (bytes : List Byte)
  | pending
  | inProgress (active : List Tag)
  | error (reason : String)
deriving DecidableEq, Repr

/-- `queue.rs:288-298` the messages of `ReadResultsError`. -/
def notFoundReason : String := "results cannot be read for an unregistered run"
/-- `queue.rs:288-298`. -/
def waitingReason : String := "results cannot be read before manifest is received"
/-- `queue.rs:288-298`. -/
def neverReceivedReason : String := "a manifest failed to be generated"
/-- `queue.rs:288-298`. -/
def cancelledReason : String := "the run was cancelled before all test results were received"

/-- `queue.rs:2325-2363` `handle_test_results_request` once the cell of the run was looked at: `unrecorded` is the number
of recordings in progress (`persistence/results.rs:166-168`), `file` what the file of the run contains. Its length is
that of the file (`results/fs.rs:393-401`). -/
def serveCell (a : ReadAns) (unrecorded : Nat) (file : List Byte) : Served :=
  match a with
  | .inProgress active => .inProgress active
  | .waitingForManifest => .error waitingReason
  | .runCancelled => .error cancelledReason
  | .manifestNeverReceived => .error neverReceivedReason
  | .readFromCell => if unrecorded = 0 then .streaming (Wire.streamBytes file.length file) else .pending

/-- `queue.rs:2318-2364` `handle_test_results_request`, for a run or for none. A failure to read the file is left out
here: the connection then ends early. -/
def serve {T : Type} (s : Option (RunState T)) (unrecorded : Nat) (file : List Byte) : Served :=
  match s with
  | none => .error notFoundReason
  | some s => serveCell s.readCell unrecorded file

/-! ## Reading lines -/

/-- serde_json on lines of results: the text written for a line, whether a text is a JSON value at all
(`RawValue::from_string`, which also stands for the check that it is UTF-8), and the line read from it
(`net_protocol.rs:759-783`). -/
structure Codec (L : Type) where
  encode : L → List Byte
  isJson : List Byte → Bool
  decode : List Byte → Option L

/-- `tokio::io::Lines::next_line`: a line feed is removed from the end of a line, and then a carriage return
(`net_protocol.rs:767-783`). -/
def chomp (line : List Byte) : List Byte := if line.getLast? = some 13 then line.dropLast else line

/-- `tokio::io::BufReader::lines`, read to the end; `acc` is the part of a line read so far. What comes after the last
line feed is a line unless it is empty (`net_protocol.rs:767-783`). -/
def splitLines (acc : List Byte) : List Byte → List (List Byte)
  | [] => if acc.isEmpty then [] else [acc]
  | b :: rest => if b = 10 then chomp acc :: splitLines [] rest else splitLines (acc ++ [b]) rest

/-- `net_protocol.rs:767-783` `read_results_lines`. -/
def readResultsLines {L : Type} (c : Codec L) (stream : List Byte) : Option (List (List Byte)) :=
  if (splitLines [] stream).all c.isJson then some (splitLines [] stream) else none

/-- `net_protocol.rs:759-765` `decode`. -/
def decodeLines {L : Type} (c : Codec L) : List (List Byte) → Option (List L)
  | [] => some []
  | text :: rest =>
    match c.decode text with
    | none => none
    | some l =>
      match decodeLines c rest with
      | none => none
      | some ls => some (l :: ls)

/-! ## The client -/

/-- What comes in on a connection after the message `StreamingResults`: bytes, and then the end of the connection, or an
error (`net_protocol.rs:1328-1347`). -/
structure Conn where
  bytes : List Byte
  broken : Bool
deriving DecidableEq, Repr

/-- What a client reads as answer to its request (`report.rs:264-309`). -/
inductive Reply where
  | streaming (conn : Conn)
  | pending
  | inProgress (active : List Tag)
  | error (reason : String)
deriving DecidableEq, Repr

/-- The errors of `wait_for_results` (`report.rs:227-310`). -/
inductive Failure where
  | timedOut
  | noConnection
  | io
  | malformed
  | noActiveRunners
  | stillActive (active : List Tag)
  | refused (reason : String)
deriving DecidableEq, Repr

/-- `report.rs:278-286` with `net_protocol.rs:1328-1347`: the bytes up to the size announced are read; a connection that
ends before is taken for the end of the stream, an error is an error if it comes before. -/
def readResults {L : Type} (c : Codec L) (conn : Conn) : Except Failure (List L) :=
  match Wire.readStream conn.bytes with
  | none => .error .io
  | some (stream, _) =>
    if conn.broken ∧ conn.bytes.length < 4 + Wire.fromBeBytes (conn.bytes.take 4) then .error .io
    else
      match readResultsLines c stream with
      | none => .error .malformed
      | some texts =>
        match decodeLines c texts with
        | none => .error .malformed
        | some ls => .ok ls

/-- One turn of the loop, as the environment decides it: which attempts to connect succeed, whether the request can be
written, and what is read as answer; `none` if that fails (`report.rs:249-310`). -/
structure Attempt where
  connects : Nat → Bool
  sent : Bool
  reply : Option Reply

/-- `report.rs:36` `RECONNECT_ATTEMPTS`. -/
def reconnectAttempts : Nat := 5

/-- `report.rs:258-262`: connecting, with retries. -/
def connect (a : Attempt) : Except Unit Unit :=
  (Backoff.retryN reconnectAttempts fun k => if a.connects k then .ok () else .error ()).1

/-- `report.rs:227-310` `wait_for_results`. The list is what happens before the time is up; a timeout within an attempt has the same
effect as one just before it. -/
def fetch {L : Type} (c : Codec L) : List Attempt → Except Failure (List L)
  | [] => .error .timedOut
  | a :: rest =>
    match connect a with
    | .error _ => .error .noConnection
    | .ok _ =>
      if a.sent then
        match a.reply with
        | none => .error .io
        | some (.streaming conn) => readResults c conn
        | some .pending => fetch c rest
        | some (.inProgress active) => .error (if active.isEmpty then .noActiveRunners else .stillActive active)
        | some (.error reason) => .error (.refused reason)
      else .error .io

/-- The result of a command: it could not get the results, or it went on with them (`report.rs:41-80`). -/
inductive Done (α : Type) where
  | failed (f : Failure)
  | ended (a : α)

/-- `report.rs:41-59` `report_results`. -/
def report (c : Codec Report.Line) (sort : List Report.Group → List Report.Group) (reporters : List Report.Reporter)
    (attempts : List Attempt) : Done Report.Outcome :=
  match fetch c attempts with
  | .error f => .failed f
  | .ok lines => .ended (Report.process sort reporters lines)

/-- `report.rs:61-80` `list_tests`: what is printed; the exit code is then 0. -/
def listTests (c : Codec Report.Line) (runner : Summary.Runner) (attempts : List Attempt) : Done (List String) :=
  match fetch c attempts with
  | .error f => .failed f
  | .ok lines => .ended (Report.testsForRunner lines runner)

end Abq.Fetch
