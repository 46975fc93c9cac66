import Verif.Model.Fetch
import Verif.Spec.Report
/-! # Vocabulary for fetching results -/

namespace Abq.Fetch
open Wire (Byte)

/-- What is asked of the text of a line: it has no line feed and no carriage return in it, it is read back, and no proper
part of it from its start is a JSON value. (Of serde_json this holds because the text is that of an object, in which
control characters are escaped.) -/
structure Codec.Lawful {L : Type} (c : Codec L) (l : L) : Prop where
  oneLine : 10 ∉ c.encode l ∧ 13 ∉ c.encode l
  isJson : c.isJson (c.encode l) = true
  readBack : c.decode (c.encode l) = some l
  nothingLess : ∀ k, k < (c.encode l).length → c.isJson ((c.encode l).take k) = false

/-- A file with these lines. -/
def fileOf {L : Type} (c : Codec L) (lines : List L) : List Byte := lines.flatMap fun l => c.encode l ++ [10]

/-- What a client can read of what the queue put on the connection: nothing, or the same message, and then some part of
the bytes from their start. -/
inductive Reads : Served → Option Reply → Prop
  | nothing (s : Served) : Reads s none
  | stream (bytes got : List Byte) (broken : Bool) (h : got <+: bytes) : Reads (.streaming bytes) (some (.streaming ⟨got, broken⟩))
  | pending : Reads .pending (some .pending)
  | inProgress (active : List Tag) : Reads (.inProgress active) (some (.inProgress active))
  | error (reason : String) : Reads (.error reason) (some (.error reason))

/-- A turn of the client with the state of the queue when it handles the request. -/
structure Exchange (T L : Type) where
  /-- the run asked for -/
  state : Option (RunState T)
  /-- the number of recordings of results in progress -/
  unrecorded : Nat
  /-- the lines in the file of results -/
  lines : List L
  attempt : Attempt

/-- The client reads what the queue says. -/
def Exchange.Fair {T L : Type} (c : Codec L) (x : Exchange T L) : Prop :=
  Reads (serve x.state x.unrecorded (fileOf c x.lines)) x.attempt.reply

/-- The run is over: all tests were handed out, and no runner is active. -/
def Over {T : Type} (s : Option (RunState T)) : Prop :=
  ∃ exit md seen manifest hash, s = some (.done exit md seen manifest hash) ∧ ∀ p ∈ seen, p.2 = false

/-- The tags of the runners active in the run, in the order in which the queue knows them. -/
def activeRunners {T : Type} : Option (RunState T) → List Tag
  | some (.hasWork _ _ _ active _) => active.filterMap fun p => if p.2 = none then some p.1.tag else none
  | some (.done _ _ seen _ _) => seen.filterMap fun p => if p.2 then some p.1.tag else none
  | _ => []

/-- The connection of this turn brought all the queue sent. -/
def Exchange.Whole {T L : Type} (c : Codec L) (x : Exchange T L) : Prop :=
  ∃ broken, x.attempt.reply = some (.streaming ⟨Wire.streamBytes (fileOf c x.lines).length (fileOf c x.lines), broken⟩)

/-- Each result of a later attempt at a test is recorded after a result of the first. -/
def FirstsFirst (gs : List Report.Group) : Prop :=
  ∀ pre g post, gs = pre ++ g :: post → ∃ g' ∈ pre ++ [g], g'.workId = g.workId ∧ g'.runNumber = 1

/-- Bytes of a file as they are sent. -/
def onWire (bytes : List UInt8) : List Wire.Byte := bytes.map UInt8.toNat

end Abq.Fetch
