import Verif.Model.AllRuns
import Verif.Model.Report
import Verif.Model.Results
/-!
# The registry of runs and the files of results together

The handlers of `abq_queue/src/queue.rs` that record results or serve them first ask the registry (`Model/AllRuns.lean`) for the
cell of the run and, having given back its locks, go on to the cell and the file (`Model/Results.lean`): the manifest
(`queue.rs:2133-2262`), results of a worker (`queue.rs:2264-2316`) and the request for results (`queue.rs:2318-2364`). Anything can
happen between the two.

A run has one cell, from its manifest on (`queue.rs:741, 1253`). The queue begins without files, and what the remote has of a run that
is loaded from there (`queue.rs:623-678`) is not modelled here (see `Model/Results.lean`).
-/

namespace Abq.Recording

/-- A handler that was given the cell of its run and has not yet used it. -/
inductive Handler where
  /-- `queue.rs:2155-2182, 2238-2253`: about to build the plan of recording the summary of the manifest -/
  | summary (rid : RunId) (tests : Nat) (eligible : Bool)
  /-- `queue.rs:2289-2298`: about to build the plan of recording results -/
  | results (rid : RunId) (gs : List Report.Group) (eligible : Bool)
  /-- `queue.rs:2348`: about to ask whether recordings are in progress -/
  | read (rid : RunId)
deriving DecidableEq, Repr

/-- What can be observed (`queue.rs:2133-2364`). -/
inductive Obs (T : Type) where
  | registry (ev : Event T)
  /-- a worker's results were taken for a run -/
  | took (rid : RunId) (gs : List Report.Group)
  | file (rid : RunId) (ev : Results.Ev)
deriving Repr

/-- The registry, the file of each run and the handlers between the two (`queue.rs:1785-1820`). `lines` is ghost: the line each
recording of a run's file is about, by its number. -/
structure State (T : Type) where
  registry : Runs T
  files : RunId → Results.Res
  lines : RunId → List Report.Line
  handlers : List Handler
  log : List (Obs T)

/-- A queue that has just started, without files (`queue.rs:1615-1713`). -/
def init (T : Type) (noop : Bool) : State T :=
  { registry := Runs.init, files := fun _ => Results.init noop [] none, lines := fun _ => [], handlers := [], log := [] }

/-- A choice of the scheduler (`queue.rs:1821-2004, 2539-2744`). -/
inductive Act (T : Type) where
  /-- a step of the registry -/
  | call (a : RunsAct T)
  /-- results of a worker arrive: `get_write_results_cell` (`queue.rs:2289`) -/
  | report (rid : RunId) (gs : List Report.Group)
  /-- a handler goes on to the cell of its run -/
  | handle (i : Nat)
  /-- a recording, or a read, of the file of a run goes on -/
  | task (rid : RunId) (i : Nat) (out : Results.Out)
  /-- the offload job comes to the file of a run -/
  | offload (rid : RunId) (c : Results.OffloadConfig) (now accessed : Nat) (o : Results.OffloadOut)
deriving Repr

/-- The handler that goes on after an answer of the registry: `AddedManifest::Added` (`queue.rs:2155-2182`),
`RecordedEmptyManifest::Recorded` (`queue.rs:2238-2253`) or `ReadResultsState::ReadFromCell` (`queue.rs:2326-2348`). -/
def spawn {T : Type} : Event T → List Handler
  | .manifest rid flat true => [.summary rid flat.length false]
  | .emptyManifest rid true => [.summary rid 0 true]
  | .read rid .readFromCell => [.read rid]
  | _ => []

namespace State
variable {T : Type}

/-- A step of the registry with what it came up with, and the handlers that go on from there (`queue.rs:2133-2364`). -/
def call (σ : State T) (a : RunsAct T) : State T :=
  let registry := σ.registry.step a
  let evs := registry.events.drop σ.registry.events.length
  { σ with registry, handlers := σ.handlers ++ evs.flatMap spawn, log := σ.log ++ evs.map .registry }

/-- A step of the file of a run (`results.rs:130-213`). -/
def file (σ : State T) (rid : RunId) (a : Results.Act) : State T :=
  let res := Results.step (σ.files rid) a
  { σ with
    files := fun r => if r = rid then res else σ.files r
    log := σ.log ++ (res.events.drop (σ.files rid).events.length).map (.file rid) }

/-- The next recording of a run's file is about this line (ghost, `results.rs:130-164`). -/
def label (σ : State T) (rid : RunId) (line : Report.Line) : State T :=
  { σ with lines := fun r => if r = rid then σ.lines r ++ [line] else σ.lines r }

/-- A handler goes on to the cell: `build_persist_summary_plan`, `build_persist_results_plan` (`results.rs:130-164`) or
`eligible_to_retrieve` (`results.rs:166-168`). Lines are serialized by `enc`. -/
def handle (enc : Report.Line → Results.Bytes) (σ : State T) : Handler → State T
  | .summary rid n e => (σ.label rid (.summary n)).file rid (.summary (enc (.summary n)) e)
  | .results rid gs e => (σ.label rid (.results gs)).file rid (.results (enc (.results gs)) e)
  | .read rid => σ.file rid .request

/-- One atomic step. Disabled choices leave the state unchanged (`queue.rs:2133-2364`). -/
def step (enc : Report.Line → Results.Bytes) (σ : State T) : Act T → State T
  | .call a => σ.call a
  | .report rid gs =>
    let σ' := σ.call (.request rid .writeCell)
    match (σ.registry.get rid).map RunState.writeCell with
    | some (.cell e) => { σ' with handlers := σ'.handlers ++ [.results rid gs e], log := σ'.log ++ [.took rid gs] }
    | _ => σ'
  | .handle i =>
    match σ.handlers[i]? with
    | none => σ
    | some h => { σ with handlers := σ.handlers.eraseIdx i }.handle enc h
  | .task rid i out => σ.file rid (.resume i out)
  | .offload rid c now accessed o => σ.file rid (.offload c now accessed o)

/-- A schedule (`queue.rs:2133-2364`). -/
def run (enc : Report.Line → Results.Bytes) (σ : State T) (acts : List (Act T)) : State T := acts.foldl (step enc) σ

end State
end Abq.Recording
