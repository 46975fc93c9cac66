import Verif.Model.ManifestView
import Verif.Model.WorkerSet

/-!
# The registry of runs (`abq_queue/src/queue.rs`, `AllRuns`)

First the functions of `AllRuns` on the state of one run, one definition per Rust function.
Then the registry as a machine: requests arrive in any order, and a request that gives up its
locks (or is waiting on storage or the network) leaves a `Pending` continuation that is resumed
at any later point of the schedule.
-/

namespace Abq

/-- `abq_utils/src/net_protocol.rs:249-253` `RunId(String)`. -/
abbrev RunId := String

/-- `net_protocol.rs:394-398` `WorkerTest`: a test and the number of the attempt it is handed out for.
`INIT_RUN_NUMBER = 1` is `net_protocol.rs:411`. -/
structure WorkerTest (T : Type) where
  spec : T
  runNumber : Nat
deriving DecidableEq, Repr

/-- `net_protocol.rs:616-623` `CancelReason`. -/
inductive CancelReason where
  | user
  | manifestHadNoProgress
  | manifestNeverReceived
deriving DecidableEq, Repr

/-- `queue.rs:137-140` `ManifestPersistence`: either the cell saying whether the manifest was
written (`persistence/manifest.rs:95-122`), or a manifest without tests. -/
inductive ManifestPersistence where
  | cell (isPersisted : Bool)
  | emptyManifest
deriving DecidableEq, Repr

/-- `queue.rs:63-134` `RunState`. Simplifications: metadata, command hashes are opaque strings;
instants are numbers; the time at which a worker connected while waiting is left out, as is the
results cell (modelled in `Verif.Model.Results`). -/
inductive RunState (T : Type) where
  | waiting (workers : WorkerSet Unit) (batch : Nat) (strategy : TestStrategy) (hash : String)
  | hasWork (queue : JobQueue (WorkerTest T)) (batch : Nat) (md : String)
      (active : WorkerSet (Option Nat)) (hash : String)
  | done (exit : Int) (md : String) (seen : WorkerSet Bool) (manifest : ManifestPersistence)
      (hash : Option String)
  | cancelled (reason : CancelReason)
deriving Repr

/-- A non-zero number (`NonZeroUsize`, `NonZeroU64`) (`std::num`; used at `queue.rs:150-153, 328-335`). -/
abbrev NonZero := { n : Nat // 0 < n }

/-- `queue.rs:1728-1733` `InvokeWork` with the entity that asks: what a worker joins with. -/
structure JoinParams where
  rid : RunId
  entity : Entity
  hint : NonZero
  strategy : TestStrategy
  hash : String
deriving DecidableEq, Repr

/-- `abq_workers/src/assigned_run.rs:27-37` `AssignedRunStatus`, answer of
`find_or_create_run`. -/
inductive Assigned where
  /-- `Run(AssignedRun { kind: Fresh { should_generate_manifest }, runner_test_command_differs })` -/
  | fresh (generate differs : Bool)
  /-- `Run(AssignedRun { kind: RetryAndContinue, .. })` -/
  | retry (differs : Bool)
  | alreadyDone (exit : Int)
  | cancelled (reason : CancelReason)
  | runUnknown
  | fatal
deriving DecidableEq, Repr

/-- `persistence/run_state.rs:27-34`: the run state kept in remote storage. -/
structure RunDoc where
  exit : Int
  md : String
  seen : List Entity
  hash : Option String
deriving DecidableEq, Repr

/-- `persistence/remote.rs:63-67` `LoadedRunState` or an error of the remote store. -/
inductive RemoteAns where
  | found (doc : RunDoc)
  | notFound
  | incompatible
  | error
deriving DecidableEq, Repr

/-- `queue.rs:234-237` `PersistAfterManifestDone`: the manifest view and the run state to be
written once the last test was handed out. -/
structure Plan (T : Type) where
  view : ManifestView (WorkerTest T)
  doc : RunDoc
deriving Repr

/-- `queue.rs:309-325` `ManifestProgressResult`, `ManifestProgressCancelReason`. -/
inductive Progress where
  | cancelledNotReceived
  | cancelledNoProgress
  | newProgress (index : Nat)
  | runComplete
deriving DecidableEq, Repr

/-- `queue.rs:205-209` `InitMetadata`, answer of `init_metadata`. -/
inductive MetaAns where
  | waitingForManifest
  | metadata (md : String)
  | alreadyCompleted (cancelled : Bool)
deriving DecidableEq, Repr

/-- `queue.rs:271-276` `RetryManifestState`, answer of `get_retry_manifest`. -/
inductive RetryAns (T : Type) where
  | manifest (items : List (WorkerTest T))
  | fetchFromPersistence
  | notYetPersisted
  | manifestNeverReceived
  | runCancelled
deriving DecidableEq, Repr

/-- Answer of `get_write_results_cell` (`queue.rs:903-938`): the cell with the eligibility for a
remote dump, or an error. -/
inductive WriteAns where
  | cell (eligible : Bool)
  | waitingForManifest
  | runCancelled
deriving DecidableEq, Repr

/-- Answer of `get_read_results_cell` (`queue.rs:940-994`). -/
inductive ReadAns where
  | readFromCell
  | inProgress (active : List Tag)
  | waitingForManifest
  | runCancelled
  | manifestNeverReceived
deriving DecidableEq, Repr

/-- Answer of `get_run_status` (`queue.rs:1307-1327`). -/
inductive StatusAns where
  | active
  | manifestDone (activeWorkers : Nat)
  | cancelled
deriving DecidableEq, Repr

/-- Result of the part of `next_work` that runs under the run's read lock (`queue.rs:795-854`; `NextWorkResult`,
`queue.rs:240-244`). -/
inductive PullAns (T : Type) where
  /-- tests were pulled from the queue (`queue.rs:801-809`) -/
  | online (items : List (WorkerTest T))
  /-- an empty bundle with the end-of-work mark (`queue.rs:830-852`) -/
  | finished
  /-- an out-of-range slice index in `get_work` -/
  | panic
deriving DecidableEq, Repr

namespace RunState
variable {T : Type}

/-- `queue.rs:352-504`: the classification in `find_or_create_run`, once the run is known to
exist. -/
def join (s : RunState T) (e : Entity) (hash : String) : RunState T × Assigned :=
  match s with
  | .waiting ws b st h =>
    (.waiting (ws.insertByTag e ()).1 b st h, .fresh false (h != hash))
  | .hasWork q b md act h =>
    match (act.insertByTag e none).2 with
    | none => (.hasWork q b md (act.insertByTag e none).1 h, .fresh false (h != hash))
    | some _ => (.hasWork q b md (act.insertByTag e none).1 h, .retry (h != hash))
  | .done x md seen m h =>
    if seen.containsByTag e then
      (.done x md seen m h, .retry (match h with | some h => h != hash | none => false))
    else (.done x md seen m h, .alreadyDone x)
  | .cancelled r => (.cancelled r, .cancelled r)

/-- `queue.rs:581-594`: the state of a freshly created run. -/
def fresh (p : JoinParams) : RunState T :=
  .waiting (WorkerSet.insertByTag [] p.entity ()).1 (clampBatch p.hint.val) p.strategy p.hash

/-- `queue.rs:629-658`: the state of a run loaded from the remote store. -/
def loaded (d : RunDoc) : RunState T :=
  .done d.exit d.md (WorkerSet.ofList (d.seen.map (fun e => (e, false)))) (.cell true) d.hash

/-- `queue.rs:681-757` `add_manifest`: the new state and whether the manifest was added. -/
def addManifest (s : RunState T) (flat : List (T × Nat)) (md : String) : RunState T × Bool :=
  match s with
  | .waiting ws b st h =>
    (.hasWork (JobQueue.new (flat.map (fun p => (⟨p.1, 1⟩, p.2))) st) b md
      (ws.foldl (fun a p => (WorkerSet.insertByTag a p.1 none).1) []) h, true)
  | s => (s, false)

/-- `queue.rs:759-793` `init_metadata`. Simplification: the test `contains_by_tag` and the
insertion are one step; tags are never removed. -/
def initMetadata (s : RunState T) (e : Entity) : RunState T × MetaAns :=
  match s with
  | .waiting .. => (s, .waitingForManifest)
  | .hasWork _ _ md _ _ => (s, .metadata md)
  | .done x md seen m h =>
    if seen.containsByTag e then (.done x md (seen.insertByTag e true).1 m h, .metadata md)
    else (s, .alreadyCompleted false)
  | .cancelled _ => (s, .alreadyCompleted true)

/-- `queue.rs:795-854` `next_work` up to the pull from the queue
(`get_next_work_online`, `queue.rs:856-866`). Simplification: recording the worker
(`insert_by_tag_if_missing`) and the pull are one step, and the pull is the sequential
`JobQueue.getWork`; `Abq.Props.C03_linearizable` relates it to the interleaved execution. -/
def pull (s : RunState T) (e : Entity) : RunState T × PullAns T :=
  match s with
  | .hasWork q b md act h =>
    match q.getWork e.tag b with
    | some (q', items) => (.hasWork q' b md (act.insertByTagIfMissing e none) h, .online items)
    | none => (.hasWork q b md (act.insertByTagIfMissing e none) h, .panic)
  | .done x md seen m h => (.done x md (seen.insertByTagIfMissing e true) m h, .finished)
  | .cancelled r => (.cancelled r, .finished)
  | .waiting ws b st h => (.waiting ws b st h, .finished)

/-- `queue.rs:870` `queue.is_at_end()`, evaluated by a request that holds the read lock of a run
with work; `none` in the other states, where no such request exists. -/
def atEnd (s : RunState T) : Option Bool :=
  match s with
  | .hasWork q _ _ _ _ => some q.isAtEnd
  | _ => none

/-- `queue.rs:1111-1203` `try_mark_reached_end_of_manifest(run_id, ExitCode::SUCCESS)`: the
new state and the persistence plan. The counter is decremented iff there is a plan. -/
def markEnd (s : RunState T) : RunState T × Option (Plan T) :=
  match s with
  | .hasWork q _ md act h =>
    let seen : WorkerSet Bool :=
      act.foldl (fun a p => (WorkerSet.insertByTag a p.1 p.2.isNone).1) []
    (.done 0 md seen (.cell false) (some h),
      some { view := q.manifestView
             doc := { exit := 0, md := md, seen := seen.map Prod.fst, hash := some h } })
  | s => (s, none)

/-- `queue.rs:996-1061` `get_retry_manifest`. -/
def retryManifest (s : RunState T) (e : Entity) : RunState T × RetryAns T :=
  match s with
  | .waiting .. => (s, .manifestNeverReceived)
  | .hasWork q b md act h =>
    (.hasWork q b md (act.insertByTag e none).1 h, .manifest (q.getPartitionForEntity e.tag))
  | .done x md seen m h =>
    match m with
    | .cell true => (.done x md (seen.insertByTag e true).1 m h, .fetchFromPersistence)
    | .cell false => (s, .notYetPersisted)
    | .emptyManifest => (s, .manifest [])
  | .cancelled _ => (s, .runCancelled)

/-- `queue.rs:1063-1109` `mark_worker_complete`. -/
def complete (s : RunState T) (e : Entity) (time : Nat) : RunState T :=
  match s with
  | .waiting .. => s
  | .hasWork q b md act h => .hasWork q b md (act.insertByTag e (some time)).1 h
  | .done x md seen m h => .done x md (seen.insertByTag e false).1 m h
  | .cancelled _ => s

/-- `queue.rs:1205-1228` `mark_failed_to_receive_manifest`; the flag says whether the counter is
decremented. -/
def manifestFailed (s : RunState T) : RunState T × Bool :=
  match s with
  | .waiting .. => (.cancelled .manifestNeverReceived, true)
  | s => (s, false)

/-- `queue.rs:1231-1274` `mark_empty_manifest_complete`; the flag says whether it was recorded
and the counter is decremented. -/
def emptyManifest (s : RunState T) : RunState T × Bool :=
  match s with
  | .waiting _ _ _ h => (.done 0 "" [] .emptyManifest (some h), true)
  | s => (s, false)

/-- `queue.rs:1276-1305` `mark_cancelled`, `mark_cancelled_help`; the flag says whether the
counter is decremented. -/
def cancel (s : RunState T) (e : Entity) (reason : CancelReason) : RunState T × Bool :=
  match s with
  | .waiting .. => (.cancelled reason, true)
  | .hasWork .. => (.cancelled reason, true)
  | .cancelled _ => (.cancelled reason, true)
  | .done x md seen m h => (.done x md (seen.insertByTag e false).1 m h, false)

/-- `queue.rs:1307-1327` `get_run_status`. -/
def status (s : RunState T) : StatusAns :=
  match s with
  | .waiting .. => .active
  | .hasWork .. => .active
  | .done _ _ seen _ _ => .manifestDone ((seen.filter (fun p => p.2)).length)
  | .cancelled _ => .cancelled

/-- `queue.rs:1372-1404` `query_manifest_progress_status`: the answer, and whether the run is
eligible for cancellation. -/
def progress (s : RunState T) (last : Nat) : Progress × Bool :=
  match s with
  | .waiting .. => (.cancelledNotReceived, true)
  | .hasWork q _ _ _ _ =>
    if q.readIndex > last then (.newProgress q.readIndex, false) else (.cancelledNoProgress, true)
  | .done .. => (.runComplete, false)
  | .cancelled _ => (.runComplete, false)

/-- `queue.rs:1350-1366`: the second half of `handle_manifest_progress_timeout`, under the
write lock. -/
def timeoutWrite (s : RunState T) (last : Nat) : RunState T × Progress × Bool :=
  if (s.progress last).2 then (.cancelled .manifestHadNoProgress, (s.progress last).1, true)
  else (s, (s.progress last).1, false)

/-- `queue.rs:903-938` `get_write_results_cell` for an existing run. -/
def writeCell (s : RunState T) : WriteAns :=
  match s with
  | .waiting .. => .waitingForManifest
  | .hasWork .. => .cell false
  | .done .. => .cell true
  | .cancelled _ => .runCancelled

/-- `queue.rs:940-994` `get_read_results_cell` for an existing run. -/
def readCell (s : RunState T) : ReadAns :=
  match s with
  | .waiting .. => .waitingForManifest
  | .hasWork _ _ _ act _ => .inProgress ((act.filter (fun p => p.2.isNone)).map (fun p => p.1.tag))
  | .done _ _ seen _ _ =>
    let active := (seen.filter (fun p => p.2)).map (fun p => p.1.tag)
    if active.isEmpty then .readFromCell else .inProgress active
  | .cancelled r =>
    match r with
    | .user => .runCancelled
    | .manifestHadNoProgress => .runCancelled
    | .manifestNeverReceived => .manifestNeverReceived

/-- `persistence/manifest.rs:111-113` `ManifestPersistedCell::set_persisted`. The cell is shared
between the run state and the persistence task. -/
def setPersisted (s : RunState T) : RunState T :=
  match s with
  | .done x md seen (.cell _) h => .done x md seen (.cell true) h
  | s => s

end RunState

/-! ## The registry -/

/-- A request for one run other than joining it (the methods of `AllRuns`, `queue.rs:681-1404`, as they are called by the
servers, `queue.rs:1911-1994, 2598-2744`). -/
inductive Req (T : Type) where
  | addManifest (flat : List (T × Nat)) (md : String)
  | manifestFailed
  | emptyManifest
  | initMetadata (e : Entity)
  | nextWork (e : Entity)
  | retryManifest (e : Entity)
  | complete (e : Entity) (time : Nat)
  | cancel (e : Entity) (reason : CancelReason)
  | writeCell
  | readCell
  | status
deriving DecidableEq, Repr

/-- Where a request, or a task started by one, is while it holds no exclusive lock (between two locks of
`queue.rs:337-1443`, or in a task of `queue.rs:2713-2788`). -/
inductive Pending (T : Type) where
  /-- in `try_create_run` (`queue.rs:513-571`), waiting for the remote store -/
  | joinRemote (p : JoinParams)
  /-- in `find_or_create_run`, the run is known to exist (`queue.rs:352`) -/
  | joinRead (p : JoinParams)
  /-- in `next_work`, holding the read lock of the run, about to evaluate `is_at_end`
  (`queue.rs:870`) -/
  | pulled (rid : RunId) (e : Entity) (items : List (WorkerTest T))
  /-- in `next_work`, locks dropped, about to call `try_mark_reached_end_of_manifest`
  (`queue.rs:815-820`) -/
  | markEnd (rid : RunId) (e : Entity) (items : List (WorkerTest T))
  /-- `next_work` returned, the answer is to be written to the worker's connection
  (`queue.rs:2700-2711`) -/
  | respond (rid : RunId) (e : Entity) (items : List (WorkerTest T)) (eow : Bool)
      (plan : Option (Plan T))
  /-- the state of the run was changed, `num_active.fetch_sub(1)` is still to be executed -/
  | sub (rid : RunId)
  /-- the task writing the manifest (`persistence/manifest.rs:145-153`) -/
  | dumpManifest (rid : RunId) (view : ManifestView (WorkerTest T))
  /-- the manifest was written, `set_persisted` is still to be executed -/
  | setPersisted (rid : RunId)
  /-- the task writing the run state to the remote store (`persistence/run_state.rs:128-130`) -/
  | dumpState (rid : RunId) (doc : RunDoc)
  /-- a progress timer (`timeout.rs`, `queue.rs:1759-1769`, `2441-2450`) -/
  | timer (rid : RunId) (last : Nat)
  /-- in `handle_manifest_progress_timeout`, between the read and the write lock
  (`queue.rs:1350`) -/
  | timeoutWrite (rid : RunId) (last : Nat)
deriving Repr

/-- What can be observed of the queue: answers to requests, and deliveries (what is returned by the methods at
`queue.rs:337-1443` and sent to workers, `queue.rs:2677-2703`). -/
inductive Event (T : Type) where
  /-- answer of `find_or_create_run` -/
  | joined (p : JoinParams) (a : Assigned)
  /-- a run was taken over from the remote store -/
  | loaded (rid : RunId) (doc : RunDoc)
  | manifest (rid : RunId) (flat : List (T × Nat)) (added : Bool)
  | manifestFailed (rid : RunId)
  | emptyManifest (rid : RunId) (recorded : Bool)
  | initMeta (rid : RunId) (e : Entity) (a : MetaAns)
  /-- tests were taken from the queue for an entity -/
  | pulled (rid : RunId) (e : Entity) (items : List (WorkerTest T))
  /-- `next_work` returned this bundle -/
  | work (rid : RunId) (e : Entity) (items : List (WorkerTest T)) (eow : Bool)
  /-- the bundle was written to the worker's connection -/
  | delivered (rid : RunId) (e : Entity) (items : List (WorkerTest T)) (eow : Bool)
  /-- writing the bundle failed -/
  | lost (rid : RunId) (e : Entity) (items : List (WorkerTest T)) (eow : Bool)
  | retry (rid : RunId) (e : Entity) (a : RetryAns T)
  | complete (rid : RunId) (e : Entity)
  | cancel (rid : RunId) (e : Entity) (refused : Bool)
  | progress (rid : RunId) (last : Nat) (a : Progress)
  | write (rid : RunId) (a : WriteAns)
  | read (rid : RunId) (a : ReadAns)
  | status (rid : RunId) (a : StatusAns)
  /-- the run is not in the registry: an error answer, or, where `panics`, the panic
  "no run recorded" -/
  | noRun (rid : RunId) (panics : Bool)
  /-- an out-of-range slice index in `get_work` -/
  | panicked (rid : RunId)
  /-- writing the manifest or the run state to storage failed, which is only logged
  (`queue.rs:2764-2789`) -/
  | storeFailed (rid : RunId)
deriving Repr

/-- The run a continuation is about (the `run_id` each of the functions in `queue.rs:337-1443` is called with). -/
def Pending.rid {T : Type} : Pending T → RunId
  | .joinRemote p => p.rid
  | .joinRead p => p.rid
  | .pulled rid _ _ => rid
  | .markEnd rid _ _ => rid
  | .respond rid _ _ _ _ => rid
  | .sub rid => rid
  | .dumpManifest rid _ => rid
  | .setPersisted rid => rid
  | .dumpState rid _ => rid
  | .timer rid _ => rid
  | .timeoutWrite rid _ => rid

/-- The run an event is about (the `run_id` each of the functions in `queue.rs:337-1443` is called with). -/
def Event.rid {T : Type} : Event T → RunId
  | .joined p _ => p.rid
  | .loaded rid _ => rid
  | .manifest rid _ _ => rid
  | .manifestFailed rid => rid
  | .emptyManifest rid _ => rid
  | .initMeta rid _ _ => rid
  | .pulled rid _ _ => rid
  | .work rid _ _ _ => rid
  | .delivered rid _ _ _ => rid
  | .lost rid _ _ _ => rid
  | .retry rid _ _ => rid
  | .complete rid _ => rid
  | .cancel rid _ _ => rid
  | .progress rid _ _ => rid
  | .write rid _ => rid
  | .read rid _ => rid
  | .status rid _ => rid
  | .noRun rid _ => rid
  | .panicked rid => rid
  | .storeFailed rid => rid

/-- What one atomic step does: the state of its run afterwards (`none`: not in the registry),
the observable events, the continuations it leaves, the updates of `num_active` and of the
persistent stores (one critical section of the methods of `AllRuns`, `queue.rs:337-1443`). -/
structure Eff (T : Type) where
  state : Option (RunState T)
  evs : List (Event T) := []
  next : List (Pending T) := []
  added : Bool := false
  subbed : Bool := false
  stored : Option (ManifestView (WorkerTest T)) := none
  remoted : Option RunDoc := none

/-- Whether a request on an unknown run panics (`expect("no run recorded")`) or is answered with
an error: `queue.rs:689,762,798,1210,1236,1279` against `909,946,1000,1066,1310`. -/
def Req.panicsUnknown {T : Type} : Req T → Bool
  | .addManifest .. => true
  | .manifestFailed => true
  | .emptyManifest => true
  | .initMetadata _ => true
  | .nextWork _ => true
  | .cancel .. => true
  | _ => false

/-- Whether a request takes the write lock of the run (`run.write()`,
`queue.rs:689,1210,1236,1279`). -/
def Req.writes {T : Type} : Req T → Bool
  | .addManifest .. => true
  | .manifestFailed => true
  | .emptyManifest => true
  | .cancel .. => true
  | _ => false

/-- Whether a continuation needs the write lock of its run (`queue.rs:1118,1353`). -/
def Pending.writes {T : Type} : Pending T → Bool
  | .markEnd .. => true
  | .timeoutWrite .. => true
  | _ => false

/-- Whether a continuation is a request holding the read lock of its run across steps (`run.read()` in `next_work`,
`queue.rs:798-854`, up to `get_next_work_online`, `queue.rs:856-901`). -/
def Pending.reads {T : Type} : Pending T → Bool
  | .pulled .. => true
  | _ => false

namespace Runs
variable {T : Type}

/-- The pending decrement of `num_active` of a transition that executes one (`num_active.fetch_sub`,
`queue.rs:1197, 1216, 1269, 1304`). -/
def subIf (rid : RunId) (b : Bool) : List (Pending T) := if b then [.sub rid] else []

/-- A request on an existing run in state `s` (each method of `AllRuns` named at its case, `queue.rs:681-1404`). -/
def exec (rid : RunId) (s : RunState T) : Req T → Eff T
  | .addManifest flat md =>
    { state := some (s.addManifest flat md).1
      evs := [.manifest rid flat (s.addManifest flat md).2] }
  | .manifestFailed =>
    { state := some s.manifestFailed.1
      evs := [.manifestFailed rid]
      next := subIf rid s.manifestFailed.2 }
  | .emptyManifest =>
    { state := some s.emptyManifest.1
      evs := [.emptyManifest rid s.emptyManifest.2]
      next := subIf rid s.emptyManifest.2 }
  | .initMetadata e =>
    { state := some (s.initMetadata e).1, evs := [.initMeta rid e (s.initMetadata e).2] }
  | .nextWork e =>
    match (s.pull e).2 with
    | .online items =>
      { state := some (s.pull e).1, evs := [.pulled rid e items], next := [.pulled rid e items] }
    | .finished =>
      { state := some (s.pull e).1
        evs := [.work rid e [] true]
        next := [.respond rid e [] true none] }
    | .panic => { state := some (s.pull e).1, evs := [.panicked rid] }
  | .retryManifest e =>
    { state := some (s.retryManifest e).1, evs := [.retry rid e (s.retryManifest e).2] }
  | .complete e time => { state := some (s.complete e time), evs := [.complete rid e] }
  | .cancel e reason =>
    { state := some (s.cancel e reason).1
      evs := [.cancel rid e (!(s.cancel e reason).2)]
      next := subIf rid (s.cancel e reason).2 }
  | .writeCell => { state := some s, evs := [.write rid s.writeCell] }
  | .readCell => { state := some s, evs := [.read rid s.readCell] }
  | .status => { state := some s, evs := [.status rid s.status] }

/-- A request on a run that may not exist (the lookup at the beginning of each method, e.g. `queue.rs:689, 909`). -/
def reqEff (rid : RunId) (s : Option (RunState T)) (r : Req T) : Eff T :=
  match s with
  | none => { state := none, evs := [.noRun rid r.panicsUnknown] }
  | some s => exec rid s r

/-- `queue.rs:341-347`: the first look at the registry in `find_or_create_run`. -/
def joinEff (s : Option (RunState T)) (p : JoinParams) : Eff T :=
  match s with
  | none => { state := none, next := [.joinRemote p] }
  | some s => { state := some s, next := [.joinRead p] }

/-- `queue.rs:573-621` `try_create_globally_fresh_run`, and on success the timer of
`queue.rs:1759-1769`. -/
def createFresh (s : Option (RunState T)) (p : JoinParams) : Eff T :=
  match s with
  | none =>
    { state := some (RunState.fresh p)
      evs := [.joined p (.fresh true false)]
      next := [.timer p.rid 0]
      added := true }
  | some s => { state := some s, next := [.joinRead p] }

/-- `queue.rs:623-678` `try_load_remote_run`. -/
def loadRemote (s : Option (RunState T)) (p : JoinParams) (d : RunDoc) : Eff T :=
  match s with
  | none =>
    { state := some (RunState.loaded d), evs := [.loaded p.rid d], next := [.joinRead p] }
  | some s => { state := some s, next := [.joinRead p] }

/-- The tasks started once the last bundle was written to the worker (`queue.rs:2713-2729`). -/
def planTasks (rid : RunId) : Option (Plan T) → List (Pending T)
  | some pl => [.dumpManifest rid pl.view, .dumpState rid pl.doc]
  | none => []

/-- The timer re-armed after progress (`queue.rs:2441-2450`). -/
def rearm (rid : RunId) : Progress → List (Pending T)
  | .newProgress i => [.timer rid i]
  | _ => []

/-- `queue.rs:1333-1349`: the first half of `handle_manifest_progress_timeout`, under the read
lock, on a timer that fired. -/
def timerEff (rid : RunId) (s : RunState T) (last : Nat) : Eff T :=
  if (s.progress last).2 then { state := some s, next := [.timeoutWrite rid last] }
  else
    { state := some s
      evs := [.progress rid last (s.progress last).1]
      next := rearm rid (s.progress last).1 }

/-- Resuming a continuation on its run (the continuations of `queue.rs:513-571, 795-901, 1111-1203, 1333-1367, 2713-2788`).
-/
def contEff (s : Option (RunState T)) (ans : RemoteAns) (ok : Bool) : Pending T → Eff T
  | .joinRemote p =>
    match ans with
    | .found d => loadRemote s p d
    | .notFound => createFresh s p
    | .incompatible => createFresh s p
    | .error => { state := s, evs := [.joined p .fatal] }
  | .joinRead p =>
    match s with
    | none => { state := none, evs := [.joined p .runUnknown] }
    | some s =>
      { state := some (s.join p.entity p.hash).1
        evs := [.joined p (s.join p.entity p.hash).2] }
  | .pulled rid e items =>
    match s.bind RunState.atEnd with
    | some true => { state := s, next := [.markEnd rid e items] }
    | some false =>
      { state := s
        evs := [.work rid e items false]
        next := [.respond rid e items false none] }
    | none => { state := s, evs := [.panicked rid] }
  | .markEnd rid e items =>
    match s with
    | none => { state := none, evs := [.noRun rid true] }
    | some s =>
      { state := some s.markEnd.1
        evs := [.work rid e items true]
        next := .respond rid e items true s.markEnd.2 :: subIf rid s.markEnd.2.isSome }
  | .respond rid e items eow plan =>
    if ok then { state := s, evs := [.delivered rid e items eow], next := planTasks rid plan }
    else { state := s, evs := [.lost rid e items eow] }
  | .sub _ => { state := s, subbed := true }
  | .dumpManifest rid view =>
    if ok then { state := s, next := [.setPersisted rid], stored := some view }
    else { state := s, evs := [.storeFailed rid] }
  | .setPersisted _ => { state := s.map RunState.setPersisted }
  | .dumpState rid doc =>
    if ok then { state := s, remoted := some doc } else { state := s, evs := [.storeFailed rid] }
  | .timer rid last =>
    match s with
    | none => { state := none, evs := [.noRun rid false] }
    | some s => timerEff rid s last
  | .timeoutWrite rid last =>
    match s with
    | none => { state := none, evs := [.noRun rid false] }
    | some s =>
      { state := some (s.timeoutWrite last).1
        evs := [.progress rid last (s.timeoutWrite last).2.1]
        next := rearm rid (s.timeoutWrite last).2.1 ++ subIf rid (s.timeoutWrite last).2.2 }

end Runs

/-- `queue.rs:157-192` `AllRuns`, with the tasks in flight, the stores and the history. -/
structure Runs (T : Type) where
  runs : List (RunId × RunState T)
  /-- `num_active: AtomicU64` -/
  numActive : Nat
  pending : List (Pending T)
  /-- manifests in persistent storage -/
  store : List (RunId × ManifestView (WorkerTest T))
  /-- run states in the remote store -/
  remote : List (RunId × RunDoc)
  events : List (Event T)

/-- A scheduler choice: a new request, or resuming the `i`-th pending continuation, with the
answer of the remote store and the success of an i/o operation where these matter (the tasks of `tokio`, one for each
connection, `queue.rs:1821-1892, 2539-2584`). -/
inductive RunsAct (T : Type) where
  | join (p : JoinParams)
  | request (rid : RunId) (r : Req T)
  | resume (i : Nat) (ans : RemoteAns) (ok : Bool)
deriving Repr

namespace Runs
variable {T : Type}

/-- A queue that has just started (`queue.rs:156-192` `AllRuns::default`). -/
def init : Runs T :=
  { runs := [], numActive := 0, pending := [], store := [], remote := [], events := [] }

/-- `runs.get(run_id)` (`queue.rs:341-347`). -/
def get (σ : Runs T) (rid : RunId) : Option (RunState T) := List.lookup rid σ.runs

/-- Inserting a run that is not in the map, or writing through the lock of one that is. There
is no removal (`queue.rs:573-621, 623-678`). -/
def put (runs : List (RunId × RunState T)) (rid : RunId) : Option (RunState T) →
    List (RunId × RunState T)
  | none => runs
  | some s =>
    match List.lookup rid runs with
    | none => runs ++ [(rid, s)]
    | some _ => runs.map (fun p => if p.1 == rid then (rid, s) else p)

/-- `fetch_add(1)` and `fetch_sub(1)` on the `AtomicU64`, which wrap around (`queue.rs:605, 1197, 1216, 1269, 1304`). -/
def count (n : Nat) (added subbed : Bool) : Nat :=
  (n + (if added then 1 else 0) + (if subbed then 2 ^ 64 - 1 else 0)) % 2 ^ 64

/-- Executes an effect on run `rid` (one critical section of `queue.rs:337-1443`). -/
def apply (σ : Runs T) (rid : RunId) (x : Eff T) : Runs T :=
  { runs := put σ.runs rid x.state
    numActive := count σ.numActive x.added x.subbed
    pending := σ.pending ++ x.next
    store := x.stored.toList.map (fun v => (rid, v)) ++ σ.store
    remote := x.remoted.toList.map (fun d => (rid, d)) ++ σ.remote
    events := σ.events ++ x.evs }

/-- Some request holds the read lock of the run across steps (`queue.rs:798-854`). -/
def readLocked (σ : Runs T) (rid : RunId) : Bool :=
  σ.pending.any (fun p => p.rid == rid && p.reads)

/-- One atomic step. Disabled choices leave the state unchanged (one critical section of `queue.rs:337-1443`). -/
def step (σ : Runs T) : RunsAct T → Runs T
  | .join p => σ.apply p.rid (joinEff (σ.get p.rid) p)
  | .request rid r =>
    if r.writes && σ.readLocked rid then σ else σ.apply rid (reqEff rid (σ.get rid) r)
  | .resume i ans ok =>
    match σ.pending[i]? with
    | none => σ
    | some p =>
      if p.writes && σ.readLocked p.rid then σ
      else { σ with pending := σ.pending.eraseIdx i }.apply p.rid (contEff (σ.get p.rid) ans ok p)

/-- A schedule (of steps of `queue.rs:337-1443`). -/
def run (σ : Runs T) (acts : List (RunsAct T)) : Runs T := acts.foldl step σ

/-- `queue.rs:1434-1436` `estimate_num_active_runs`. -/
def estimateNumActiveRuns (σ : Runs T) : Nat := σ.numActive

/-- `queue.rs:1512-1516` `is_drained`. -/
def isDrained (σ : Runs T) : Bool := σ.estimateNumActiveRuns == 0

end Runs
end Abq
