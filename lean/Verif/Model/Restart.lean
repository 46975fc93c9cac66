import Verif.Model.AllRuns

/-!
# A queue that is restarted, and its remote store

The registry of runs lives in the memory of the queue. What a later queue knows of a run is the state
written to the remote store when its last tests were handed out. The strategies of the remote store are
those of `abq_queue/src/persistence/remote/{noop,s3,custom}.rs`.
-/

namespace Abq.Restart

/-- `abq_cli/src/instance/remote_persistence.rs:77-113` `resolve`: what stores the states of runs. -/
inductive Strategy where
  /-- no strategy is configured: `NoopPersister` -/
  | noop
  | s3
  /-- `CustomPersister`: a command of the user -/
  | custom
deriving DecidableEq, Repr

/-- What the remote store holds for a run: a state `deserialize` reads (`Verif.Model.RunStateDoc`), a
document of an incompatible schema version, or something else (`remote.rs:63-67`). -/
inductive Object where
  | state (d : RunDoc)
  | otherVersion
  | damaged
deriving DecidableEq, Repr

/-- What a document that was fetched is read as: `s3.rs:178-188`, `custom.rs:169-175`. -/
def readObject : Object → RemoteAns
  | .state d => .found d
  | .otherVersion => .incompatible
  | .damaged => .error

/-- `try_load_run_state`; `fault` says that fetching the document fails for another reason than that it
does not exist.
`noop.rs:51-53`: nothing is ever found.
`s3.rs:164-176`: a missing key is told from other failures.
`custom.rs:146-163`: the command exits with a non-zero code when the document does not exist, and when it
fails; either is taken for a missing document. That no temporary file can be made for it (`custom.rs:147-150`), which is an error,
is not modelled. -/
def load (st : Strategy) (o : Option Object) (fault : Bool) : RemoteAns :=
  match st with
  | .noop => .notFound
  | .s3 =>
    if fault then .error
    else
      match o with
      | none => .notFound
      | some o => readObject o
  | .custom =>
    if fault then .notFound
    else
      match o with
      | none => .notFound
      | some o => readObject o

/-- `store_run_state` returns without an error: `noop.rs:43-49` always, `s3.rs:145-159` and
`custom.rs:119-144` unless storing fails. -/
def storeOk (st : Strategy) (fault : Bool) : Bool :=
  match st with
  | .noop => true
  | .s3 => !fault
  | .custom => !fault

/-- What the store holds after `store_run_state`: an object is replaced; nothing is kept by the
`NoopPersister`. Simplification: storing is atomic (`s3.rs:145-156`, `custom.rs:119-144`). -/
def store (st : Strategy) (fault : Bool) (objects : List (RunId × Object)) (rid : RunId) (d : RunDoc) :
    List (RunId × Object) :=
  match st with
  | .noop => objects
  | .s3 => if fault then objects else (rid, .state d) :: objects
  | .custom => if fault then objects else (rid, .state d) :: objects

/-- What is observed of a queue and its store (`remote.rs:89-96`). -/
inductive Obs (T : Type) where
  | queue (e : Event T)
  /-- the state of a run was stored -/
  | stored (rid : RunId) (d : RunDoc)
  /-- the state of a run could not be fetched although the store may have it -/
  | unreachable (rid : RunId)
  | restarted

/-- The queue, and the store that outlives it (`remote.rs:70-99`). -/
structure World (T : Type) where
  queue : Runs T
  objects : List (RunId × Object)
  log : List (Obs T)

/-- What can happen: the steps of the registry, with a fault of the store and the success of writing to a
connection or a file, or the end of the queue's process and the start of a new one (`queue.rs`, see `Model/AllRuns.lean`;
`remote.rs:89-96`). -/
inductive Act (T : Type) where
  | join (p : JoinParams)
  | request (rid : RunId) (r : Req T)
  | resume (i : Nat) (fault ok : Bool)
  | restart

namespace World
variable {T : Type}

/-- A queue that starts on a store that holds these objects (`queue.rs:156-192`). -/
def init (objects : List (RunId × Object)) : World T :=
  { queue := Runs.init, objects := objects, log := [] }

/-- `i/o` of a continuation succeeds (`remote.rs:140-150`). -/
def ioOk (st : Strategy) (fault ok : Bool) : Pending T → Bool
  | .dumpState .. => storeOk st fault
  | _ => ok

/-- What resuming a continuation does to the store (`persistence/run_state.rs:128-130`). A state may be stored although an error is
returned, as when the answer is lost; in this case `ok` says so. -/
def storeBy (st : Strategy) (fault ok : Bool) (objects : List (RunId × Object)) : Pending T →
    List (RunId × Object)
  | .dumpState rid d => store st (fault && !ok) objects rid d
  | _ => objects

/-- What is observed of the store when a continuation is resumed (`remote.rs:140-150`). -/
def storeObs (st : Strategy) (fault ok : Bool) : Pending T → List (Obs T)
  | .dumpState rid d => if st ≠ .noop ∧ (fault && !ok) = false then [.stored rid d] else []
  | .joinRemote p => if fault then [.unreachable p.rid] else []
  | _ => []

/-- The events a step of the queue adds (see `Model/AllRuns.lean`). -/
def news (before after : Runs T) : List (Obs T) :=
  (after.events.drop before.events.length).map .queue

/-- Resuming a continuation, with the answer of the store (`remote.rs:140-150`). -/
def resume (st : Strategy) (w : World T) (i : Nat) (fault ok : Bool) (p : Pending T) : World T :=
  let queue := w.queue.step
    (.resume i (load st (List.lookup p.rid w.objects) fault) (ioOk st fault ok p))
  { queue := queue
    objects := storeBy st fault ok w.objects p
    log := w.log ++ storeObs st fault ok p ++ news w.queue queue }

/-- One step. A restart forgets the registry and everything that was going on: `Abq::start` begins with
an empty `AllRuns` (`queue.rs:1633`). -/
def step (st : Strategy) (w : World T) : Act T → World T
  | .join p =>
    { w with
      queue := w.queue.step (.join p)
      log := w.log ++ news w.queue (w.queue.step (.join p)) }
  | .request rid r =>
    { w with
      queue := w.queue.step (.request rid r)
      log := w.log ++ news w.queue (w.queue.step (.request rid r)) }
  | .resume i fault ok =>
    match w.queue.pending[i]? with
    | none => w
    | some p => resume st w i fault ok p
  | .restart => { w with queue := Runs.init, log := w.log ++ [.restarted] }

/-- A schedule (`queue.rs`, see `Model/AllRuns.lean`; `remote.rs:89-96`). -/
def run (st : Strategy) (w : World T) (acts : List (Act T)) : World T := acts.foldl (step st) w

end World
end Abq.Restart
