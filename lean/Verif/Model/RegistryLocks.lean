import Verif.Model.AllRuns

/-!
# The locks of the registry of runs

`crates/abq_queue/src/queue.rs`, `AllRuns`: which locks each function takes and gives back, in which order, and where it waits for the
storage. `Model/AllRuns.lean` has what the functions do while they hold them. The locks are those of `parking_lot`.

What a function finds in the registry, on which its course depends, is a parameter: any course is taken to be possible at any time.
-/

namespace Abq.RegistryLocks

/-- The locks (`queue.rs:68` `worker_connection_times`, `:95` `active_workers`, `:117` `seen_workers`, `:171-178` `runs`). -/
inductive Lock where
  | runs
  | run (rid : RunId)
  | conns (rid : RunId)
  | active (rid : RunId)
  | seen (rid : RunId)
deriving DecidableEq, Repr

/-- `RwLock::read` and `RwLock::write`; a `Mutex` is only taken for writing (`queue.rs:41`). -/
inductive Mode where
  | read
  | write
deriving DecidableEq, Repr

/-- What a thread does about locks, and `try_load_run_state(..).await` (`queue.rs:525`). -/
inductive Op where
  | acquire (l : Lock) (m : Mode)
  | release (l : Lock)
  | storage
deriving DecidableEq, Repr

/-- The states of a run (`queue.rs:63-134` `RunState`). -/
inductive Kind where
  | waiting
  | hasWork
  | done
  | cancelled
deriving DecidableEq, Repr

/-- What the storage answers (`queue.rs:524-554`). -/
inductive Loaded where
  | found
  | notFound
  | failed
deriving DecidableEq, Repr

/-- What a call finds: its `n`th look at the map of runs, and what the storage answers it; whether the worker is one of the run
(`queue.rs:774`), whether the manifest is at its end (`queue.rs:810`), whether it is persisted (`queue.rs:1040`), and whether there is
no progress (`queue.rs:1345`). -/
structure Eyes where
  look : Nat → Option Kind
  loaded : Loaded
  known : Bool
  atEnd : Bool
  persisted : Bool
  idle : Bool

/-- The functions of `AllRuns` (`queue.rs:337-1443`). -/
inductive Call where
  | findOrCreate (rid : RunId)
  | addManifest (rid : RunId)
  | initMetadata (rid : RunId)
  | nextWork (rid : RunId)
  | writeCell (rid : RunId)
  | readCell (rid : RunId)
  | retryManifest (rid : RunId)
  | workerComplete (rid : RunId)
  | manifestFailed (rid : RunId)
  | manifestEmpty (rid : RunId)
  | cancel (rid : RunId)
  | status (rid : RunId)
  | progressTimeout (rid : RunId)
  | numActive
deriving DecidableEq, Repr

open Op Lock Mode

/-- A guard that is dropped at the end of its scope (`queue.rs:337-1443`). -/
def guarded (l : Lock) (m : Mode) (body : List Op) : List Op := acquire l m :: body ++ [release l]

/-- `let runs = self.runs.read(); let run = runs.get(run_id)` and then `.read()` or `.write()`: nothing more if the run is not there,
whether that is answered or panics, and guards are dropped in the opposite order (e.g. `queue.rs:796-798`). -/
def withRun (rid : RunId) (m : Mode) (found : Option Kind) (body : Kind → List Op) : List Op :=
  guarded runs read (match found with
    | none => []
    | some k => guarded (run rid) m (body k))

/-- `queue.rs:358-504`: the second part of `find_or_create_run`. -/
def joinRun (rid : RunId) (found : Option Kind) : List Op :=
  withRun rid read found fun
    | .waiting => guarded (conns rid) write []
    | .hasWork => guarded (active rid) write []
    | .done => guarded (seen rid) read []
    | .cancelled => []

/-- `queue.rs:340-504` `find_or_create_run`, with `try_create_run` (`:513-570`), `try_create_globally_fresh_run` (`:573-621`) and
`try_load_remote_run` (`:623-678`). -/
def findOrCreate (rid : RunId) (e : Eyes) : List Op :=
  guarded runs read [] ++
  match e.look 0 with
  | some _ => joinRun rid (e.look 1)
  | none =>
    storage ::
    match e.loaded with
    | .failed => []
    | .found => guarded runs write [] ++ joinRun rid (e.look 1)
    | .notFound =>
      guarded runs write [] ++
      match e.look 1 with
      | none => []
      | some _ => joinRun rid (e.look 2)

/-- `queue.rs:1111-1202` `try_mark_reached_end_of_manifest`. -/
def markEnd (rid : RunId) (found : Option Kind) : List Op := withRun rid write found fun _ => []

/-- `queue.rs:795-854` `next_work`: both guards are dropped before the end of the manifest is recorded. -/
def nextWork (rid : RunId) (e : Eyes) : List Op :=
  withRun rid read (e.look 0) (fun
    | .waiting => []
    | .hasWork => guarded (active rid) write []
    | .done => guarded (seen rid) write []
    | .cancelled => []) ++
  match e.look 0 with
  | some .hasWork => if e.atEnd then markEnd rid (e.look 1) else []
  | _ => []

/-- `queue.rs:759-793` `init_metadata`: the guard of the condition is dropped before the branch is entered. -/
def initMetadata (rid : RunId) (e : Eyes) : List Op :=
  withRun rid read (e.look 0) fun
    | .done => guarded (seen rid) read [] ++ if e.known then guarded (seen rid) write [] else []
    | _ => []

/-- `queue.rs:1333-1366` `handle_manifest_progress_timeout`: the lock of the run is given back before it is taken for writing. -/
def progressTimeout (rid : RunId) (e : Eyes) : List Op :=
  guarded runs read (match e.look 0 with
    | none => []
    | some _ => guarded (run rid) read [] ++ if e.idle then guarded (run rid) write [] else [])

/-- The locks a call takes and gives back, in order (`queue.rs:337-1443`). -/
def script : Call → Eyes → List Op
  | .findOrCreate rid, e => findOrCreate rid e
  -- `queue.rs:681-757`
  | .addManifest rid, e => withRun rid write (e.look 0) fun _ => []
  | .initMetadata rid, e => initMetadata rid e
  | .nextWork rid, e => nextWork rid e
  -- `queue.rs:903-938`
  | .writeCell rid, e => withRun rid read (e.look 0) fun _ => []
  -- `queue.rs:940-994`
  | .readCell rid, e => withRun rid read (e.look 0) fun
    | .hasWork => guarded (active rid) write []
    | .done => guarded (seen rid) read []
    | _ => []
  -- `queue.rs:996-1061`
  | .retryManifest rid, e => withRun rid read (e.look 0) fun
    | .hasWork => guarded (active rid) write []
    | .done => if e.persisted then guarded (seen rid) write [] else []
    | _ => []
  -- `queue.rs:1063-1109`
  | .workerComplete rid, e => withRun rid read (e.look 0) fun
    | .hasWork => guarded (active rid) write []
    | .done => guarded (seen rid) write []
    | _ => []
  -- `queue.rs:1205-1229`
  | .manifestFailed rid, e => withRun rid write (e.look 0) fun _ => []
  -- `queue.rs:1231-1274`
  | .manifestEmpty rid, e => withRun rid write (e.look 0) fun _ => []
  -- `queue.rs:1276-1298`
  | .cancel rid, e => withRun rid write (e.look 0) fun
    | .done => guarded (seen rid) write []
    | _ => []
  -- `queue.rs:1307-1327`
  | .status rid, e => withRun rid read (e.look 0) fun
    | .done => guarded (seen rid) read []
    | _ => []
  | .progressTimeout rid, e => progressTimeout rid e
  -- `queue.rs:1434-1436`
  | .numActive, _ => []

/-! ## Threads -/

/-- A thread in a call: the locks it has, what it has yet to do, and whether it is in line for a lock it wants to write
(`queue.rs:41`). -/
structure Thread where
  held : List (Lock × Mode) := []
  todo : List Op
  queued : Bool := false
deriving DecidableEq, Repr

/-- Some thread has the lock (`parking_lot`, `queue.rs:41`). -/
def heldBy (ts : List Thread) (l : Lock) (p : Mode → Bool) : Bool := ts.any fun t => t.held.any fun h => h.1 == l && p h.2

/-- A thread is in line to write (`parking_lot`, `queue.rs:41`). -/
def writerQueued (ts : List Thread) (l : Lock) : Bool := ts.any fun t => t.queued && t.todo.head? == some (acquire l write)

/-- Whether the lock can be taken: for reading if nobody writes, and nobody is in line to write, unless the thread barges in; for
writing if nobody has it (`parking_lot`, `queue.rs:41`: "readers trying to acquire the lock will block even if the lock is unlocked when
there are writers waiting"; the lock may be handed to readers who were in line before). -/
def free (ts : List Thread) (barge : Bool) (l : Lock) : Mode → Bool
  | .read => !heldBy ts l (· == .write) && (barge || !writerQueued ts l)
  | .write => !heldBy ts l fun _ => true

/-- What a thread does next, if it can; `answered`: the storage answers it (`queue.rs:337-1443`). -/
def Thread.next (ts : List Thread) (barge answered : Bool) (t : Thread) : Thread :=
  match t.todo with
  | [] => t
  | .acquire l m :: rest =>
    if free ts barge l m then { held := (l, m) :: t.held, todo := rest }
    else if m = .write then { t with queued := true }
    else t
  | .release l :: rest => { held := t.held.filter fun h => h.1 ≠ l, todo := rest }
  | .storage :: rest => if answered then { t with todo := rest } else t

/-- One turn of a thread (`queue.rs:337-1443`). -/
def turn (answered : Nat → Bool) (ts : List Thread) (c : Nat × Bool) : List Thread :=
  match ts[c.1]? with
  | none => ts
  | some t => ts.set c.1 (t.next ts c.2 (answered c.1))

/-- The turns of a schedule (`queue.rs:337-1443`). -/
def run (answered : Nat → Bool) (ts : List Thread) (sched : List (Nat × Bool)) : List Thread := sched.foldl (turn answered) ts

/-- Threads at the start of these calls (`queue.rs:337-1443`). -/
def start (calls : List (Call × Eyes)) : List Thread := calls.map fun c => { todo := script c.1 c.2 }

end Abq.RegistryLocks
