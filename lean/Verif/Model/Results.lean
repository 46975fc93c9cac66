/-!
# Persistence of test results

`abq_queue/src/persistence/results.rs` (the cell of a run and its persistence plans),
`persistence/results/fs.rs` (the results file of a run, its cached descriptor, offloading) and the
two request handlers using them, `queue.rs:2264-2364`.

The machine is that of one run: the cache of descriptors is a map from run ids and different runs use
different files (property C21). A life of the machine starts with whatever file and whatever remote
copy an earlier queue left behind, so a restart of the queue is a new life. An operation on the file is one step, because
the locks let one call at a time use it: that is property C125, on `Model/FileLocks.lean`.
-/

namespace Abq.Results

/-- The contents of files (`results/fs.rs:324-415`). -/
abbrev Bytes := List UInt8

/-- `results/fs.rs:29-32` `FdState`. -/
inductive Fd where
  | opened
  | offloaded
deriving DecidableEq, Repr

/-- What a persistence plan or a request does with the results file (`results/fs.rs:324-408`). -/
inductive Op where
  /-- `dump`: appends a line, serialized without its newline -/
  | dump (id : Nat) (line : Bytes)
  /-- `dump_to_remote` -/
  | toRemote
  /-- `with_results_stream` -/
  | read (r : Nat)
deriving DecidableEq, Repr

/-- Where in `with_file` (`results/fs.rs:159-211`) an operation is. -/
inductive Stage where
  /-- before the first `with_file_fast_path` -/
  | fast
  /-- the descriptor was missing, about to take the write lock of the cache -/
  | slow
  /-- before the second `with_file_fast_path` -/
  | second
deriving DecidableEq, Repr

/-- Outcome of `load_to_disk` when the remote holds the file (`remote/s3.rs:127-147`): the download
may not begin, or break off after some bytes were written over the local file. -/
inductive LoadOut where
  | ok
  | refused
  | cut (k : Nat)
deriving DecidableEq, Repr

/-- Outcome of the operation on the file: success, or failure after `k` bytes of a write (`results/fs.rs:331-337, 411-415`).
-/
inductive IoOut where
  | ok
  | cut (k : Nat)
deriving DecidableEq, Repr

/-- The answers of the environment to one step (`results/fs.rs:110-211`). -/
structure Out where
  load : LoadOut := .ok
  openOk : Bool := true
  io : IoOut := .ok
deriving DecidableEq, Repr

/-- Outcome of the i/o of an offload job, in order of `results/fs.rs:298-314`: before or while the
file is stored, truncating it, or syncing the truncation. If the file is stored and the answer lost, that is as if truncating it
failed. -/
inductive OffloadOut where
  | ok
  | storeFails
  | truncateFails
  | syncFails
deriving DecidableEq, Repr

/-- A task in progress (`queue.rs:2264-2364`, `results/fs.rs:159-319`). -/
inductive Task where
  /-- `queue.rs:2289-2303`: the plan is built, the acknowledgement is to be written -/
  | ack (id : Nat) (line : Bytes) (eligible : Bool)
  /-- a file operation; `eligible` matters for `dump` only -/
  | op (o : Op) (eligible : Bool) (st : Stage)
  /-- `results.rs:193-194`: `dump` returned, `fetch_sub` is to be executed -/
  | finish (id : Nat) (eligible : Bool)
deriving DecidableEq, Repr

/-- What can be observed (`queue.rs:2264-2364`). -/
inductive Ev where
  /-- a plan was built for a line -/
  | planned (id : Nat) (line : Bytes)
  | acked (id : Nat)
  /-- `dump` returned; `chunk` is what reached the file -/
  | wrote (id : Nat) (chunk : Bytes) (ok : Bool)
  /-- the plan was accounted as done -/
  | finished (id : Nat) (eligible : Bool)
  /-- a results request found no pending plan and goes on to read -/
  | asked (r : Nat)
  /-- a results request was answered `Pending` -/
  | pending
  /-- a results request was answered with this stream -/
  | stream (r : Nat) (bytes : Bytes)
  | readFailed (r : Nat)
  /-- `dump_to_remote` returned -/
  | stored (ok : Bool)
  /-- the file was opened for the first time in this life -/
  | opened (base : Bytes)
  | offload (done : Bool)
deriving DecidableEq, Repr

/-- The results of one run. `noop` says that the remote is the `NoopPersister`
(`remote/noop.rs`), which accepts files without keeping them. Simplification: `processing` is an
`AtomicU64`, taken as unbounded. -/
structure Res where
  noop : Bool
  fd : Option Fd
  disk : Bytes
  remote : Option Bytes
  processing : Nat
  nextId : Nat
  nextRead : Nat
  tasks : List Task
  events : List Ev
deriving DecidableEq, Repr

/-- A queue starting with a local file `disk` (empty: none) and a remote copy, which there is none of
under the `NoopPersister` (`results/fs.rs:59-65`). -/
def init (noop : Bool) (disk : Bytes) (remote : Option Bytes) : Res :=
  { noop, fd := none, disk, remote := if noop then none else remote, processing := 0, nextId := 0, nextRead := 0, tasks := []
    events := [] }

/-- `RemotePersister::load_to_disk` (`remote/s3.rs:127-147`, `remote/noop.rs:31-38`): whether it
succeeded, and the local file afterwards. -/
def load (remote : Option Bytes) (disk : Bytes) (o : LoadOut) : Bool × Bytes :=
  match remote, o with
  | some r, .ok => (true, r)
  | some r, .cut k => (false, r.take k)
  | some _, .refused => (false, disk)
  | none, _ => (false, disk)

/-- `RemotePersister::store_from_disk` (`remote/s3.rs:110-125`, `remote/noop.rs:22-29`), on
success. -/
def store (noop : Bool) (remote : Option Bytes) (disk : Bytes) : Option Bytes :=
  if noop then remote else some disk

/-- The bytes `write_packed_line` (`results/fs.rs:415-419`) puts at the end of the file. -/
def packed (line : Bytes) : Bytes := line ++ [10]

/-- `WithFile::run` of the three operations (`results/fs.rs:331-337,351-362,388-401`): the file, the
remote copy and the observation afterwards. The file is opened for appending. An upload that fails may have had its effect, as when its
answer is lost; here it has none if it is cut at once. -/
def runOp (noop : Bool) (disk : Bytes) (remote : Option Bytes) (io : IoOut) :
    Op → Bytes × Option Bytes × Ev
  | .dump id line =>
    match io with
    | .ok => (disk ++ packed line, remote, .wrote id (packed line) true)
    | .cut k => (disk ++ (packed line).take k, remote, .wrote id ((packed line).take k) false)
  | .toRemote =>
    match io with
    | .ok => (disk, store noop remote disk, .stored true)
    | .cut k => (disk, if k = 0 then remote else store noop remote disk, .stored false)
  | .read r =>
    match io with
    | .ok => (disk, remote, .stream r disk)
    | .cut _ => (disk, remote, .readFailed r)

/-- The observation when `with_file` returns an error before running the operation (`results/fs.rs:159-211`). -/
def failed : Op → Ev
  | .dump id _ => .wrote id [] false
  | .toRemote => .stored false
  | .read r => .readFailed r

/-- What is left to do once `with_file` returned (`results.rs:188-205`): after `dump`, whether it
succeeded or not, the plan is accounted as done. -/
def after (o : Op) (eligible : Bool) : List Task :=
  match o with
  | .dump id _ => [.finish id eligible]
  | _ => []

/-- `results/fs.rs:121-157` `with_file_fast_path`; `none` is `ControlFlow::Continue`. -/
def fastPath (σ : Res) (o : Op) (out : Out) : Option (Res × Ev) :=
  match σ.fd with
  | none => none
  | some .opened =>
    let x := runOp σ.noop σ.disk σ.remote out.io o
    some ({ σ with disk := x.1, remote := x.2.1 }, x.2.2)
  | some .offloaded =>
    let l := load σ.remote σ.disk out.load
    if l.1 && out.openOk then
      let x := runOp σ.noop l.2 σ.remote out.io o
      some ({ σ with fd := some .opened, disk := x.1, remote := x.2.1 }, x.2.2)
    else some ({ σ with disk := l.2 }, failed o)

/-- `results/fs.rs:165-195`: the slow path of `with_file`, inserting a descriptor; the result says
whether the operation goes on. Whether the file could be loaded from the remote is ignored. -/
def slowPath (σ : Res) (out : Out) : Res × Bool :=
  match σ.fd with
  | some _ => (σ, true)
  | none =>
    let l := load σ.remote σ.disk out.load
    if out.openOk then
      ({ σ with fd := some .opened, disk := l.2, events := σ.events ++ [.opened l.2] }, true)
    else ({ σ with disk := l.2 }, false)

/-- Adds observations and tasks (`queue.rs:2264-2364`). -/
def Res.add (σ : Res) (evs : List Ev) (ts : List Task) : Res :=
  { σ with events := σ.events ++ evs, tasks := σ.tasks ++ ts }

/-- One step of a task, which was removed from the tasks of `σ` (`queue.rs:2264-2364`, `results/fs.rs:121-319`,
`results.rs:193-211`). -/
def stepTask (σ : Res) (out : Out) : Task → Res
  | .ack id line e =>
    match out.io with
    | .ok => σ.add [.acked id] [.op (.dump id line) e .fast]
    | .cut _ => σ.add [] [.op (.dump id line) e .fast]
  | .op o e .fast =>
    match fastPath σ o out with
    | some (τ, ev) => τ.add [ev] (after o e)
    | none => σ.add [] [.op o e .slow]
  | .op o e .slow =>
    if (slowPath σ out).2 then (slowPath σ out).1.add [] [.op o e .second]
    else (slowPath σ out).1.add [failed o] (after o e)
  | .op o e .second =>
    match fastPath σ o out with
    | some (τ, ev) => τ.add [ev] (after o e)
    | none => σ.add [failed o] (after o e)
  | .finish id e =>
    { σ with processing := σ.processing - 1 }.add [.finished id e]
      (if σ.processing = 1 ∧ e = true then [.op .toRemote false .fast] else [])

/-- `persistence/offload.rs:10-14` `OffloadConfig`: `none` is `Never`. Times are numbers. -/
abbrev OffloadConfig := Option Nat

/-- `offload.rs:26-31` `should_offload`. -/
def shouldOffload (c : OffloadConfig) (elapsed : Nat) : Bool :=
  match c with
  | none => false
  | some after => elapsed ≥ after

/-- `offload.rs:33-50` `file_eligible_for_offload`; the access time is known. -/
def fileEligible (c : OffloadConfig) (now accessed size : Nat) : Bool :=
  size > 0 && (if accessed > now then false else shouldOffload c (now - accessed))

/-- `results/fs.rs:264-319` `perform_offload`, on a file last accessed at `accessed`. The same
check made before taking the lock (`results/fs.rs:249`) is left out: this one decides. -/
def offload (σ : Res) (c : OffloadConfig) (now accessed : Nat) (o : OffloadOut) : Res :=
  if σ.fd = some .opened ∧ fileEligible c now accessed σ.disk.length = true then
    match o with
    | .ok =>
      { σ with remote := store σ.noop σ.remote σ.disk, disk := [], fd := some .offloaded }.add
        [.offload true] []
    | .storeFails => σ.add [.offload false] []
    | .truncateFails =>
      { σ with remote := store σ.noop σ.remote σ.disk }.add [.offload false] []
    | .syncFails =>
      { σ with remote := store σ.noop σ.remote σ.disk, disk := [] }.add [.offload false] []
  else σ.add [.offload false] []

/-- A scheduler choice (`queue.rs:2264-2364`, `results/fs.rs:215-238`). -/
inductive Act where
  /-- a worker reports results: `queue.rs:2289-2298`, `results.rs:125-139` -/
  | results (line : Bytes) (eligible : Bool)
  /-- the summary of the manifest is recorded: `queue.rs:2746-2762`, `results.rs:142-158` -/
  | summary (line : Bytes) (eligible : Bool)
  /-- a results request found no active runner: `queue.rs:2348-2364` -/
  | request
  | resume (i : Nat) (out : Out)
  | offload (c : OffloadConfig) (now accessed : Nat) (o : OffloadOut)
deriving DecidableEq, Repr

/-- One atomic step. Disabled choices leave the state unchanged (`queue.rs:2264-2364`, `results/fs.rs:29-415`). -/
def step (σ : Res) : Act → Res
  | .results line e =>
    { σ with processing := σ.processing + 1, nextId := σ.nextId + 1 }.add [.planned σ.nextId line]
      [.ack σ.nextId line e]
  | .summary line e =>
    { σ with processing := σ.processing + 1, nextId := σ.nextId + 1 }.add [.planned σ.nextId line]
      [.op (.dump σ.nextId line) e .fast]
  | .request =>
    if σ.processing = 0 then
      { σ with nextRead := σ.nextRead + 1 }.add [.asked σ.nextRead]
        [.op (.read σ.nextRead) false .fast]
    else σ.add [.pending] []
  | .resume i out =>
    match σ.tasks[i]? with
    | none => σ
    | some t => stepTask { σ with tasks := σ.tasks.eraseIdx i } out t
  | .offload c now accessed o => offload σ c now accessed o

/-- A schedule (`queue.rs:2264-2364`, `results/fs.rs:29-415`). -/
def run (σ : Res) (acts : List Act) : Res := acts.foldl step σ

end Abq.Results
