import Verif.Model.Basic

/-!
# The job queue of one run (`abq_queue/src/job_queue.rs`)

First the functions as executed by one thread (`JobQueue.getWork` …), then the same code as
an interleaving of atomic steps executed by any number of threads (`Sys.step`).
-/

namespace Abq

/-- The `for` loop of `job_queue.rs:136-146`: `rest` is what remains of
`self.queue[start_idx..]`, `cur` is `current_group_id`, `e` is `end_idx`. -/
def scanGroups {T : Type} (n start : Nat) : List (T × Nat) → Nat → Nat → Nat
  | [], _, e => e
  | (_, g) :: rest, cur, e =>
    if g ≠ cur then
      if e - start ≥ n then e                    -- break
      else scanGroups n start rest g (e + 1)
    else scanGroups n start rest cur (e + 1)

/-- The closure of `fetch_update` in `job_queue.rs:129-148`: `none` past the end of the queue,
otherwise the new pointer (which is also the captured `end_idx`). The indexing
`self.queue[start_idx]` cannot fail there because `start_idx < queue_len`; the model's
`[]` case is that impossible case. -/
def groupClosure {T : Type} (queue : List (T × Nat)) (n start : Nat) : Option Nat :=
  if start ≥ queue.length then none
  else match queue.drop start with
    | [] => none
    | x :: xs => some (scanGroups n start (x :: xs) x.2 start)

/-- The items of `self.queue[s..e]` (`job_queue.rs:89`), group ids dropped as in
`get_work` (`job_queue.rs:61-62`). -/
def slice {T : Type} (queue : List (T × Nat)) (s e : Nat) : List T :=
  ((queue.drop s).take (e - s)).map Prod.fst

/-- The bounds `get_bounds_by_test` returns for a given result `start` of `fetch_add`
(`job_queue.rs:107-117`), together with whether the clamping `store(queue_len)` is executed. -/
def byTestBounds (len n start : Nat) : (Nat × Nat) × Bool :=
  if start > len then ((len, len), true)
  else if start + n > len then ((start, len), true)
  else ((start, start + n), false)

/-- `job_queue.rs:16-26` `struct JobQueue`. `TagCell`s are plain tags. -/
structure JobQueue (T : Type) where
  queue : List (T × Nat)
  assigned : List Tag
  ptr : Nat
  strategy : TestStrategy
deriving Repr

namespace JobQueue
variable {T : Type}

/-- `job_queue.rs:45-53` `JobQueue::new`. -/
def new (work : List (T × Nat)) (strategy : TestStrategy) : JobQueue T :=
  { queue := work
    assigned := List.replicate work.length Tag.externalClient
    ptr := 0
    strategy := strategy }

/-- `job_queue.rs:92-118` `get_bounds_by_test` executed without interference:
the bounds and the pointer afterwards. Simplification: `usize` does not overflow (see
`Abq.Props.ptr_bounded` for the bound on the pointer under concurrency). -/
def getBoundsByTest (q : JobQueue T) (n : Nat) : (Nat × Nat) × Nat :=
  let b := byTestBounds q.queue.length n q.ptr
  (b.1, if b.2 then q.queue.length else q.ptr + n)

/-- `job_queue.rs:120-152` `get_bounds_by_top_level_group` executed without interference. -/
def getBoundsByTopLevelGroup (q : JobQueue T) (n : Nat) : (Nat × Nat) × Nat :=
  match groupClosure q.queue n q.ptr with
  | some e => ((q.ptr, e), e)
  | none => ((q.queue.length, q.ptr), q.ptr)

/-- `job_queue.rs:84-87`: writes the tag into the cells `[s, e)`. -/
def assignCells (cells : List Tag) (tag : Tag) (s e : Nat) : List Tag :=
  cells.mapIdx (fun i t => if s ≤ i ∧ i < e then tag else t)

/-- The choice of the bounds in `get_work` (`job_queue.rs:76-82`). -/
def getBounds (q : JobQueue T) (n : Nat) : (Nat × Nat) × Nat :=
  match q.strategy with
  | .byTest => q.getBoundsByTest n
  | .byTopLevelGroup => q.getBoundsByTopLevelGroup n

/-- `job_queue.rs:56-90` `get_work` executed without interference. `none` is the panic of an
out-of-range slice index. -/
def getWork (q : JobQueue T) (tag : Tag) (n : Nat) : Option (JobQueue T × List T) :=
  let r := q.getBounds n
  let s := r.1.1
  let e := r.1.2
  if s ≤ e ∧ e ≤ q.assigned.length ∧ e ≤ q.queue.length then
    some ({ q with ptr := r.2, assigned := assignCells q.assigned tag s e }, slice q.queue s e)
  else none

/-- `job_queue.rs:154-156` `is_at_end`. -/
def isAtEnd (q : JobQueue T) : Bool := decide (q.ptr ≥ q.queue.length)

/-- `job_queue.rs:158-178` `get_partition_for_entity`: the tests whose cell holds `tag`,
in manifest order. (The Rust code indexes `self.queue[i]`; both vectors have the same length.) -/
def getPartitionForEntity (q : JobQueue T) (tag : Tag) : List T :=
  ((q.queue.zip q.assigned).filter (fun p => p.2 == tag)).map (fun p => p.1.1)

/-- `job_queue.rs:180-199` `into_manifest_view`: the tests and their owners. -/
def intoManifestView (q : JobQueue T) : List T × List Tag := (q.queue.map Prod.fst, q.assigned)

/-- `job_queue.rs:202-204` `read_index`. -/
def readIndex (q : JobQueue T) : Nat := q.ptr

end JobQueue

/-! ## Interleaved execution -/

/-- A region of the manifest taken by one request of `tag` for `n` tests (`job_queue.rs:67-90`). -/
structure Claim where
  tag : Tag
  n : Nat
  s : Nat
  e : Nat
deriving DecidableEq, Repr

/-- What a request was answered: `NextWorkBundle { work, eow }` (`queue.rs:897-898`), plus the
(ghost) region it came from. -/
structure Resp (T : Type) where
  tag : Tag
  /-- batch size asked for -/
  n : Nat
  items : List T
  eow : Bool
  claim : Option Claim
deriving Repr

/-- What a retry-manifest request was answered (`queue.rs:1019-1031`): the tests whose cell held
the tag; ghost: their indices, and the number of `next_work` answers given before it began. -/
structure PartResp (T : Type) where
  tag : Tag
  items : List T
  before : Nat
  idxs : List Nat
deriving Repr

/-- Where a thread executing `AllRuns::next_work` (`queue.rs:795-854`), or `get_retry_manifest`
(`queue.rs:1009-1032`), for this run is. All but `idle`, `wantMark` and `panicked` hold the
run's read lock. -/
inductive Pc (T : Type) where
  /-- not in the queue -/
  | idle
  /-- by-test, `fetch_add` done, about to execute the clamping `store(queue_len)`
  (`job_queue.rs:109,113`) -/
  | clamp (n : Nat) (c : Claim)
  /-- by-group, pointer loaded as `prev`, about to run the closure and `compare_exchange`
  (`fetch_update`, `job_queue.rs:127-150`) -/
  | cas (tag : Tag) (n prev : Nat)
  /-- about to set the cell `i` of the claimed region (`job_queue.rs:84-87`) -/
  | assign (n : Nat) (c : Claim) (i : Nat)
  /-- about to execute `is_at_end` (`queue.rs:870`) -/
  | check (n : Nat) (c : Claim)
  /-- read lock released, about to run `try_mark_reached_end_of_manifest` (`queue.rs:820`) -/
  | wantMark (n : Nat) (c : Claim)
  /-- scanning the cells for a retry partition (`job_queue.rs:170-177`): next cell is `i`,
  `acc` are the matching indices so far, `k` (ghost) is the number of answers given to
  `next_work` requests before the scan began -/
  | part (tag : Tag) (k i : Nat) (acc : List Nat)
  /-- out-of-range slice -/
  | panicked
deriving Repr

/-- The state of the run as far as this model goes (`queue.rs:63-134`): serving tests,
manifest exhausted, cancelled. -/
inductive Phase where
  | serving
  | done
  | cancelled
deriving DecidableEq, Repr

/-- A run being served by several threads. `queue` and `strategy` never change; `view` is the
manifest view built when the run is marked exhausted; `log` is ghost: the regions in the
order in which they were claimed (`job_queue.rs:18-26`, `queue.rs:689-854`). -/
structure Sys (T : Type) where
  queue : List (T × Nat)
  strategy : TestStrategy
  ptr : Nat
  cells : List Tag
  phase : Phase
  view : Option (List T × List Tag)
  pcs : List (Pc T)
  log : List Claim
  resps : List (Resp T)
  /-- answers to retry-manifest requests -/
  parts : List (PartResp T)

/-- The claim a thread has made and not yet answered (`job_queue.rs:67-90`). -/
def Pc.claim? {T : Type} : Pc T → Option Claim
  | .clamp _ c => some c
  | .assign _ c _ => some c
  | .check _ c => some c
  | .wantMark _ c => some c
  | _ => none

/-- Does a thread hold the read lock of the run? `next_work` takes it at `queue.rs:798` and
holds it until `queue.rs:815` or the end; `get_retry_manifest` at `queue.rs:999`. -/
def Pc.holdsRead {T : Type} : Pc T → Bool
  | .clamp .. => true
  | .cas .. => true
  | .assign .. => true
  | .check .. => true
  | .part .. => true
  | _ => false

/-- One step of the schedule (`queue.rs:689-854`). -/
inductive Act where
  /-- a thread begins `next_work` for a runner tag with batch size `n`: it takes the read lock,
  looks at the run state and performs its first atomic operation on the pointer -/
  | call (tid : Nat) (tag : Tag) (n : Nat)
  /-- a thread begins `get_retry_manifest` for a tag -/
  | retry (tid : Nat) (tag : Tag)
  /-- the thread performs its next atomic operation -/
  | tick (tid : Nat)
  /-- `compare_exchange_weak` fails although the values agree -/
  | spurious (tid : Nat)
  /-- the run is cancelled (`mark_cancelled`, `queue.rs:1276-1305`) -/
  | cancel
deriving Repr

namespace Sys
variable {T : Type}

/-- A run as just emplaced by `add_manifest` (`queue.rs:743-750`), served by `k` threads. -/
def init (queue : List (T × Nat)) (strategy : TestStrategy) (k : Nat) : Sys T :=
  { queue := queue
    strategy := strategy
    ptr := 0
    cells := List.replicate queue.length Tag.externalClient
    phase := .serving
    view := none
    pcs := List.replicate k .idle
    log := []
    resps := []
    parts := [] }

/-- What follows the computation of the bounds: the slice `[s..e]` of the cells is checked
(`job_queue.rs:85`) and the loop over it starts. -/
def afterBounds (len n : Nat) (c : Claim) : Pc T :=
  if c.s ≤ c.e ∧ c.e ≤ len then .assign n c c.s else .panicked

/-- The empty end-of-work answer of `queue.rs:827-842`. -/
def emptyResp (tag : Tag) (n : Nat) : Resp T :=
  { tag := tag, n := n, items := [], eow := true, claim := none }

/-- Begin of `next_work`: `queue.rs:795-811` up to and including the first atomic operation of
`get_work`. The answer for a run that is not serving is given at once (`queue.rs:827-842`). -/
def call (σ : Sys T) (tid : Nat) (tag : Tag) (n : Nat) : Sys T :=
  match σ.phase with
  | .serving =>
    match σ.strategy with
    | .byTest =>
      -- `fetch_add`, `job_queue.rs:94`
      let b := byTestBounds σ.queue.length n σ.ptr
      let c : Claim := { tag := tag, n := n, s := b.1.1, e := b.1.2 }
      { σ with
        ptr := σ.ptr + n
        log := σ.log ++ [c]
        pcs := σ.pcs.set tid (if b.2 then .clamp n c else afterBounds σ.cells.length n c) }
    | .byTopLevelGroup =>
      -- the load at the start of `fetch_update`
      { σ with pcs := σ.pcs.set tid (.cas tag n σ.ptr) }
  | _ => { σ with resps := σ.resps ++ [emptyResp tag n] }

/-- The closure and the compare-exchange of `fetch_update` (`job_queue.rs:127-150`). On failure
the loop continues with the value found. -/
def casStep (σ : Sys T) (tid : Nat) (tag : Tag) (n prev : Nat) : Sys T :=
  match groupClosure σ.queue n prev with
  | none =>
    -- `Err(prev)`, `unwrap_or(queue_len)`: start is the queue length, `end_idx` is `prev`
    let c : Claim := { tag := tag, n := n, s := σ.queue.length, e := prev }
    { σ with log := σ.log ++ [c], pcs := σ.pcs.set tid (afterBounds σ.cells.length n c) }
  | some e =>
    if σ.ptr = prev then
      let c : Claim := { tag := tag, n := n, s := prev, e := e }
      { σ with
        ptr := e
        log := σ.log ++ [c]
        pcs := σ.pcs.set tid (afterBounds σ.cells.length n c) }
    else
      { σ with pcs := σ.pcs.set tid (.cas tag n σ.ptr) }

/-- The answer of a request that pulled `c` (`queue.rs:867-898`). -/
def bundleResp (σ : Sys T) (n : Nat) (c : Claim) (eow : Bool) : Resp T :=
  { tag := c.tag, n := n, items := slice σ.queue c.s c.e, eow := eow, claim := some c }

/-- `try_mark_reached_end_of_manifest` (`queue.rs:1111-1203`) under the write lock. -/
def markEnd (σ : Sys T) : Sys T :=
  match σ.phase with
  | .serving => { σ with phase := .done, view := some (σ.queue.map Prod.fst, σ.cells) }
  | _ => σ

/-- No thread holds the read lock, so the write lock can be taken (`queue.rs:689, 815`). -/
def lockFree (σ : Sys T) : Bool := σ.pcs.all (fun pc => !pc.holdsRead)

/-- The next atomic operation of a thread (`job_queue.rs:67-205`, `queue.rs:689-854`). -/
def tick (σ : Sys T) (tid : Nat) : Sys T :=
  match σ.pcs[tid]? with
  | none => σ
  | some .idle => σ
  | some .panicked => σ
  | some (.clamp n c) =>
    { σ with ptr := σ.queue.length, pcs := σ.pcs.set tid (afterBounds σ.cells.length n c) }
  | some (.cas tag n prev) => σ.casStep tid tag n prev
  | some (.assign n c i) =>
    if i < c.e then
      { σ with cells := σ.cells.set i c.tag, pcs := σ.pcs.set tid (.assign n c (i + 1)) }
    else
      { σ with pcs := σ.pcs.set tid (.check n c) }
  | some (.check n c) =>
    if σ.ptr ≥ σ.queue.length then
      { σ with pcs := σ.pcs.set tid (.wantMark n c) }
    else
      { σ with pcs := σ.pcs.set tid .idle, resps := σ.resps ++ [σ.bundleResp n c false] }
  | some (.wantMark n c) =>
    if σ.lockFree then
      let σ' := σ.markEnd
      { σ' with pcs := σ.pcs.set tid .idle, resps := σ.resps ++ [σ.bundleResp n c true] }
    else σ
  | some (.part tag k i acc) =>
    match σ.cells[i]? with
    | some t =>
      { σ with pcs := σ.pcs.set tid (.part tag k (i + 1) (if t = tag then acc ++ [i] else acc)) }
    | none =>
      { σ with
        pcs := σ.pcs.set tid .idle
        parts := σ.parts ++ [{ tag := tag, before := k, idxs := acc
                               items := acc.filterMap (fun i => (σ.queue[i]?).map Prod.fst) }] }

/-- Is thread `tid` free to begin a request? (`queue.rs:689-854`). -/
def isIdle (σ : Sys T) (tid : Nat) : Bool :=
  match σ.pcs[tid]? with
  | some .idle => true
  | _ => false

/-- One step of the system. A step that is not enabled (the thread is busy, does not exist, or
would block on the lock; a batch size of 0, which `NonZeroUsize` excludes) does nothing (`job_queue.rs:67-205`,
`queue.rs:689-854`). -/
def step (σ : Sys T) : Act → Sys T
  | .call tid tag n => if σ.isIdle tid ∧ 0 < n then σ.call tid tag n else σ
  | .retry tid tag =>
    if σ.isIdle tid ∧ σ.phase = .serving then
      { σ with pcs := σ.pcs.set tid (.part tag σ.resps.length 0 []) }
    else σ
  | .tick tid => σ.tick tid
  | .spurious tid =>
    match σ.pcs[tid]? with
    | some (.cas tag n _) => { σ with pcs := σ.pcs.set tid (.cas tag n σ.ptr) }
    | _ => σ
  | .cancel =>
    if σ.lockFree then
      match σ.phase with
      | .done => σ
      | _ => { σ with phase := .cancelled }
    else σ

/-- The state after a schedule (`job_queue.rs:67-205`, `queue.rs:689-854`). -/
def run (σ : Sys T) (acts : List Act) : Sys T := acts.foldl step σ

end Sys
end Abq
