import Verif.Model.Backoff

/-!
# Asking the queue for tests

`crates/abq_workers/src/test_fetching/persistent_test_fetcher.rs`: a runner keeps a connection to the queue on which it asks for
bundles of tests, and opens a new one if that fails. The other end is a task of the queue for each connection
(`abq_queue/src/queue.rs:2630-2639, 2667-2746`). Which bundle the queue comes up with is part of the schedule
(it is `Model/AllRuns` that says which). Also
`crates/abq_workers/src/test_fetching/out_of_process_retry_manifest_fetcher.rs`.

A write may fail although all of it arrives, or succeed although it does not; a connection that was given up by the runner may
still hold a request for the task at the other end.
-/

namespace Abq.TestsConn

/-- What the task at the queue's end of a connection does (`queue.rs:2677-2746`): wait for a request, or it has a bundle to
write, or it came to an end. -/
inductive Task (β : Type) where
  | serving
  | holding (b : β)
  | ended
deriving DecidableEq, Repr

/-- A connection (`persistent_test_fetcher.rs:44, 110-128`): whether its first message arrived, which says whose it is; how many
requests have arrived that the task has not read; the answers that the runner has not read. -/
structure Conn (β : Type) where
  named : Bool
  requests : Nat
  answers : List β
  task : Task β
deriving DecidableEq, Repr

/-- Where an attempt is (`persistent_test_fetcher.rs:97-128`): about to connect, to write the first message to the connection just
made, to write the request, to read the answer. -/
inductive Stage where
  | connecting
  | naming
  | requesting
  | reading
deriving DecidableEq, Repr

/-- `persistent_test_fetcher.rs:66-95`: not asked; in an attempt; or the runner panicked, or was stopped. -/
inductive Phase where
  | idle
  | asking (attempt : Nat) (stage : Stage)
  | panicked
  | dropped
deriving DecidableEq, Repr

/-- `persistent_test_fetcher.rs:35-42` and the connections it ever made, in order. `current` is the field `conn`; the connection
just made is the last. `pulled` are the bundles the queue took for this runner and `got` those returned by `get_next_tests`, each
with its connection. -/
structure World (β : Type) where
  conns : List (Conn β)
  current : Option Nat
  phase : Phase
  pulled : List (Nat × β)
  got : List (Nat × β)
  /-- how many attempts failed -/
  failed : Nat
deriving DecidableEq, Repr

/-- `persistent_test_fetcher.rs:46-62` `new`. -/
def World.new (β : Type) : World β := ⟨[], none, .idle, [], [], 0⟩

/-- What happens. `ok` is whether the operation succeeds, `reaches` whether what was written arrives
(`persistent_test_fetcher.rs:64-128`, `queue.rs:2677-2746`). -/
inductive Act (β : Type) where
  /-- `get_next_tests` is called -/
  | ask
  | connect (ok : Bool)
  | name (ok reaches : Bool)
  | request (ok reaches : Bool)
  | read (ok : Bool)
  /-- the runner is stopped -/
  | drop
  /-- the task of a connection reads a request and takes the next bundle for the runner -/
  | serve (c : Nat) (b : β)
  /-- the task of a connection writes the bundle it has -/
  | answer (c : Nat) (ok : Bool)
  /-- the task of a connection fails to read a request -/
  | hangup (c : Nat)
deriving DecidableEq, Repr

/-- `DEFAULT_MAX_ATTEMPTS_IN_CYCLE` (`persistent_test_fetcher.rs:16`). -/
def maxAttempts : Nat := 3

/-- An attempt fails (`persistent_test_fetcher.rs:82-91`); `get_next_tests` panics on an error
(`persistent_test_fetcher.rs:68`). -/
def World.fail {β : Type} (w : World β) (attempt : Nat) : World β :=
  if attempt < maxAttempts then
    { w with current := none, phase := .asking (attempt + 1) .connecting, failed := w.failed + 1 }
  else { w with phase := .panicked, failed := w.failed + 1 }

/-- `persistent_test_fetcher.rs:110-115`: a connection is made unless there is one. -/
def stageFor : Option Nat → Stage
  | some _ => .requesting
  | none => .connecting

/-- A connection that was just made (`persistent_test_fetcher.rs:116`, `queue.rs:2630-2639`). -/
def Conn.fresh (β : Type) : Conn β := ⟨false, 0, [], .serving⟩

/-- `queue.rs:2739-2742`: the task ends after the last bundle. -/
def afterAnswer {β : Type} (eow : β → Bool) (b : β) : Task β := if eow b then .ended else .serving

/-- The queue's side of a connection (`queue.rs:2677-2746`). -/
def Conn.answer {β : Type} (eow : β → Bool) (k : Conn β) (ok : Bool) : Conn β :=
  match k.task with
  | .holding b =>
    if ok then { k with answers := k.answers ++ [b], task := afterAnswer eow b } else { k with task := .ended }
  | _ => k

/-- `queue.rs:2678-2706`: the task reads a request and takes the next bundle, if it can. -/
def Conn.serve {β : Type} (k : Conn β) (b : β) : Option (Conn β) :=
  match k.task with
  | .serving => if k.named ∧ 0 < k.requests then some { k with requests := k.requests - 1, task := .holding b } else none
  | _ => none

/-- `queue.rs:2688-2692`: the task fails to read a request. -/
def Conn.hangup {β : Type} (k : Conn β) : Conn β :=
  match k.task with
  | .serving => { k with task := .ended }
  | _ => k

/-- One step; steps that are not possible do nothing (`persistent_test_fetcher.rs:64-128`, `queue.rs:2677-2746`). -/
def World.step {β : Type} (eow : β → Bool) (w : World β) : Act β → World β
  | .ask => if w.phase = .idle then { w with phase := .asking 1 (stageFor w.current) } else w
  | .connect ok =>
    match w.phase with
    | .asking k .connecting =>
      if ok then { w with conns := w.conns ++ [Conn.fresh β], phase := .asking k .naming } else w.fail k
    | _ => w
  | .name ok reaches =>
    match w.phase with
    | .asking k .naming =>
      let c := w.conns.length - 1
      let w := { w with conns := w.conns.modify c fun x => { x with named := reaches } }
      if ok then { w with current := some c, phase := .asking k .requesting } else w.fail k
    | _ => w
  | .request ok reaches =>
    match w.phase, w.current with
    | .asking k .requesting, some c =>
      let w := { w with conns := w.conns.modify c fun x => { x with requests := x.requests + if reaches then 1 else 0 } }
      if ok then { w with phase := .asking k .reading } else w.fail k
    | _, _ => w
  | .read ok =>
    match w.phase, w.current with
    | .asking k .reading, some c =>
      if ok then
        match w.conns[c]? with
        | some x =>
          match x.answers with
          | b :: bs =>
            { w with
              conns := w.conns.set c { x with answers := bs }
              phase := .idle
              got := w.got ++ [(c, b)] }
          | [] => w
        | none => w
      else w.fail k
    | _, _ => w
  | .drop =>
    match w.phase with
    | .panicked => w
    | _ => { w with phase := .dropped }
  | .serve c b =>
    match w.conns[c]? with
    | some x =>
      match x.serve b with
      | some y => { w with conns := w.conns.set c y, pulled := w.pulled ++ [(c, b)] }
      | none => w
    | none => w
  | .answer c ok => { w with conns := w.conns.modify c fun x => x.answer eow ok }
  | .hangup c => { w with conns := w.conns.modify c Conn.hangup }

/-- A run (`persistent_test_fetcher.rs:64-128`, `queue.rs:2677-2746`). -/
def World.run {β : Type} (eow : β → Bool) (w : World β) (as : List (Act β)) : World β := as.foldl (World.step eow) w

/-! ## The manifest of a worker that is run again -/

/-- `net_protocol.rs` `RetryManifestResponse`. -/
inductive Reply (β : Type) where
  | manifest (b : β)
  | notYetPersisted
  | error
deriving DecidableEq, Repr

/-- What one attempt meets (`out_of_process_retry_manifest_fetcher.rs:77-109`): whether the `k`-th attempt to connect succeeds,
whether the request can be written and an answer read, and the answer. -/
structure Poll (β : Type) where
  connects : Nat → Bool
  io : Bool
  reply : Reply β

/-- What comes of asking: a manifest, an error of the queue's, or a panic (`out_of_process_retry_manifest_fetcher.rs:66-123`). -/
inductive Fetched (β : Type) where
  | manifest (b : β)
  | error
  | panic
deriving DecidableEq, Repr

/-- `try_fetch_manifest` (`out_of_process_retry_manifest_fetcher.rs:77-109`), with the attempts to connect and the waits in
between. A panic ends the loop around it, as does a definite answer. -/
def tryFetch {β : Type} (p : Poll β) : Except Unit (Fetched β) × List Abq.Backoff.Ev :=
  match Abq.Backoff.retryN 5 (fun k => if p.connects k then Except.ok () else Except.error ()) with
  | (.error _, tr) => (.ok .panic, tr)
  | (.ok _, tr) =>
    if p.io then
      match p.reply with
      | .manifest b => (.ok (.manifest b), tr)
      | .notYetPersisted => (.error (), tr)
      | .error => (.ok .error, tr)
    else (.ok .panic, tr)

/-- `get_next_tests` (`out_of_process_retry_manifest_fetcher.rs:66-123`), with the attempts made and the waits of three seconds in
between. -/
def fetchRetry {β : Type} (polls : Nat → Poll β) : Fetched β × List Abq.Backoff.Ev :=
  match Abq.Backoff.retryN 20 (fun k => (tryFetch (polls k)).1) with
  | (.ok r, tr) => (r, tr)
  | (.error _, tr) => (.panic, tr)

end Abq.TestsConn
