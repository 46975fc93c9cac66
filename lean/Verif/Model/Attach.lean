import Verif.Model.AllRuns
import Verif.Model.WorkerReport

/-!
# How a worker attaches to a run

`crates/abq_workers/src/negotiate.rs`: the queue's answer to a worker that wants to attach, what the worker makes of it, and the
runners `crates/abq_workers/src/workers.rs:139-225` `WorkerPool::new` starts.
-/

namespace Abq.Attach

/-- `assigned_run.rs:10-15` `AssignedRunKind`. -/
inductive Kind where
  | fresh (generate : Bool)
  | retryAndContinue
deriving DecidableEq, Repr

/-- A socket address: host and port (`negotiate.rs:67-91`). -/
structure Addr where
  host : String
  port : Nat
deriving DecidableEq, Repr

/-- `crates/abq_utils/src/net_protocol.rs` `publicize_addr`. -/
def publicize (a : Addr) (publicIp : String) : Addr := { a with host := publicIp }

/-- `negotiate.rs:66-93` `ExecutionContext`, `MessageFromQueueNegotiator`. The text of a fatal error is left out. -/
inductive Message where
  | executionContext (work results : Addr) (kind : Kind) (differs : Bool)
  | runAlreadyCompleted (exit : Int)
  | runCancelled (reason : CancelReason)
  | runUnknown
  | fatalError
deriving DecidableEq, Repr

/-- Where the queue listens (`negotiate.rs:469-478`). -/
structure Queue where
  publicIp : String
  work : Addr
  results : Addr
deriving Repr

/-- `negotiate.rs:526-528, 599-636`: the message for an answer of `find_or_create_run`. -/
def Queue.message (q : Queue) : Assigned → Message
  | .fresh g d => .executionContext (publicize q.work q.publicIp) (publicize q.results q.publicIp) (.fresh g) d
  | .retry d => .executionContext (publicize q.work q.publicIp) (publicize q.results q.publicIp) .retryAndContinue d
  | .alreadyDone x => .runAlreadyCompleted x
  | .cancelled r => .runCancelled r
  | .runUnknown => .runUnknown
  | .fatal => .fatalError

/-- What comes of one request to attach: `negotiate.rs:334-343`; connecting, writing or reading may fail. -/
inductive Reply where
  | io
  | message (m : Message)
deriving DecidableEq, Repr

/-- `negotiate.rs:321-381`: what `wait_for_execution_context` returns; `failed` is an error. -/
inductive Decision where
  | context (work results : Addr) (kind : Kind) (differs : Bool)
  | redundant (exit : Int)
  | cancelled (reason : CancelReason)
  | failed
deriving DecidableEq, Repr

/-- `negotiate.rs:331-380`: the loop, given what comes of the requests. Yields the times slept, in milliseconds, and the result,
if there is one. -/
def wait (decay : Nat) : List Reply → List Nat × Option Decision
  | [] => ([], none)
  | .io :: _ => ([], some .failed)
  | .message (.executionContext w r k d) :: _ => ([], some (.context w r k d))
  | .message (.runAlreadyCompleted x) :: _ => ([], some (.redundant x))
  | .message (.runCancelled c) :: _ => ([], some (.cancelled c))
  | .message .fatalError :: _ => ([], some .failed)
  | .message .runUnknown :: rest =>
    let next := wait (if decay * 2 ≥ 3000 then 3000 else decay * 2) rest
    (decay :: next.1, next.2)

/-- `negotiate.rs:331-332`. -/
def waitForContext (replies : List Reply) : List Nat × Option Decision := wait 10 replies

/-- `test_fetching.rs:50-53` `SourcingStrategy`. -/
inductive Source where
  | queue | retryManifest
deriving DecidableEq, Repr

/-- What a runner is started with: `workers.rs:165-218`, `runner_strategy.rs:83-180`. -/
structure Runner where
  tag : Tag
  generatesManifest : Bool
  sources : List Source
  work : Addr
  results : Addr
deriving DecidableEq, Repr

/-- `runner_strategy.rs:97-104`. -/
def Kind.sources : Kind → List Source
  | .fresh _ => [.queue]
  | .retryAndContinue => [.retryManifest, .queue]

/-- `negotiate.rs:264-269`. -/
def Kind.someRunnerGenerates : Kind → Bool
  | .fresh g => g
  | .retryAndContinue => false

/-- `workers.rs:165-218`: the runners of worker `w`, `n` of them, numbered from 1. -/
def pool (w n : Nat) (work results : Addr) (k : Kind) : List Runner :=
  (List.range' 1 n).map fun id =>
    { tag := .runner ⟨w, id⟩, generatesManifest := k.someRunnerGenerates && id == 1, sources := k.sources, work, results }

/-- `negotiate.rs:144-151` `NegotiatedWorkers`, with whether the warning of `negotiate.rs:260-262` was written; an error makes
`abq test` panic at `crates/abq_cli/src/workers.rs:119`. -/
inductive Started where
  | pool (warned : Bool) (runners : List Runner)
  | redundant (exit : Int)
  | cancelled (reason : CancelReason)
  | panicked
deriving DecidableEq, Repr

/-- `negotiate.rs:206-301` `negotiate_and_start_pool`. -/
def start (w n : Nat) : Decision → Started
  | .context work results k d => .pool d (pool w n work results k)
  | .redundant x => .redundant x
  | .cancelled r => .cancelled r
  | .failed => .panicked

/-- `negotiate.rs:346-357`. -/
def cancelMessage (r : CancelReason) : String :=
  "Error: This ABQ run was cancelled. When an ABQ run is cancelled, it can no longer be retried. You must start a run with a new run ID instead.\nThis run was cancelled because "
    ++ match r with
      | .user => "a worker received a cancellation signal while still working on tests."
      | .manifestHadNoProgress => "the run timed out before any tests were completed."
      | .manifestNeverReceived => "the run timed out before the test manifest was received."

/-- `negotiate.rs:154-174` `NegotiatedWorkers::shutdown`, given how a pool ends. -/
def Started.status (s : Started) (ofPool : List Runner → Pool.Status) : Option Pool.Status :=
  match s with
  | .pool _ rs => some (ofPool rs)
  | .redundant x => some (.completed x)
  | .cancelled r => some (.error [cancelMessage r])
  | .panicked => none

/-- The exit code of `abq test` after its reporting task has ended: `crates/abq_cli/src/workers.rs:204-214`. A panic exits with
101. -/
def Started.exitCode (s : Started) (ofPool : List Runner → Pool.Status) (suite : Int) : Int :=
  match s.status ofPool with
  | some st => Pool.processExitCode suite st
  | none => 101

end Abq.Attach
