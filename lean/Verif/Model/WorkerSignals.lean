import Verif.Model.RunnerStart
/-!
# Telling a worker to terminate

`crates/abq_cli/src/workers.rs:46-135` `start_workers_standalone`, `do_shutdown`, `do_cancellation_shutdown` (workers.rs:137-247), with
`WorkerPool::cancel` and `WorkerPool::shutdown` (`crates/abq_workers/src/workers.rs:242-282`). Each runner of the pool is
one of `Model/RunnerStart.lean`; its completion and its being joined are one step (`Model/Liveness.lean`, `Model/Pool.lean`).
-/

namespace Abq.WorkerSignals
open RunnerStart (Run)

/-- Where the main task of `abq test` is (`crates/abq_cli/src/workers.rs:94-133`). -/
inductive Phase where
  /-- workers.rs:94-118 `negotiate_and_start_pool`, awaited before the loop -/
  | negotiating
  /-- workers.rs:123-132: the loop -/
  | running
  /-- workers.rs:126 `do_shutdown` -/
  | finishing
  /-- workers.rs:129 `do_cancellation_shutdown` -/
  | cancelling
  /-- `std::process::exit` -/
  | exited (code : Int)
  /-- the main task panicked; a Rust process then ends with status 101 -/
  | panicked
deriving DecidableEq, Repr

/-- The main task (`crates/abq_cli/src/workers.rs:46-133`), its runners and its signals. -/
structure Worker where
  phase : Phase := .negotiating
  /-- signals to terminate that were received and not taken from `term_signals` -/
  pending : Nat := 0
  /-- the pool; empty if there is none (`NegotiatedWorkers::{Redundant, Cancelled}`) -/
  runners : List Run := []
  /-- `runners_shutdown` was taken and each runner notified -/
  told : Bool := false
deriving DecidableEq, Repr

/-- A signal, a step of the main task or of a runner (`crates/abq_cli/src/workers.rs:46-248`). -/
inductive Act where
  /-- the process receives a signal to terminate; its handler is installed at workers.rs:75, so that it is kept for `term_signals` -/
  | signal
  /-- the negotiation ends with a pool of this many runners, the first of which generates the manifest if asked, or without
  a pool -/
  | negotiated (n : Nat) (asked : Bool)
  /-- the negotiation fails: workers.rs:118 `unwrap` -/
  | failed
  /-- a runner goes on -/
  | runner (i : Nat) (a : RunnerStart.Act)
  /-- a runner sees that it is to shut down, and does (`select!` in `run_async`) -/
  | notice (i : Nat)
  /-- the loop takes the branch of `worker_pool.wait()`, which is ready when all runners have completed -/
  | done
  /-- the loop takes the branch of `term_signals.next()` -/
  | caught
  /-- the rest of `do_shutdown`, with the exit code it comes to (`Model/Pool.lean`, `Model/WorkerReport.lean`), or the rest of
  `do_cancellation_shutdown` -/
  | finish (code : Int)
deriving DecidableEq, Repr

/-- A runner's task has ended (`crates/abq_workers/src/workers.rs:403-430`). -/
def hasEnded (r : Run) : Bool :=
  match r.stage with
  | .ended _ => true
  | _ => false

/-- A runner's task has panicked: joining it panics (`abq_workers/src/workers.rs:279-281` `expect`). -/
def hasPanicked (r : Run) : Bool :=
  match r.stage with
  | .ended .panic => true
  | _ => false

/-- `abq_workers/src/workers.rs:164-189`: runners are started in order, the first with the manifest to generate. -/
def pool (n : Nat) (asked : Bool) : List Run := (List.range n).map fun i => { asked := asked && i == 0 }

/-- `exit.rs:12` `ExitCode::CANCELLED`. -/
def cancelledExit : Int := 1

/-- One step (`crates/abq_cli/src/workers.rs:46-248`). -/
def Worker.step (w : Worker) : Act → Worker
  | .signal => { w with pending := w.pending + 1 }
  | .negotiated n asked =>
    match w.phase with
    | .negotiating => { w with phase := .running, runners := pool n asked }
    | _ => w
  | .failed =>
    match w.phase with
    | .negotiating => { w with phase := .panicked }
    | _ => w
  | .runner i a =>
    match w.phase, a with
    | .exited _, _ => w
    | .panicked, _ => w
    | _, .shutdown => w
    | _, a => { w with runners := w.runners.modify i (·.step a) }
  | .notice i =>
    match w.phase with
    | .exited _ => w
    | .panicked => w
    | _ => if w.told then { w with runners := w.runners.modify i (·.step .shutdown) } else w
  | .done =>
    match w.phase with
    | .running => if w.runners.all hasEnded then { w with phase := .finishing, told := true } else w
    | _ => w
  | .caught =>
    match w.phase with
    | .running => if 0 < w.pending then { w with phase := .cancelling, pending := w.pending - 1, told := true } else w
    | _ => w
  | .finish code =>
    match w.phase with
    | .finishing =>
      if w.runners.all hasEnded then { w with phase := if w.runners.any hasPanicked then .panicked else .exited code } else w
    | .cancelling =>
      if w.runners.all hasEnded then
        { w with phase := if w.runners.any hasPanicked then .panicked else .exited cancelledExit }
      else w
    | _ => w

/-- A schedule (`crates/abq_cli/src/workers.rs:46-248`). -/
def Worker.run (w : Worker) (as : List Act) : Worker := as.foldl Worker.step w

end Abq.WorkerSignals
