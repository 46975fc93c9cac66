/-!
# The background job that does not overlap itself

`crates/abq_cli/src/instance/periodic_job.rs`, used for offloading at `crates/abq_cli/src/instance.rs:183-214`. Any
number of triggers, each its own task; every action is one atomic step.
-/

namespace Abq.Job

/-- A call of `run` (`periodic_job.rs:26-41`). -/
inductive Call where
  /-- before the compare-exchange of `periodic_job.rs:29-32` -/
  | notStarted
  /-- after `periodic_job.rs:36`, the job's future is being awaited at `:38` -/
  | active
  /-- the job is done, before `periodic_job.rs:40` -/
  | jobDone
  /-- returned after running the job -/
  | ran
  /-- returned at `periodic_job.rs:35` without running the job -/
  | skipped
  /-- the job panicked or the task was dropped in the middle of the job -/
  | died
deriving DecidableEq, Repr

/-- `periodic_job.rs:5-9` the shared flag, and all the calls. -/
structure St where
  isActive : Bool
  calls : List Call
deriving DecidableEq, Repr

/-- `periodic_job.rs:18-24` `new`, with `n` triggers to come (`instance.rs:183-214`). -/
def init (n : Nat) : St := ⟨false, List.replicate n .notStarted⟩

/-- Steps of the calls of `run` (`periodic_job.rs:26-41`), each in a task of its own. -/
inductive Act where
  /-- call `i` makes its compare-exchange -/
  | start (i : Nat)
  /-- the job of call `i` completes -/
  | complete (i : Nat)
  /-- call `i` stores `false` and returns -/
  | finish (i : Nat)
  /-- the job of call `i` panics -/
  | die (i : Nat)
deriving DecidableEq, Repr

/-- periodic_job.rs:26-41 `run`, step by step. -/
def St.step (s : St) : Act → St
  | .start i =>
    match s.calls[i]? with
    | some .notStarted =>
      if s.isActive then { s with calls := s.calls.set i .skipped }
      else { s with isActive := true, calls := s.calls.set i .active }
    | _ => s
  | .complete i =>
    match s.calls[i]? with
    | some .active => { s with calls := s.calls.set i .jobDone }
    | _ => s
  | .finish i =>
    match s.calls[i]? with
    | some .jobDone => { isActive := false, calls := s.calls.set i .ran }
    | _ => s
  | .die i =>
    match s.calls[i]? with
    | some .active => { s with calls := s.calls.set i .died }
    | _ => s

/-- A schedule of the calls of `run` (`periodic_job.rs:26-41`). -/
def St.run (s : St) (as : List Act) : St := as.foldl St.step s

end Abq.Job
