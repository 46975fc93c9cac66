import Verif.Model.Pipeline

/-!
# How the execution of tests ends, as the queue sees it

`crates/abq_runners/generic_test_runner/src/lib.rs:905-1070` `execute_all_tests` again, with what `Model/Pipeline.lean` leaves
out: the restart of the native runner for another attempt, which may fail (`lib.rs:988-991`); the message to the queue that all tests
were run (`lib.rs:1033, 1047`); and the time limit for a test (`lib.rs:1100-1129`), which also covers sending its results to the channel.
-/

namespace Abq.RunnerEnd
open Abq.Retries Abq.Pipe

/-- `attempt` is the run number of the native runner (`NativeRunnerHandle::run_number`), `failed` that `run_tests_task`
returned because a restart failed, `notified` that the queue was told that all tests were run (`lib.rs:981-1060`). -/
structure Life where
  pipe : Pipe
  attempt : Nat := 1
  failed : Bool := false
  notified : Bool := false
deriving DecidableEq, Repr

/-- Steps of the three tasks (`lib.rs:1063-1064`), with those that `Pipe.Act` leaves out. -/
inductive Act where
  | pipe (a : Pipe.Act)
  /-- the native runner cannot be restarted for another attempt -/
  | restartFails
  /-- the queue is told that all tests were run -/
  | notify
deriving DecidableEq, Repr

/-- `lib.rs:949-967`. -/
def init (sources : List (List Fetch.Resp)) (maxRun batchSize : Nat) : Life :=
  { pipe := Pipe.init sources maxRun batchSize }

/-- The attempt of the native runner: it was restarted before the test at hand was sent to it (`lib.rs:988-991`). -/
def Life.reconciled (l : Life) : Pipe.Act → Nat
  | .result _ | .crash =>
    match l.pipe.runner with
    | .running w => w.runNumber
    | _ => l.attempt
  | _ => l.attempt

/-- One step.

`restartFails`: `lib.rs:988-991`, the `?` leaves `run_tests_task`. Its sender of results is dropped with it, and so is the receiver of
tests: `flush` takes it by value (`lib.rs:1010`, `message_buffer.rs:187`), so the task owns it.

`notify`: `lib.rs:1033` after the results of a failure were sent to the channel; `lib.rs:1047` after `recv` returned `None`. (In the former
case the sender of results is dropped after that, here before it.) -/
def Life.step (l : Life) : Act → Life
  | .pipe a => { l with pipe := Pipe.step l.pipe a, attempt := l.reconciled a }
  | .restartFails =>
    match l.pipe.runner with
    | .running w =>
      if w.runNumber ≠ l.attempt then { l with pipe := { l.pipe with runner := .closed true, buf := l.pipe.buf.dropped }, failed := true }
      else l
    | _ => l
  | .notify =>
    match l.pipe.runner with
    | .closed _ => if l.failed then l else { l with notified := true }
    | _ => l

/-- A schedule of the three tasks (`lib.rs:1063-1064`). -/
def Life.run (l : Life) (as : List Act) : Life := as.foldl Life.step l

/-- `execute_all_tests` returned: all three tasks did, and `run_tests_task` only after the message to the queue was sent or
because of an error (`lib.rs:1063-1069`). -/
def Life.finished (l : Life) : Bool := l.pipe.finished && (l.notified || l.failed)

end Abq.RunnerEnd
