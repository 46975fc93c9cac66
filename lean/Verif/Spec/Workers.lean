import Verif.Spec.Whole
import Verif.Spec.WorkerReport

/-! # Vocabulary of C146: the workers of a run -/

namespace Abq.Whole
open Abq.Retries (TestSpec)

/-- A worker, that is a call of `abq test`: its runners, its reporters, what its reporting task and its runners do with each other,
and how its pool of runners ended. -/
structure Worker where
  runners : List EndToEnd.Runner
  reporters : List Report.Reporter
  schedule : List WorkerReport.Act
  pool : Pool.Status

/-- What is left of a schedule if all runners of the worker but one send nothing. -/
def onlyFrom (k : Nat) (acts : List WorkerReport.Act) : List WorkerReport.Act :=
  acts.filter fun
    | .send r _ => r == k
    | _ => true

/-- The reporting task of the worker at the end of the schedule. -/
def Worker.reporting (w : Worker) : WorkerReport.Sys := (WorkerReport.Sys.init w.reporters w.runners.length).run w.schedule

/-- The exit code of `abq test`, if it has ended. -/
def Worker.exitCode (w : Worker) : Option Int := w.reporting.exitCode w.pool

/-- The reporting task has come to its end. -/
def Worker.Reported (w : Worker) : Prop := ∃ suite reporters, w.reporting.state = .finished suite reporters

/-- Runners `1, 2, ...` of the worker sent their reporting task what they had to tell it (`Delivery.Sender.told`, C114), in any
order among each other. -/
def Worker.Sent (w : Worker) (ds : EndToEnd.Runner → List (Delivery.Act Retries.Results)) (detail : Retries.Results → Report.Group) :
    Prop :=
  ∀ i r, w.runners[i]? = some r →
    WorkerReport.sentBy w.runners.length (onlyFrom (i + 1) w.schedule) = (sender ds r).told.flatten.map detail

end Abq.Whole
