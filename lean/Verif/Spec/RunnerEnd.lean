import Verif.Model.RunnerEnd
import Verif.Spec.Pipeline

/-! # Vocabulary of C73, C74 and C75 -/

namespace Abq.RunnerEnd
open Abq.Retries Abq.Pipe

/-- The result the native runner yields in this step, if it does: for the test it is running. -/
def answer (l : Life) : Act → List Results
  | .pipe (.result rs) =>
    match l.pipe.runner with
    | .running w => [⟨w.spec.workId, w.runNumber, rs⟩]
    | _ => []
  | _ => []

/-- All results the native runner yields in the course of a schedule, in order. -/
def answers (l : Life) : List Act → List Results
  | [] => []
  | a :: as => answer l a ++ answers (l.step a) as

/-- A result that says that the test failed, as is reported when the native runner fails. -/
def Failure (r : Results) : Prop := ∃ id, r.results = [⟨id, true⟩]

end Abq.RunnerEnd
