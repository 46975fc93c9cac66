import Verif.Model.WorkerExit

/-!
# Vocabulary of `Props/WorkerExit.lean`
-/

namespace Abq.Spec.WorkerExit
open Abq.WorkerExit

/-- The requests made to the hosted API, in order. -/
def requests (evs : List Ev) : List Request := evs.filterMap fun
  | .request r => some r
  | _ => none

/-- What was printed, in order. -/
def pieces (evs : List Ev) : List Piece := evs.filterMap fun
  | .printed p => some p
  | _ => none

/-- The outputs of native runners among what was printed, each with the runner under whose header it is. -/
def outputs : List Piece → List (Nat × List Nat)
  | .header k :: .output o :: ps => (k, o) :: outputs ps
  | _ :: ps => outputs ps
  | [] => []

/-- The errors of runners among what was printed, in order. -/
def workerErrors (ps : List Piece) : List String := ps.filterMap fun
  | .workerError m => some m
  | _ => none

/-- How often the reporters were finished. -/
def timesFinished (evs : List Ev) : Nat := evs.countP fun
  | .finished _ => true
  | _ => false

/-- The statuses that mean success. -/
def Success (code : Nat) : Prop := 200 ≤ code ∧ code ≤ 299

end Abq.Spec.WorkerExit
