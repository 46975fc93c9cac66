import Verif.Model.Results

/-! # Vocabulary for the progress of recording and serving results (C147) -/

namespace Abq.Results.Spec
open Abq.Results

/-- The lines whose recording was begun. -/
def begun (evs : List Ev) : List Nat :=
  evs.filterMap fun | .planned id _ => some id | _ => none

/-- The lines whose recording is over, whether it succeeded or not. -/
def over (evs : List Ev) : List Nat :=
  evs.filterMap fun | .finished id _ => some id | _ => none

/-- The requests for results that were not put off. -/
def admitted (evs : List Ev) : List Nat :=
  evs.filterMap fun | .asked r => some r | _ => none

/-- The requests that were dealt with: the results were sent, or could not be read and the connection was closed. -/
def served (evs : List Ev) : List Nat :=
  evs.filterMap fun | .stream r _ => some r | .readFailed r => some r | _ => none

/-- A choice that begins no recording. -/
def NothingNew : Act → Prop
  | .results .. => False
  | .summary .. => False
  | _ => True

/-- What a task in progress is about. -/
inductive Job where
  /-- a line is recorded -/
  | recording (id : Nat)
  /-- the results are read for a client -/
  | request (r : Nat)
deriving DecidableEq

/-- What a task is about; the copy to the remote that may follow a recording is neither. -/
def job : Task → Option Job
  | .ack id _ _ => some (.recording id)
  | .op (.dump id _) _ _ => some (.recording id)
  | .finish id _ => some (.recording id)
  | .op (.read r) _ _ => some (.request r)
  | .op .toRemote _ _ => none

/-- The first choices of an endless schedule. -/
def first (f : Nat → Act) (n : Nat) : List Act := (List.range n).map f

/-- In the endless schedule `f` from `σ` on, a task about `j` does not wait for ever: as long as there is one, one of them goes on
sooner or later, with whatever success. -/
def GoesOn (σ : Res) (f : Nat → Act) (j : Job) : Prop :=
  ∀ n, (∃ t ∈ (run σ (first f n)).tasks, job t = some j) →
    ∃ m, n ≤ m ∧ ∃ i out t, f m = .resume i out ∧ (run σ (first f m)).tasks[i]? = some t ∧ job t = some j

end Abq.Results.Spec
