import Verif.Spec.Recording
import Verif.Spec.ResultsLive
/-! # Vocabulary for the progress of the queue as a whole (C148) -/

namespace Abq.Recording
variable {T : Type}

/-- The queue after the first `n` choices of an endless schedule. -/
def State.at (enc : Report.Line → Results.Bytes) (σ : State T) (f : Nat → Act T) (n : Nat) : State T :=
  σ.run enc ((List.range n).map f)

/-- The queue takes nothing more for the run: no manifest and no results. -/
def TakesNoMore (enc : Report.Line → Results.Bytes) (σ : State T) (f : Nat → Act T) (rid : RunId) : Prop :=
  ∀ n, due rid (σ.at enc f n).log = due rid σ.log

/-- The handlers with something to record for a run do not wait for ever: as long as there is one, one of them goes on sooner or later. -/
def RecordersGoOn (enc : Report.Line → Results.Bytes) (σ : State T) (f : Nat → Act T) (rid : RunId) : Prop :=
  ∀ n, waiting rid (σ.at enc f n).handlers ≠ [] →
    ∃ m, n ≤ m ∧ ∃ i h, f m = .handle i ∧ (σ.at enc f m).handlers[i]? = some h ∧ waiting rid [h] ≠ []

/-- Nor do the handlers of requests for the results of the run. -/
def ReadersGoOn (enc : Report.Line → Results.Bytes) (σ : State T) (f : Nat → Act T) (rid : RunId) : Prop :=
  ∀ n, .read rid ∈ (σ.at enc f n).handlers →
    ∃ m, n ≤ m ∧ ∃ i, f m = .handle i ∧ (σ.at enc f m).handlers[i]? = some (.read rid)

/-- Nor do the recordings and reads of the file of the run. -/
def FileGoesOn (enc : Report.Line → Results.Bytes) (σ : State T) (f : Nat → Act T) (rid : RunId) : Prop :=
  ∀ n j, (∃ t ∈ ((σ.at enc f n).files rid).tasks, Results.Spec.job t = some j) →
    ∃ m, n ≤ m ∧ ∃ i out t, f m = .task rid i out ∧ ((σ.at enc f m).files rid).tasks[i]? = some t ∧ Results.Spec.job t = some j

/-- Again and again, a client asks for the results of the run while all its runners are done. -/
def AskedForEver (enc : Report.Line → Results.Bytes) (σ : State T) (f : Nat → Act T) (rid : RunId) : Prop :=
  ∀ n, ∃ m, n ≤ m ∧ f m = .call (.request rid .readCell) ∧
    ((σ.at enc f m).registry.get rid).map RunState.readCell = some .readFromCell

end Abq.Recording
