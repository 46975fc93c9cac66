import Verif.Model.RunnerStart

/-! # Vocabulary of C77 -/

namespace Abq.RunnerStart

/-- The messages sent, in order. -/
def sentIn (evs : List Event) : List Msg := evs.filterMap fun | .sent m => some m | _ => none

/-- What the queue learns of the manifest. -/
def answersIn (evs : List Event) : List Msg := (sentIn evs).filter fun m => m = .manifest ∨ m = .manifestError

/-- The native runner could not be started for the manifest, or did not yield it. -/
def Failed (evs : List Event) : Prop := .launchFailed true ∈ evs ∨ .noManifest ∈ evs

/-- The native runners started, or tried to be: whether they were asked for the manifest. -/
def launchesIn (evs : List Event) : List Bool :=
  evs.filterMap fun | .launched g => some g | .launchFailed g => some g | _ => none

/-- The queue could not be reached, or the output of the native runner not be collected. -/
def lossy : Event → Prop
  | .lost _ | .resultsLost | .outputLost => True
  | _ => False

/-- How many steps of a schedule change anything. -/
def changes : Run → List Act → Nat
  | _, [] => 0
  | r, a :: as => (if r.step a = r then 0 else 1) + changes (r.step a) as

def Run.ended (r : Run) (o : Outcome) : Prop := r.stage = .ended o

end Abq.RunnerStart
