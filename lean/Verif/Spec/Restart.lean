import Verif.Model.Restart

/-! # What a worker may be told that joins a run whose state was stored -/

namespace Abq.Spec.Restart
open Abq Abq.Restart
variable {T : Type}

/-- A worker was told to start the run, or to take part in a run that was just started. -/
def StartedAnew (rid : RunId) (o : Obs T) : Prop :=
  ∃ p generate differs, p.rid = rid ∧ o = .queue (.joined p (.fresh generate differs))

/-- The answer to a worker fits a run that came to its end with the stored state `d`: a worker that took
part may only run its tests again, another one may do so too if it asked for tests in the meantime, or is
told the exit code; or the worker is told that the queue failed. -/
def FitsEnded (d : RunDoc) (p : JoinParams) (a : Assigned) : Prop :=
  (∃ differs, a = .retry differs) ∨
  (a = .alreadyDone d.exit ∧ ∀ e ∈ d.seen, e.tag ≠ p.entity.tag) ∨
  a = .fatal

/-- A worker was told that there are no more tests: the run came to its end. -/
def ToldEnd (rid : RunId) (o : Obs T) : Prop :=
  ∃ e items, o = .queue (.delivered rid e items true)

end Abq.Spec.Restart
