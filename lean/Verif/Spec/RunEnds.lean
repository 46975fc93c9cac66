import Verif.Spec.AllRuns

/-!
# Vocabulary for the end of a run
-/

namespace Abq.Spec
variable {T : Type}

/-- The answer to a request for tests of a run: the tests, and whether it says that there are no more. -/
def answerIn (rid : RunId) : Event T → List (List (WorkerTest T) × Bool)
  | .work r _ items eow => if r = rid then [(items, eow)] else []
  | _ => []

/-- The answers to the requests for tests of a run, in order. -/
def answers (rid : RunId) (evs : List (Event T)) : List (List (WorkerTest T) × Bool) := evs.flatMap (answerIn rid)

/-- Who asked for tests of a run and was answered, in order. -/
def answered (rid : RunId) (evs : List (Event T)) : List Entity :=
  evs.filterMap fun
    | .work r e _ _ => if r = rid then some e else none
    | _ => none

/-- Who asked for tests of a run and has no answer yet. -/
def asking (rid : RunId) (σ : Runs T) : List Entity :=
  σ.pending.filterMap fun
    | .pulled r e _ => if r = rid then some e else none
    | .markEnd r e _ => if r = rid then some e else none
    | _ => none

end Abq.Spec
