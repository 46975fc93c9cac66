import Verif.Spec.RunEnds

/-!
# Vocabulary for requests and their answers

Lists up to order (`List.Perm`): everything that was asked, everything that was answered, and everything still open.
-/

namespace Abq.Spec
variable {T : Type}

/-- The requests to join made in a schedule. -/
def joinsAsked (acts : List (RunsAct T)) : List JoinParams :=
  acts.flatMap fun
    | .join p => [p]
    | _ => []

/-- The requests to join that were answered. -/
def joinsAnswered (evs : List (Event T)) : List JoinParams :=
  evs.flatMap fun
    | .joined p _ => [p]
    | _ => []

/-- The requests to join that have no answer yet. -/
def joinsOpen (σ : Runs T) : List JoinParams :=
  σ.pending.flatMap fun
    | .joinRemote p => [p]
    | .joinRead p => [p]
    | _ => []

/-- Who asked for tests of a run in a schedule. -/
def testsAsked (rid : RunId) (acts : List (RunsAct T)) : List Entity :=
  acts.flatMap fun
    | .request r (.nextWork e) => if r = rid then [e] else []
    | _ => []

/-- An answer to a request for tests: the run, who asked, the tests, and whether it says that there are no more. -/
abbrev Answer (T : Type) := RunId × Entity × List (WorkerTest T) × Bool

/-- The answers to requests for tests. -/
def answersMade (evs : List (Event T)) : List (Answer T) :=
  evs.flatMap fun
    | .work r e items eow => [(r, e, items, eow)]
    | _ => []

/-- The answers that were written to the connection of the one who asked. -/
def answersWritten (evs : List (Event T)) : List (Answer T) :=
  evs.flatMap fun
    | .delivered r e items eow => [(r, e, items, eow)]
    | _ => []

/-- The answers that could not be written to the connection of the one who asked. -/
def answersLost (evs : List (Event T)) : List (Answer T) :=
  evs.flatMap fun
    | .lost r e items eow => [(r, e, items, eow)]
    | _ => []

/-- The answers that are about to be written. -/
def answersOpen (σ : Runs T) : List (Answer T) :=
  σ.pending.flatMap fun
    | .respond r e items eow _ => [(r, e, items, eow)]
    | _ => []

end Abq.Spec
