import Verif.Spec.Pipeline

/-! # Vocabulary for what is lost of a worker that dies (C156) -/

namespace Abq.Pipe
open Abq.Retries

/-- What the native runner says to this action, if it is one of its answers and it is running a test. -/
def answer (p : Pipe) (a : Act) : List Results :=
  match a, p.runner with
  | .result rs, .running w => [⟨w.spec.workId, w.runNumber, rs⟩]
  | _, _ => []

/-- All its answers in a schedule, in order. -/
def answers (p : Pipe) : List Act → List Results
  | [] => []
  | a :: as => answer p a ++ answers (step p a) as

end Abq.Pipe
