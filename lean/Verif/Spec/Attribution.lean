import Verif.Model.Attribution
import Verif.Spec.Capture

/-!
# Vocabulary: the output in a report
-/

namespace Abq.Spec
open Abq.Attribution Abq.Capture

/-- One of the two streams. -/
def ofStream (w : Which) (s : Stdio) : List Byte := match w with | .out => s.stdout | .err => s.stderr

/-- The output attached to a result. -/
def ofResult (w : Which) (r : TestResult) : List Byte :=
  match w with | .out => r.stdout.getD [] | .err => r.stderr.getD []

/-- All the output in the report of a test, from the beginning to the end. -/
def reportedOutput (w : Which) (a : Associated) : List Byte :=
  ofStream w a.beforeAny ++ a.results.flatMap (ofResult w) ++ (a.afterAll.map (ofStream w)).getD []

/-- The results in an answer of the native runner. -/
def resultsIn : Msg → List TestResult
  | .single r => [r]
  | .multiple rs => rs
  | .one r => [r]
  | .done l => l.toList

/-- A proper sequence of answers: one complete answer, or incremental results and an end. -/
inductive Answers : List (Msg × Stdio) → Prop
  | single (r : TestResult) (c : Stdio) : Answers [(.single r, c)]
  | multiple (rs : List TestResult) (c : Stdio) : Answers [(.multiple rs, c)]
  | incremental (rs : List (TestResult × Stdio)) (last : Option TestResult) (c : Stdio) :
      Answers (rs.map (fun x => (.one x.1, x.2)) ++ [(.done last, c)])

/-- How often the output captured with an answer is in the report: once for each result of a message with several results or none. -/
def timesReported : Msg → Nat
  | .multiple rs => rs.length
  | _ => 1

end Abq.Spec
