import Verif.Model.Terminal
/-!
# Vocabulary for the terminal reporters
-/

namespace Abq.Terminal
open Summary (Status)

/-- The results a reporter was given, in order. -/
def given : List Call → List Result
  | [] => []
  | .push _ r :: rest => r :: given rest
  | .tick _ :: rest => given rest

/-- How many times a reporter was woken by the clock. -/
def ticksIn : List Call → Nat
  | [] => 0
  | .push _ _ :: rest => ticksIn rest
  | .tick _ :: rest => ticksIn rest + 1

/-- A result that counts against the suite. -/
def Failing (s : Status) : Prop := s = .failure ∨ s = .error ∨ s = .timedOut ∨ s = .nativeRunnerError

instance (s : Status) : Decidable (Failing s) := inferInstanceAs (Decidable (_ ∨ _ ∨ _ ∨ _))

/-- The letter for a result. -/
inductive Letter : Status → Char → Prop
  | passed : Letter .success '.'
  | failed : Letter .failure 'F'
  | timedOut : Letter .timedOut 'F'
  | error : Letter .error 'E'
  | crashed : Letter .nativeRunnerError 'E'
  | pending : Letter .pending 'P'
  | skipped : Letter .skipped 'S'
  | todo : Letter .todo 'S'

/-- Lines of exactly 80 letters, except that the last may be shorter. -/
inductive Rows : List Text → Prop
  | none : Rows []
  | last (row : Text) : row ≠ [] → row.length ≤ 80 → Rows [row]
  | full (row : Text) (rest : List Text) : row.length = 80 → Rows rest → Rows (row :: rest)

/-- The word for a result. -/
def word : Status → String
  | .failure => "FAILED"
  | .success => "ok"
  | .error => "ERRORED"
  | .nativeRunnerError => "ERRORED"
  | .timedOut => "TIMED OUT"
  | .pending => "pending"
  | .todo => "todo"
  | .skipped => "skipped"

/-- Something worth a paragraph: a failing result, or how far the run is. -/
inductive Item where
  | failed (r : Result)
  | state (elapsed : Text) (run passed failing : Nat)
deriving DecidableEq, Repr

/-- What a call makes a reporter of progress show if the terminal is not interactive, given the calls before: each failing
result, and the numbers so far at the first, eleventh, twenty-first ... tick. -/
def shownAt (earlier : List Call) : Call → List Item
  | .push _ r => if Failing r.status then [.failed r] else []
  | .tick e =>
    if ticksIn earlier % 10 = 0 then
      [.state e (given earlier).length ((given earlier).countP (fun r => ¬ Failing r.status))
        ((given earlier).countP (fun r => Failing r.status))]
    else []

/-- What a reporter of progress shows, call by call. -/
def shown (earlier : List Call) : List Call → List Item
  | [] => []
  | c :: rest => shownAt earlier c ++ shown (earlier ++ [c]) rest

/-- The text of an item. -/
def Item.text : Item → Text
  | .failed r => r.name ++ (": " ++ word r.status ++ "\n").toList
  | .state e n p f =>
    "--- [abq progress] ".toList ++ e ++ (" ---\n" ++ toString n ++ " tests run, " ++ toString p ++ " passed, "
      ++ toString f ++ " failing\n").toList

/-- Paragraphs with an empty line between. -/
def paragraphs (items : List Item) : Text := ((items.map Item.text).intersperse ['\n']).flatten

/-- A result without what its test wrote. -/
def Result.silent (r : Result) : Result := { r with output := none, before := none, after := none }

def Call.silent : Call → Call
  | .push n r => .push n r.silent
  | .tick e => .tick e

end Abq.Terminal
