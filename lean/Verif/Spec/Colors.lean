import Verif.Model.Colors

/-! # Vocabulary of C138 -/

namespace Abq.Spec.Colors
open Abq.Colors (Color Style Env)
open Abq.Summary (Status)
open Abq.Terminal (Text)

/-- How a terminal shows text before anything was set. -/
def normal : Style := ⟨none, false⟩

/-- A terminal reads a text, in the style it is in: the characters it shows, each with its style, and the style it is in then. It knows the
codes of ECMA-48 (`SGR`) for normal, bold, red, green and yellow, alone and together with bold. -/
def screen : Style → Text → List (Char × Style) × Style
  | _, '\x1B' :: '[' :: '0' :: 'm' :: rest => screen normal rest
  | s, '\x1B' :: '[' :: '1' :: 'm' :: rest => screen { s with bold := true } rest
  | s, '\x1B' :: '[' :: '3' :: '1' :: 'm' :: rest => screen { s with fg := some .red } rest
  | s, '\x1B' :: '[' :: '3' :: '2' :: 'm' :: rest => screen { s with fg := some .green } rest
  | s, '\x1B' :: '[' :: '3' :: '3' :: 'm' :: rest => screen { s with fg := some .yellow } rest
  | _, '\x1B' :: '[' :: '3' :: '1' :: ';' :: '1' :: 'm' :: rest => screen ⟨some .red, true⟩ rest
  | _, '\x1B' :: '[' :: '3' :: '2' :: ';' :: '1' :: 'm' :: rest => screen ⟨some .green, true⟩ rest
  | s, c :: rest => ((c, s) :: (screen s rest).1, (screen s rest).2)
  | s, [] => ([], s)

/-- The text a terminal shows. -/
def shown (t : Text) : Text := (screen normal t).1.map (·.1)

/-- The terminal is left as it was found. -/
def LeavesNormal (t : Text) : Prop := (screen normal t).2 = normal

/-- There is something red on the screen. -/
def Red (t : Text) : Prop := ∃ x ∈ (screen normal t).1, x.2.fg = some .red

/-- The text has no codes. -/
def NoCodes (t : Text) : Prop := '\x1B' ∉ t

/-- The result is shown as a failure. -/
def Failed : Status → Prop
  | .failure | .error | .timedOut | .nativeRunnerError => True
  | .success | .pending | .todo | .skipped => False

/-- The colour of a status: green if it is a success, red if something failed, yellow if the test was not run to its end. -/
def colourOf : Status → Color
  | .success => .green
  | .failure | .error | .timedOut | .nativeRunnerError => .red
  | .pending | .todo | .skipped => .yellow

/-- Standard output shows colours: it is a terminal or the log of a CI service that shows them, and neither `TERM` nor `NO_COLOR` says
otherwise. -/
def ShowsColours (e : Env) : Prop :=
  (e.stdoutTty = true ∨ e.githubActions = some "true" ∨ e.buildkite = some "true" ∨ e.circleci = some "true") ∧
  (∃ t, e.term = some t ∧ t ≠ "dumb") ∧ e.noColor = none

end Abq.Spec.Colors
