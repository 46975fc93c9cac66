import Verif.Model.Output
import Verif.Spec.Summary
import Verif.Spec.Terminal
/-!
# Vocabulary for the text of a report
-/

namespace Abq.Output
open Summary
open Terminal (Text)

/-- The number of the worker (the runner) that ran a test first. -/
def firstBy (g : Grouping) (results : List Result) : Option Nat :=
  results.head?.map fun r =>
    match g with
    | .worker => r.runner.1
    | .runner => r.runner.2

/-- The file of a test, as told by its first result. -/
def fileOf (results : List Result) : Option String := results.head?.bind (·.file)

/-- How many of the tests in a file that a worker (runner) was the first to run failed. -/
def failuresIn (g : Grouping) (h : List Result) (ids : List String) (k : Nat) (file : String) : Nat :=
  ids.countP fun id => failedTest (resultsOf h id) && firstBy g (resultsOf h id) == some k && fileOf (resultsOf h id) == some file

/-- How many of the tests in a file that a worker (runner) was the first to run were run more than once. -/
def retriesIn (g : Grouping) (h : List Result) (ids : List String) (k : Nat) (file : String) : Nat :=
  ids.countP fun id =>
    decide (2 ≤ (resultsOf h id).length) && firstBy g (resultsOf h id) == some k && fileOf (resultsOf h id) == some file

/-- A table: for workers (runners), files with numbers. -/
abbrev Table := List (Nat × List (String × Nat))

/-- The number in a row of a table. -/
def Table.Has (t : Table) (k : Nat) (file : String) (n : Nat) : Prop := ∃ files, (k, files) ∈ t ∧ (file, n) ∈ files

/-- Rows are ordered, and so are files in a row; there is no empty row, and each has a row of its own. -/
def Table.Tidy (t : Table) : Prop :=
  t.Pairwise (fun a b => a.1 < b.1) ∧ ∀ row ∈ t, row.2 ≠ [] ∧ row.2.Pairwise (fun a b => a.1 < b.1)

/-- Who is listed. -/
def who : Grouping → String
  | .worker => "worker"
  | .runner => "runner"

/-- The lines of a row. -/
def rowText (label : String) (row : Nat × List (String × Nat)) : Text :=
  ("    " ++ label ++ " " ++ toString row.1 ++ ":\n").toList ++
    row.2.flatMap fun x => "    ".toList ++ (toString x.2).toList.leftpad 5 ' ' ++ "   ".toList ++ x.1.toList ++ "\n".toList

/-- A table with a title; nothing if there are no rows. -/
def Table.text (title label : String) (t : Table) : Text :=
  if t = [] then []
  else ("\n" ++ title ++ ":\n\n").toList ++ ((t.map (rowText label)).intersperse ['\n']).flatten

/-- The first lines. -/
def numbers (wall time : Text) (tests failures retried : Nat) : Text :=
  ("--------------------------------------------------------------------------------\n" ++
   "------------------------------------- ABQ --------------------------------------\n" ++
   "--------------------------------------------------------------------------------\n" ++ "\n" ++ "Finished in ").toList
    ++ wall ++ " (".toList ++ time ++ " spent in test code)\n".toList
    ++ (toString tests ++ " tests, " ++ toString failures ++ " failures").toList
    ++ (if retried = 0 then [] else (", " ++ toString retried ++ " retried").toList) ++ "\n".toList

/-! ## Results -/

/-- Text that is to be on lines of its own. -/
def Ends (t : Text) : Prop := ∃ a, t = a ++ ['\n']

/-- Blank, tab, line feed, form feed or carriage return. -/
def White (c : Char) : Prop := c = ' ' ∨ c = '\t' ∨ c = '\n' ∨ c = '\x0C' ∨ c = '\r'

instance (c : Char) : Decidable (White c) := inferInstanceAs (Decidable (_ ∨ _ ∨ _ ∨ _ ∨ _))

/-- There is something other than white space in it. -/
def Visible (t : Text) : Prop := ∃ c ∈ t, ¬ White c

instance (t : Text) : Decidable (Visible t) := inferInstanceAs (Decidable (∃ c ∈ t, _))

/-- The text does not end with a line of white space that is not complete. -/
def EndsNeatly (t : Text) : Prop := ∀ a b, t = a ++ '\n' :: b → (∀ c ∈ b, White c) → b = [] ∨ Ends b

/-- The text, with a line break after it unless it ends with one. -/
def ownLines (t : Text) : Text := if t.getLast? = some '\n' then t else t ++ ['\n']

/-- The parts of a test's output that are shown: what it reported, and what was captured, each if something is visible. -/
def shownOutputs (r : Shown) : List Text := [r.output, r.stdout, r.stderr].filterMap fun o => o.filter Visible

/-- The line above a failing test. -/
def titleOf (r : Shown) : Text :=
  "--- ".toList ++ r.name ++ (": " ++ Terminal.word r.status ++ (if r.runNumber = 1 then "" else " (attempt " ++ toString r.runNumber ++ ")")
    ++ " --- [worker " ++ toString r.worker ++ "]\n").toList

/-- A captured output with the line above it. -/
def captureOf (kind : String) (o : Option Text) : Text :=
  match o.filter Visible with
  | some t => ("------ " ++ kind ++ "\n").toList ++ ownLines t
  | none => []

/-- What the test reported, on lines of its own. -/
def reportOf (o : Option Text) : Text :=
  match o.filter Visible with
  | some t => t ++ ['\n']
  | none => []

/-- The lines about a failing test: every line that is not the test's own begins on a new line. -/
def linesOf (r : Shown) : Text :=
  titleOf r ++ reportOf r.output ++ captureOf "STDOUT" r.stdout ++ captureOf "STDERR" r.stderr

end Abq.Output
