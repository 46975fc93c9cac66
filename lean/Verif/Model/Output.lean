import Verif.Model.Terminal
/-!
# The text of a report

`crates/abq_reporting/src/output.rs:111-402` and `crates/abq_cli/src/report.rs:195-225`. Text is a list of characters, and so are bytes
that a test wrote. Colours and errors of writing are left out. How a duration is written (with floating point numbers)
is left open: the texts of the durations are given.
-/

namespace Abq.Output
open Summary (Status Runner RunnerSummary SuiteResult)
open Terminal (Text statusText)

/-! ## The short summary -/

/-- `output.rs:148-153` `ShortSummaryGrouping`. -/
inductive Grouping where
  | worker | runner
deriving DecidableEq, Repr

/-- output.rs:185-190 `grouping_key`. -/
def Grouping.key : Grouping → Runner → Nat
  | .runner, r => r.2
  | .worker, r => r.1

/-- output.rs:192-201 `grouping_label`. -/
def Grouping.label : Grouping → Runner → Text
  | .runner, r => "runner ".toList ++ (toString r.2).toList
  | .worker, r => "worker ".toList ++ (toString r.1).toList

/-- `output.rs:134-142` `*map.entry(file).or_insert(0) += n`. -/
def addTo (l : List (String × Nat)) (x : String × Nat) : List (String × Nat) :=
  match l with
  | [] => [x]
  | (f, n) :: rest => if f = x.1 then (f, n + x.2) :: rest else (f, n) :: addTo rest x

/-- output.rs:133-143 `union`. -/
def union (a b : RunnerSummary) : RunnerSummary :=
  { a with
    failuresPerFile := b.failuresPerFile.foldl addTo a.failuresPerFile
    retriesPerFile := b.retriesPerFile.foldl addTo a.retriesPerFile }

/-- `output.rs:171-180` what is done with one summary; the map is ordered by its keys. -/
def groupOne (g : Grouping) (s : RunnerSummary) : List (Nat × RunnerSummary) → List (Nat × RunnerSummary)
  | [] => [(g.key s.runner, s)]
  | (k, existing) :: rest =>
    if k = g.key s.runner then (k, union existing s) :: rest
    else if g.key s.runner < k then (g.key s.runner, s) :: (k, existing) :: rest
    else (k, existing) :: groupOne g s rest

/-- output.rs:168-183 `grouped_runner_summaries`. -/
def grouped (g : Grouping) (l : List RunnerSummary) : List RunnerSummary :=
  (l.foldl (fun m s => groupOne g s m) []).map (·.2)

/-- output.rs:204-208 `ABQ_HEADER`. -/
def header : Text :=
  ("--------------------------------------------------------------------------------\n" ++
   "------------------------------------- ABQ --------------------------------------\n" ++
   "--------------------------------------------------------------------------------\n").toList

/-- `{: >5}` (`output.rs:277, 308`). -/
def pad (n : Nat) : Text := List.replicate (5 - (toString n).toList.length) ' ' ++ (toString n).toList

/-- `output.rs:264-268, 301-305` the files in a map ordered by name. Strings are ordered by their bytes, which is the order by their
characters. -/
def orderFiles (l : List (String × Nat)) : List (String × Nat) := l.mergeSort fun a b => decide (a.1 ≤ b.1)

/-- `output.rs:270-280, 295-311` the lines of one worker or runner. -/
def groupText (g : Grouping) (runner : Runner) (files : List (String × Nat)) : Text :=
  "    ".toList ++ g.label runner ++ ":\n".toList ++
    (orderFiles files).flatMap fun x => "    ".toList ++ pad x.2 ++ "   ".toList ++ x.1.toList ++ ['\n']

/-- `output.rs:259-262, 290-293` the loop over summaries: an empty line before each but the first. -/
def groupsText (g : Grouping) (files : RunnerSummary → List (String × Nat)) (i : Nat) : List RunnerSummary → Text
  | [] => []
  | s :: rest => (if i > 0 then ['\n'] else []) ++ groupText g s.runner (files s) ++ groupsText g files (i + 1) rest

/-- `output.rs:253-282, 284-313` a part of the summary. -/
def part (g : Grouping) (title : Text) (files : RunnerSummary → List (String × Nat)) (l : List RunnerSummary) : Text :=
  let l := l.filter fun s => !(files s).isEmpty
  if !l.isEmpty then ['\n'] ++ title ++ ":\n\n".toList ++ groupsText g files 0 l else []

/-- `output.rs:210-316` `format_short_suite_summary` as called in `reporting.rs:133-150`. -/
def shortSummary (g : Grouping) (wallTime testTime : Text) (s : SuiteResult) : Text :=
  let summaries := grouped g s.runnerSummaries
  header ++ ['\n'] ++ "Finished in ".toList ++ wallTime ++ " (".toList ++ testTime ++ " spent in test code)\n".toList
    ++ (toString s.count).toList ++ " tests".toList ++ ", ".toList ++ (toString s.countFailed).toList ++ " failures".toList
    ++ (if s.testsRetried > 0 then ", ".toList ++ (toString s.testsRetried).toList ++ " retried".toList else []) ++ ['\n']
    ++ part g "Retries".toList (·.retriesPerFile) summaries
    ++ part g "Failures".toList (·.failuresPerFile) summaries

/-! ## The summary of a result -/

/-- `u8::is_ascii_whitespace` (`output.rs:381`, `whitespace.rs:1-13`). -/
def ws (c : Char) : Bool := c = ' ' || c = '\t' || c = '\n' || c = '\x0C' || c = '\r'

/-- `whitespace.rs:1-13` `is_blank`. -/
def isBlank (t : Text) : Bool := t.all ws

/-- output.rs:378-391 `push_newline_if_needed`: what is written, given the bytes in reverse. -/
def trailingNewlines : Text → Nat
  | [] => 0
  | c :: rest => if ws c then (if c = '\n' then 1 else 0) + trailingNewlines rest else 0

/-- `output.rs:378-391` `push_newline_if_needed`. -/
def newlineIfNeeded (t : Text) : Text := if trailingNewlines t.reverse = 0 then ['\n'] else []

/-- The fields of a result that are read here, with the attempt (`output.rs:331-355`). -/
structure Shown where
  runNumber : Nat
  name : Text
  status : Status
  worker : Nat
  output : Option Text
  stdout : Option Text
  stderr : Option Text
deriving DecidableEq, Repr

/-- `output.rs:364-374` one of the two captured outputs. -/
def captured (kind : Text) : Option Text → Text
  | some output => if isBlank output then [] else "------ ".toList ++ kind ++ ['\n'] ++ output ++ newlineIfNeeded output
  | none => []

/-- `output.rs:357-362` what the test reported. -/
def reported : Option Text → Text
  | some output => if isBlank output then [] else output ++ ['\n']
  | none => []

/-- output.rs:319-376 `format_test_result_summary`. -/
def resultSummary (r : Shown) : Text :=
  "--- ".toList ++ r.name ++ ": ".toList ++ statusText r.status
    ++ (if r.runNumber ≠ 1 then " (attempt ".toList ++ (toString r.runNumber).toList ++ ")".toList else [])
    ++ " --- [worker ".toList ++ (toString r.worker).toList ++ "]\n".toList
    ++ reported r.output ++ captured "STDOUT".toList r.stdout ++ captured "STDERR".toList r.stderr

/-- `report.rs:203-221` the loop of `print_report`; `formatted` is `formatted_one_failure`. -/
def failures (formatted : Bool) : List Shown → Text
  | [] => []
  | r :: rest =>
    match r.status with
    | .failure | .error | .nativeRunnerError | .timedOut =>
      (if formatted then ['\n'] else []) ++ resultSummary r ++ failures true rest
    | .success | .pending | .todo | .skipped => failures formatted rest

/-- `report.rs:195-225` `print_report`. -/
def printReport (wallTime testTime : Text) (s : SuiteResult) (results : List Shown) : Text :=
  failures false results ++ shortSummary .worker wallTime testTime s

end Abq.Output
