import Verif.Model.Options
import Verif.Model.Output

/-!
# Colours

Where the reporters and reports set and reset colours (`crates/abq_reporting/src/{output,writer,colors}.rs`,
`crates/reporters/{dot,line}/src/lib.rs`, `crates/abq_cli/src/report.rs`), and when they are written (`crates/abq_cli/src/reporting.rs`).
The `termcolor` library (1.2.0) is modelled as it is on Unix. Errors of writing and flushing are left out, as in `Terminal` and `Output`.
-/

namespace Abq.Colors
open Summary (Status SuiteResult)
open Terminal (Text Call statusText)
open Output (Grouping Shown)

/-- `termcolor::Color`, as far as it is used (output.rs:414-454). -/
inductive Color where
  | green | red | yellow
deriving DecidableEq, Repr

/-- `termcolor::ColorSpec`, as far as it is used (output.rs:414-441). -/
structure Style where
  fg : Option Color
  bold : Bool
deriving DecidableEq, Repr

/-- What is done with a `WriteColor` (output.rs:456-479): `write!`, `set_color`, `reset`. -/
inductive Op where
  | text (t : Text)
  | set (s : Style)
  | reset
deriving DecidableEq, Repr

/-- output.rs:468-479 `with_color_spec`. -/
def withSpec (s : Style) (f : List Op) : List Op := .set s :: f ++ [.reset]

/-- output.rs:456-466 `with_color`. -/
def withColor (c : Color) (f : List Op) : List Op := withSpec ⟨some c, false⟩ f

/-- output.rs:414-419 `bold_spec`. -/
def boldSpec : Style := ⟨none, true⟩
/-- output.rs:421-426 `green_bold_spec`. -/
def greenBoldSpec : Style := ⟨some .green, true⟩
/-- output.rs:428-433 `yellow_bold_spec`. -/
def yellowBoldSpec : Style := ⟨some .yellow, true⟩
/-- output.rs:435-441 `failing_spec`. -/
def failingSpec (failing : Nat) : Style := if failing > 0 then ⟨some .red, true⟩ else ⟨none, false⟩

/-- output.rs:443-454 `status_color`. -/
def statusColor : Status → Color
  | .success => .green
  | .failure | .error | .timedOut | .nativeRunnerError => .red
  | .pending | .todo => .yellow
  | .skipped => .yellow

/-- output.rs:481-494 `format_status`. -/
def status (s : Status) : List Op := withColor (statusColor s) [.text (statusText s)]

/-- output.rs:21-25 `format_result_line`. -/
def resultLine (r : Terminal.Result) : List Op := [.text (r.name ++ ": ".toList)] ++ status r.status ++ [.text ['\n']]

/-- output.rs:28-37 `format_result_dot`. -/
def resultDot (s : Status) : List Op := withColor (statusColor s) [.text [Terminal.dot s]]

/-- output.rs:85-107 `format_non_interactive_progress`. -/
def progressOps (elapsed : Text) (run passed failing : Nat) : List Op :=
  [.text ("--- [abq progress] ".toList ++ elapsed ++ " ---\n".toList)]
    ++ withSpec boldSpec [.text ((toString run).toList ++ " tests run".toList)] ++ [.text ", ".toList]
    ++ withSpec greenBoldSpec [.text ((toString passed).toList ++ " passed".toList)] ++ [.text ", ".toList]
    ++ withSpec (failingSpec failing) [.text ((toString failing).toList ++ " failing".toList)] ++ [.text ['\n']]

/-- output.rs:210-316 `format_short_suite_summary`. -/
def shortSummary (g : Grouping) (wallTime testTime : Text) (s : SuiteResult) : List Op :=
  let summaries := Output.grouped g s.runnerSummaries
  [.text (Output.header ++ ['\n'])] ++ withSpec boldSpec [.text ("Finished in ".toList ++ wallTime)]
    ++ [.text (" (".toList ++ testTime ++ " spent in test code)\n".toList)]
    ++ withSpec greenBoldSpec [.text ((toString s.count).toList ++ " tests".toList)] ++ [.text ", ".toList]
    ++ withSpec (failingSpec s.countFailed) [.text ((toString s.countFailed).toList ++ " failures".toList)]
    ++ (if s.testsRetried > 0 then
          [.text ", ".toList] ++ withSpec yellowBoldSpec [.text ((toString s.testsRetried).toList ++ " retried".toList)] else [])
    ++ [.text (['\n'] ++ Output.part g "Retries".toList (·.retriesPerFile) summaries
        ++ Output.part g "Failures".toList (·.failuresPerFile) summaries)]

/-- output.rs:319-376 `format_test_result_summary`. -/
def resultSummary (r : Shown) : List Op :=
  [.text ("--- ".toList ++ r.name ++ ": ".toList)] ++ status r.status
    ++ [.text ((if r.runNumber ≠ 1 then " (attempt ".toList ++ (toString r.runNumber).toList ++ ")".toList else [])
      ++ " --- [worker ".toList ++ (toString r.worker).toList ++ "]\n".toList
      ++ Output.reported r.output ++ Output.captured "STDOUT".toList r.stdout ++ Output.captured "STDERR".toList r.stderr)]

/-- `report.rs:203-221` the loop of `print_report`. -/
def failures (formatted : Bool) : List Shown → List Op
  | [] => []
  | r :: rest =>
    match r.status with
    | .failure | .error | .nativeRunnerError | .timedOut =>
      (if formatted then [.text ['\n']] else []) ++ resultSummary r ++ failures true rest
    | .success | .pending | .todo | .skipped => failures formatted rest

/-- `report.rs:195-225` `print_report`. -/
def printReport (wallTime testTime : Text) (s : SuiteResult) (results : List Shown) : List Op :=
  failures false results ++ shortSummary .worker wallTime testTime s

/-- writer.rs:33-42 `warn_line`. -/
def warnLine (message : Text) : List Op := .set yellowBoldSpec :: .text "WARNING: ".toList :: .text message :: .text ['\n'] :: [.reset]

/-! ## Reporters -/

/-- What is written for a crash of the native runner (`dot/src/lib.rs:77-79`, `line/src/lib.rs:40-42`). -/
def crash (r : Terminal.Result) : List Op :=
  if r.status = .nativeRunnerError then [.text (r.output.getD "<no output>".toList ++ ['\n'])] else []

/-- `dot/src/lib.rs:48-104` the writes of `push_result` and `after_all_results`, after `n` results. -/
def dotsFrom (n : Nat) : List Call → List Op
  | [] => if n % 80 ≠ 0 then [.text ['\n']] else []
  | .push _ r :: calls =>
    resultDot r.status ++ (if (n + 1) % 80 = 0 then [.text ['\n']] else []) ++ crash r ++ dotsFrom (n + 1) calls
  | .tick _ :: calls => dotsFrom n calls

/-- `dot/src/lib.rs:23-112`: all writes of a reporter of dots. -/
def dots (calls : List Call) : List Op := dotsFrom 0 calls

/-- `line/src/lib.rs:30-64`: all writes of a reporter of lines. -/
def lines : List Call → List Op
  | [] => []
  | .push _ r :: calls => resultLine r ++ crash r ++ lines calls
  | .tick _ :: calls => lines calls

/-- A piece of a reporter of progress (`progress/src/lib.rs:73-133`). -/
def piece : Terminal.Piece → List Op
  | .blank => [.text ['\n']]
  | .result r => resultLine r
  | .progress elapsed run passed failing => progressOps elapsed run passed failing

/-- The writes of a reporter of progress to its buffer (`progress/src/lib.rs:73-133`). -/
def progress (interactive : Bool) (calls : List Call) : List Op := (Terminal.progress interactive calls).out.flatMap piece

/-- colors.rs:1-6 `ColorProvider`. -/
structure Provider where
  greenBold : Text
  redBold : Text
  bold : Text
  reset : Text

/-- colors.rs:9-14 `ANSI`. -/
def Provider.ansi : Provider := ⟨"\x1B[32;1m".toList, "\x1B[31;1m".toList, "\x1B[1m".toList, "\x1B[0m".toList⟩

/-- colors.rs:16-21 `NOCOLOR`. -/
def Provider.noColor : Provider := ⟨[], [], [], []⟩

/-- output.rs:64-83 `format_interactive_progress`: the message of the progress bar. -/
def bar (p : Provider) (elapsed : Text) (run passed failing : Nat) : Text :=
  p.bold ++ "> ABQ status".toList ++ p.reset ++ ['\n'] ++ p.bold ++ "> [".toList ++ elapsed ++ "] ".toList ++ (toString run).toList
    ++ " tests run".toList ++ p.reset ++ ", ".toList ++ p.greenBold ++ (toString passed).toList ++ " passed".toList ++ p.reset ++ ", ".toList
    ++ (if failing = 0 then p.reset else p.redBold) ++ (toString failing).toList ++ " failing".toList ++ p.reset ++ ['\n']

/-! ## Streams -/

/-- What `termcolor`'s `Ansi` writes for a color (output.rs:476). -/
def Color.code : Color → Text
  | .red => "\x1B[31m".toList
  | .green => "\x1B[32m".toList
  | .yellow => "\x1B[33m".toList

/-- What `termcolor`'s `Ansi` writes for the calls of output.rs:468-479; `set_color` resets first. -/
def Op.ansi : Op → Text
  | .text t => t
  | .set s => "\x1B[0m".toList ++ (if s.bold then "\x1B[1m".toList else []) ++ (s.fg.map Color.code).getD []
  | .reset => "\x1B[0m".toList

/-- What `termcolor`'s `NoColor` writes for the calls of output.rs:468-479. -/
def Op.plain : Op → Text
  | .text t => t
  | _ => []

/-- A `StandardStream` (reporting.rs:267-273) with or without colours: what is written. -/
def written (colours : Bool) (ops : List Op) : Text := ops.flatMap (if colours then Op.ansi else Op.plain)

/-- What the choice of colours depends on (reporting.rs:239-265, and `termcolor`). -/
structure Env where
  /-- standard output is a terminal -/
  stdoutTty : Bool
  /-- standard error is a terminal; the code does not look at it -/
  stderrTty : Bool
  githubActions : Option String
  buildkite : Option String
  circleci : Option String
  term : Option String
  /-- `NO_COLOR`, with any value -/
  noColor : Option String

/-- `termcolor::ColorChoice`, as far as it is used (reporting.rs:254-263). -/
inductive Choice where
  | auto | never
deriving DecidableEq

/-- reporting.rs:239-243 `is_ci_color_term`. -/
def Env.ciColorTerm (e : Env) : Bool :=
  e.githubActions = some "true" || e.buildkite = some "true" || e.circleci = some "true"

/-- reporting.rs:252-265 `StdoutPreferences::new`. -/
def Env.choice (e : Env) : Options.Color → Choice
  | .auto => if e.stdoutTty || e.ciColorTerm then .auto else .never
  | .never => .never

/-- `termcolor`'s `should_attempt_color`: whether a `StandardStream`, of standard output or standard error (reporting.rs:267-273),
writes colours. -/
def Env.attempt (e : Env) : Choice → Bool
  | .never => false
  | .auto =>
    match e.term with
    | none => false
    | some t => if t = "dumb" then false else e.noColor.isNone

/-- reporting.rs:295-300 the colours of the progress bar. -/
def Choice.provider : Choice → Provider
  | .auto => .ansi
  | .never => .noColor

end Abq.Colors
