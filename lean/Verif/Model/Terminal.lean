import Verif.Model.Summary
/-!
# The reporters that write to the terminal

`crates/reporters/{dot,line,progress}/src/lib.rs` and the parts of `crates/abq_reporting/src/output.rs` they call. Text is
a list of characters. Colours, flushing and errors of writing are left out. Counters (`u64`) are natural numbers.
-/

namespace Abq.Terminal
open Summary (Status)

/-- What is written with `write!` (`abq_reporting/src/output.rs:21-37`), without colours. -/
abbrev Text := List Char

/-- `abq_reporting/src/lib.rs:31-35` `ReportedResult`, with the fields of its `test_result` that are read here. -/
structure Result where
  id : String
  name : Text
  status : Status
  output : Option Text
  before : Option Text
  after : Option Text
deriving DecidableEq, Repr

/-- The calls of a reporter before the last result (`lib.rs:50-67` `Reporter`): `push_result` and `tick`. The time that
passed since the start, as it is displayed, comes with a tick. -/
inductive Call where
  | push (runNumber : Nat) (r : Result)
  | tick (elapsed : Text)
deriving DecidableEq, Repr

/-- `output.rs:29-37` the character of a result. -/
def dot : Status → Char
  | .failure | .timedOut => 'F'
  | .success => '.'
  | .error | .nativeRunnerError => 'E'
  | .pending => 'P'
  | .skipped | .todo => 'S'

/-- `output.rs:481-494` `format_status`. -/
def statusText : Status → Text
  | .failure => "FAILED".toList
  | .success => "ok".toList
  | .error | .nativeRunnerError => "ERRORED".toList
  | .timedOut => "TIMED OUT".toList
  | .pending => "pending".toList
  | .todo => "todo".toList
  | .skipped => "skipped".toList

/-- `output.rs:21-25` `format_result_line`. -/
def resultLine (r : Result) : Text := r.name ++ ": ".toList ++ statusText r.status ++ ['\n']

/-- `output.rs:39-49` `SummaryKind`: what is kept for the end. -/
inductive Kept where
  | test (runNumber : Nat) (r : Result)
  | output (name : Text) (output : Text)
deriving DecidableEq, Repr

/-! ## Dots -/

/-- `dot/src/lib.rs:14-20` `DotReporter`. -/
structure Dots where
  out : Text
  numResults : Nat
  delayed : List Kept
deriving DecidableEq, Repr

/-- `dot/src/lib.rs:23-29` `new`. -/
def Dots.new : Dots := ⟨[], 0, []⟩

/-- `dot/src/lib.rs:10`. -/
def lineLimit : Nat := 80

/-- `dot/src/lib.rs:31-44` `maybe_push_delayed_output`. -/
def Dots.keep (d : Dots) (r : Result) : Option Text → Dots
  | some output => { d with delayed := d.delayed ++ [.output r.name output] }
  | none => d

/-- `dot/src/lib.rs:48-96` `push_result`. -/
def Dots.push (d : Dots) (runNumber : Nat) (r : Result) : Dots :=
  let d := { d with numResults := d.numResults + 1 }
  let d := { d with out := d.out ++ [dot r.status] }
  let d := if d.numResults % lineLimit = 0 then { d with out := d.out ++ ['\n'] } else d
  let d := d.keep r r.before
  let d :=
    if r.status = .nativeRunnerError then { d with out := d.out ++ r.output.getD "<no output>".toList ++ ['\n'] }
    else if r.status.isFailLike then { d with delayed := d.delayed ++ [.test runNumber r] }
    else d
  d.keep r r.after

/-- `dot/src/lib.rs:98` `tick` does nothing. -/
def Dots.call (d : Dots) : Call → Dots
  | .push n r => d.push n r
  | .tick _ => d

/-- `dot/src/lib.rs:100-104` `after_all_results`. -/
def Dots.afterAll (d : Dots) : Dots :=
  if d.numResults % lineLimit ≠ 0 then { d with out := d.out ++ ['\n'] } else d

/-- `dot/src/lib.rs:106-112` `finish` only flushes. All that a reporter of dots has written when it is finished. -/
def dots (calls : List Call) : Text := (calls.foldl Dots.call .new).afterAll.out

/-! ## Lines -/

/-- `line/src/lib.rs:9-17` `LineReporter`. -/
structure Lines where
  out : Text
  delayed : List Kept
deriving DecidableEq, Repr

/-- `line/src/lib.rs:30-52` `push_result`. -/
def Lines.push (l : Lines) (runNumber : Nat) (r : Result) : Lines :=
  let l := { l with out := l.out ++ resultLine r }
  if r.status = .nativeRunnerError then { l with out := l.out ++ r.output.getD "<no output>".toList ++ ['\n'] }
  else if r.status.isFailLike then { l with delayed := l.delayed ++ [.test runNumber r] }
  else l

/-- `line/src/lib.rs:29-54`: `tick` does nothing. -/
def Lines.call (l : Lines) : Call → Lines
  | .push n r => l.push n r
  | .tick _ => l

/-- `line/src/lib.rs:56-64` `after_all_results` does nothing and `finish` only flushes. -/
def lines (calls : List Call) : Text := (calls.foldl Lines.call ⟨[], []⟩).out

/-! ## Progress -/

/-- What a reporter of progress writes to its buffer (`progress/src/lib.rs:49-133`). -/
inductive Piece where
  /-- An empty line. -/
  | blank
  /-- `format_result_line`. -/
  | result (r : Result)
  /-- `output.rs:85-107` `format_non_interactive_progress`. -/
  | progress (elapsed : Text) (run passed failing : Nat)
deriving DecidableEq, Repr

/-- The text of a piece (`output.rs:52-107`). -/
def Piece.text : Piece → Text
  | .blank => ['\n']
  | .result r => resultLine r
  | .progress elapsed run passed failing =>
    "--- [abq progress] ".toList ++ elapsed ++ " ---\n".toList ++ (toString run).toList ++ " tests run, ".toList
      ++ (toString passed).toList ++ " passed, ".toList ++ (toString failing).toList ++ " failing\n".toList

/-- `progress/src/lib.rs:14-24` `ProgressReporter`. `bar` is the message of the progress bar: the numbers of tests run,
passed and failing (`output.rs:61-82`). `panicked` says that a subtraction of `u64` or `usize` went below zero. -/
structure Progress where
  interactive : Bool
  out : List Piece
  bar : Option (Nat × Nat × Nat)
  ticks : Nat
  numResults : Nat
  numFailing : Nat
  wroteFirst : Bool
  panicked : Bool
deriving DecidableEq, Repr

/-- `progress/src/lib.rs:27-47` `new`. -/
def Progress.new (interactive : Bool) : Progress := ⟨interactive, [], none, 0, 0, 0, false, false⟩

/-- `progress/src/lib.rs:62-71` `tick_interactive`; the elapsed time is left out. -/
def Progress.tickInteractive (p : Progress) : Progress :=
  if p.numResults < p.numFailing then { p with panicked := true }
  else { p with bar := some (p.numResults, p.numResults - p.numFailing, p.numFailing) }

/-- `progress/src/lib.rs:73-96` `tick_non_interactive`. -/
def Progress.tickNonInteractive (p : Progress) (elapsed : Text) : Progress :=
  if p.ticks = 0 then { p with panicked := true }
  else if (p.ticks - 1) % 10 ≠ 0 then p
  else
    let p := if p.wroteFirst then { p with out := p.out ++ [.blank] } else p
    if p.numResults < p.numFailing then { p with panicked := true }
    else
      { p with
        out := p.out ++ [.progress elapsed p.numResults (p.numResults - p.numFailing) p.numFailing]
        wroteFirst := true }

/-- `progress/src/lib.rs:49-60` `tick_progress`; `elapsed` if the tick is timed. -/
def Progress.tick (p : Progress) (elapsed : Option Text) : Progress :=
  let p := { p with ticks := p.ticks + if elapsed.isSome then 1 else 0 }
  if p.interactive then p.tickInteractive
  else
    match elapsed with
    | some e => p.tickNonInteractive e
    | none => p

/-- `progress/src/lib.rs:100-133` `push_result`. -/
def Progress.push (p : Progress) (r : Result) : Progress :=
  let p := { p with numResults := p.numResults + 1 }
  let p := { p with numFailing := p.numFailing + if r.status.isFailLike then 1 else 0 }
  let p :=
    if r.status.isFailLike then
      let p := if p.wroteFirst then { p with out := p.out ++ [.blank] } else p
      { p with out := p.out ++ [.result r], wroteFirst := true }
    else p
  p.tick none

/-- `progress/src/lib.rs:100-137` `push_result`, `tick`. -/
def Progress.call (p : Progress) : Call → Progress
  | .push _ r => p.push r
  | .tick e => p.tick (some e)

/-- The reporter after calls. `progress/src/lib.rs:139-151` `after_all_results` clears the bar and `finish` flushes. -/
def progress (interactive : Bool) (calls : List Call) : Progress := calls.foldl Progress.call (.new interactive)

/-- The text in its buffer (`progress/src/lib.rs:14-24`). -/
def Progress.text (p : Progress) : Text := p.out.flatMap Piece.text

end Abq.Terminal
