import Verif.Model.Report
import Verif.Model.Pool

/-!
# The reports of a worker

`crates/abq_cli/src/workers/reporting.rs`: runners hand results to a task over an unbounded channel; the task accounts them
and tells the reporters. `crates/abq_cli/src/workers.rs:139-238` what `abq test` does at the end.
-/

namespace Abq.WorkerReport
open Abq.Report (Group TestResult Reported Reporter Event toResult)
open Abq.Summary (Tracker SuiteResult)

/-- `reporting.rs:12-16` `ReportingTask`, without the receiver. -/
structure Task where
  reporters : List Reporter
  tracker : Tracker

/-- reporting.rs:90-93 `for reporter in ..`: what a reporter answers is dropped. -/
def tellAll (e : Event) (rs : List Reporter) : List Reporter := rs.map (·.got e)

/-- reporting.rs:66-94 the loop over the results of a group; `before` and `after` are what `std::mem::take` left. -/
def Task.loop (g : Group) (before after : Option String) (t : Task) : List TestResult → Task
  | [] => t
  | r :: rest =>
    let t := { t with tracker := t.tracker.account (toResult g r) }
    let outputAfter := if rest.isEmpty then after else none
    let after := if rest.isEmpty then none else after
    let t := { t with reporters := tellAll (.push g.runNumber ⟨before, r, outputAfter⟩) t.reporters }
    Task.loop g none after t rest

/-- reporting.rs:52-95 `handle_associated_results`: `none` if the assertion fails. -/
def Task.handle (t : Task) (g : Group) : Option Task :=
  if g.results.isEmpty then none else some (t.loop g (some g.before) g.after g.results)

/-- reporting.rs:37-39 the groups of a message. -/
def Task.handleAll (t : Task) : List Group → Option Task
  | [] => some t
  | g :: gs =>
    match t.handle g with
    | none => none
    | some t => t.handleAll gs

/-- The task: at work, ended by a panic, or finished (reporting.rs:18-21 `FinalizedReporters`). -/
inductive State where
  | working (t : Task)
  | panicked
  | finished (suite : SuiteResult) (reporters : List Reporter)

/-- The task, the channel and the runners that hold a sender. `sent` is a ghost: what was sent so far (reporting.rs:12-16, reporting.rs:118-140). -/
structure Sys where
  state : State
  channel : List (List Group)
  live : List Nat
  sent : List Group

/-- A runner sends, a runner ends, the task takes a turn (reporting.rs:28-50, reporting.rs:133-139). -/
inductive Act where
  | send (runner : Nat) (gs : List Group)
  | quit (runner : Nat)
  | task
deriving DecidableEq, Repr

/-- reporting.rs:35-50 one turn of `work_forever`. -/
def State.turn (channel : List (List Group)) (live : List Nat) (t : Task) : State × List (List Group) :=
  match channel with
  | gs :: rest =>
    match t.handleAll gs with
    | none => (.panicked, [])
    | some t => (.working t, rest)
  | [] =>
    if live.isEmpty then (.finished t.tracker.suiteResult.1 (tellAll .afterAll t.reporters), []) else (.working t, [])

/-- reporting.rs:133-139 `send_results` of a runner that is at work; a runner drops its sender when it ends; a turn of the task. A message
to a task that panicked is lost. -/
def Sys.step (s : Sys) : Act → Sys
  | .send r gs =>
    if s.live.contains r then
      { s with
        channel := match s.state with
          | .working _ => s.channel ++ [gs]
          | _ => s.channel
        sent := s.sent ++ gs }
    else s
  | .quit r => { s with live := s.live.filter (· ≠ r) }
  | .task =>
    match s.state with
    | .working t => { s with state := (State.turn s.channel s.live t).1, channel := (State.turn s.channel s.live t).2 }
    | _ => s

/-- reporting.rs:150-166 `create_reporting_task`, with runners `1..n`. -/
def Sys.init (reporters : List Reporter) (n : Nat) : Sys :=
  ⟨.working ⟨reporters, .new⟩, [], (List.range n).map (· + 1), []⟩

/-- A schedule (reporting.rs:28-50, reporting.rs:133-139). -/
def Sys.run (s : Sys) (acts : List Act) : Sys := acts.foldl Sys.step s

/-- reporting.rs:99-111 `FinalizedReporters::finish`: every reporter is finished; the reporters afterwards, and how many errors. -/
def finishAll (reporters : List Reporter) : List Reporter × Nat :=
  (tellAll .finish reporters, reporters.countP fun r => r.refuses r.log .finish)

/-- `workers.rs:139-238` `do_shutdown`: the exit code of `abq test`, given how the pool ended; joining a task that panicked
panics, and a process that panics exits with 101. `none` while the task is at work. -/
def Sys.exitCode (s : Sys) (pool : Pool.Status) : Option Int :=
  match s.state with
  | .working _ => none
  | .panicked => some 101
  | .finished suite _ => some (Pool.processExitCode suite.exitCode pool)

end Abq.WorkerReport
