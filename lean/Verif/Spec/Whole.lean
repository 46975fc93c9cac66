import Verif.Spec.Delivery
import Verif.Spec.EndToEnd
import Verif.Spec.Report

/-! # Vocabulary of C115: a run, from its manifest to the report -/

namespace Abq.Whole
open Abq.Retries (TestSpec)

/-- All results that runners produce in a run, attempt by attempt. -/
def reported (acts : List (RunsAct TestSpec)) (rid : RunId) (mx : Nat) (runners : List EndToEnd.Runner) : List Retries.Results :=
  runners.flatMap fun r => r.reported mx rid ((Runs.init : Runs TestSpec).run acts).events

/-- The attempt passed. -/
def Passed (x : Retries.Results) : Prop := ∀ y ∈ x.results, y.failed = false

/-- The native runner crashed on the attempt, or it took too long: its result is a placeholder. It has an id that was made up for it,
which the model of runners takes to be 0. -/
def Crashed (x : Retries.Results) : Prop := ∃ y ∈ x.results, y.id = 0

/-- The task of a runner that sends its results, after the steps `ds r`. -/
def sender (ds : EndToEnd.Runner → List (Delivery.Act Retries.Results)) (r : EndToEnd.Runner) : Delivery.Sender Retries.Results :=
  (Delivery.Sender.new Retries.Results r.batchSize).run (ds r)

/-- A run whose results all got to the queue: the queue and the runners did their part (as in C76), and each runner's results were
sent by a task that came to its end (as in C114). `detail` is an attempt as the report sees it, with its test's name, times and
output. Tests have distinct names, and an attempt has one result: the test's, or a placeholder if the native runner crashed. Ids of
placeholders are not those of results of a native runner. A placeholder has a status of its own, and the time 0
(`generic_test_runner/src/lib.rs:1366-1376`, `runners.rs:765`); other results have the time at which they were received
(`runners.rs:807`), and clocks were not set back between the attempts at a test. -/
structure Arrived (acts : List (RunsAct TestSpec)) (rid : RunId) (flat : List (TestSpec × Nat)) (mx : Nat)
    (runners : List EndToEnd.Runner) (ds : EndToEnd.Runner → List (Delivery.Act Retries.Results))
    (detail : Retries.Results → Report.Group) (name : Nat → String) : Prop where
  whole : EndToEnd.WholeRun acts rid flat mx runners
  sent : ∀ r ∈ runners, Delivery.taken (Delivery.Sender.new Retries.Results r.batchSize) (ds r)
    = r.reported mx rid ((Runs.init : Runs TestSpec).run acts).events
  ended : ∀ r ∈ runners, (sender ds r).finished = true
  ids : ∀ r ∈ runners, ∀ rs, .pipe (.result rs) ∈ r.schedule → ∀ y ∈ rs, y.id ≠ 0
  work : ∀ x ∈ reported acts rid mx runners, (detail x).workId = x.workId ∧ (detail x).runNumber = x.runNumber
  outcome : ∀ x ∈ reported acts rid mx runners, (detail x).results.map (·.status.isFailLike) = x.results.map (·.failed)
  single : ∀ x ∈ reported acts rid mx runners, (detail x).results.length = 1
  crashes : ∀ x ∈ reported acts rid mx runners, ∀ t ∈ (detail x).results, (t.status = .nativeRunnerError ↔ Crashed x)
  stamped : ∀ x ∈ reported acts rid mx runners, ∀ t ∈ (detail x).results, (t.timestamp = 0 ↔ Crashed x)
  named : ∀ x ∈ reported acts rid mx runners, ¬ Crashed x → ∀ t ∈ (detail x).results, t.id = name x.workId
  distinct : ∀ t ∈ flat, ∀ t' ∈ flat, name t.1.workId = name t'.1.workId → t.1.workId = t'.1.workId
  clock : ∀ x ∈ reported acts rid mx runners, ∀ x' ∈ reported acts rid mx runners, ¬ Crashed x → ¬ Crashed x' →
    x.workId = x'.workId → x.runNumber < x'.runNumber → (detail x).notLater (detail x')

/-- What the queue has then to record, in any order: the size of the manifest, and each batch that it received. -/
def toRecord (flat : List (TestSpec × Nat)) (runners : List EndToEnd.Runner)
    (ds : EndToEnd.Runner → List (Delivery.Act Retries.Results)) (detail : Retries.Results → Report.Group) : List Report.Line :=
  .summary flat.length :: runners.flatMap fun r => (sender ds r).received.map fun batch => .results (batch.map detail)

end Abq.Whole
