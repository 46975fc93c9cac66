import Verif.Spec.EndToEnd
import Verif.Spec.Report

/-! # Vocabulary of C102: what the report says of a whole run -/

namespace Abq.Green

/-- The results of one attempt at a test as a worker keeps them for its retries, and in full as they are sent, recorded and
reported. -/
structure Says (x : Retries.Results) (g : Report.Group) : Prop where
  work : g.workId = x.workId
  attempt : g.runNumber = x.runNumber
  failures : g.results.map (·.status.isFailLike) = x.results.map (·.failed)

/-- What is expected of native runners and clocks: no group of a later attempt is earlier by the clock; a test id belongs to one
test of the manifest, and occurs at most once in a group. What a worker reports in place of results, when the native runner crashed,
comes with the time 0 (`generic_test_runner/src/lib.rs:1366-1376`, `runners.rs:765`); results come with the time at which the worker
got them (`runners.rs:807`). -/
structure Plausible (gs : List Report.Group) : Prop where
  clock : ∀ g ∈ gs, ∀ g' ∈ gs, (∃ id, g.has id) → (∃ id, g'.has id) → g.workId = g'.workId → g.runNumber < g'.runNumber →
    g.notLater g'
  stamped : ∀ g ∈ gs, ∀ t ∈ g.results, t.timestamp = 0 ↔ t.status = .nativeRunnerError
  owner : ∀ g ∈ gs, ∀ g' ∈ gs, ∀ id, g.has id → g'.has id → g.workId = g'.workId
  once : ∀ g ∈ gs, ∀ id, (g.results.filter fun t => t.id == id && decide (t.status ≠ .nativeRunnerError)).length ≤ 1
  /-- what is reported in place of results when the native runner crashed is reported alone -/
  alone : ∀ g ∈ gs, ∀ t ∈ g.results, t.status = .nativeRunnerError → g.results = [t]

/-- Moreover, whatever is reported in any attempt at a test is reported in the first. -/
structure Sane (gs : List Report.Group) : Prop extends Plausible gs where
  first : ∀ g ∈ gs, ∀ id, g.has id → ∃ g' ∈ gs, g'.workId = g.workId ∧ g'.runNumber = 1 ∧ g'.has id

/-- The test with this id, of this piece of work, passed (or was skipped) in one of the attempts. -/
def Passed (gs : List Report.Group) (work : Nat) (id : String) : Prop :=
  ∃ g ∈ gs, g.workId = work ∧ ∃ t ∈ g.results, t.id = id ∧
    (t.status = .success ∨ t.status = .skipped ∨ t.status = .pending ∨ t.status = .todo)

/-- A piece of work of the manifest passed: whatever was reported for it, in whichever attempt, passed in one of the attempts;
and if the native runner crashed on it, there are results from another attempt. -/
def AllPassed (gs : List Report.Group) (work : Nat) : Prop :=
  ∀ g ∈ gs, g.workId = work → ∀ t ∈ g.results,
    if t.status = .nativeRunnerError then ∃ g' ∈ gs, g'.workId = work ∧ ∃ id, g'.has id
    else Passed gs work t.id

/-- A piece of work of the manifest counts as passed: whatever was reported for it in the first attempt passed in one of the attempts;
and if the native runner crashed on it, there are results from another attempt, of whatever kind. -/
def FirstsPassed (gs : List Report.Group) (work : Nat) : Prop :=
  ∀ g ∈ gs, g.workId = work → ∀ t ∈ g.results,
    if t.status = .nativeRunnerError then ∃ g' ∈ gs, g'.workId = work ∧ ∃ id, g'.has id
    else g.runNumber = 1 → Passed gs work t.id

end Abq.Green
