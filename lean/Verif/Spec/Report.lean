import Verif.Model.Report
import Verif.Spec.Summary
/-! # Vocabulary for reports -/

namespace Abq.Report

/-- The result groups received, in the order received. -/
def received (lines : List Line) : List Group :=
  lines.flatMap fun
    | .results gs => gs
    | .summary _ => []

/-- The manifest sizes received. -/
def summaries (lines : List Line) : List Nat :=
  lines.filterMap fun
    | .results _ => none
    | .summary n => some n

/-- The time of a group: of its first result. Groups without results come before all others. -/
def Group.notLater (a b : Group) : Prop :=
  match a.results.head?, b.results.head? with
  | none, _ => True
  | some _, none => False
  | some s, some t => s.timestamp ≤ t.timestamp

def Group.sameTime (a b : Group) : Prop := a.results.head?.map (·.timestamp) = b.results.head?.map (·.timestamp)

/-- Order by test, then time, then attempt. -/
def Group.precedes (a b : Group) : Prop :=
  a.workId < b.workId ∨ (a.workId = b.workId ∧
    ((a.notLater b ∧ ¬ a.sameTime b) ∨ (a.sameTime b ∧ a.runNumber ≤ b.runNumber)))

/-- The same test, time and attempt. -/
def Group.sameKey (a b : Group) : Prop :=
  a.workId = b.workId ∧ a.sameTime b ∧ a.runNumber = b.runNumber

/-- What reporters should be told of a group: its results in order, the output before all with the first, the output
after all with the last. -/
def Group.reported (g : Group) : List Reported :=
  match g.results with
  | [] => []
  | [t] => [⟨some g.before, t, g.after⟩]
  | t :: rest => ⟨some g.before, t, none⟩ :: (rest.dropLast.map fun t => ⟨none, t, none⟩)
      ++ (rest.getLast?.toList.map fun t => ⟨none, t, g.after⟩)

/-- The calls that reporters should get. -/
def pushes (gs : List Group) : List Event := gs.flatMap fun g => g.reported.map (.push g.runNumber ·)

/-- The results in the order in which they are accounted. -/
def history (gs : List Group) : List Summary.Result := gs.flatMap fun g => g.results.map (toResult g)

/-- A reporter that never answers with an error. -/
def Reporter.Fine (r : Reporter) : Prop := ∀ log e, r.refuses log e = false

/-- The group has a result, not a placeholder, with this id. -/
def Group.has (g : Group) (id : String) : Prop := ∃ t ∈ g.results, t.id = id ∧ t.status ≠ .nativeRunnerError

/-- The results of one run of a suite, with retries by the same runner: one group for a test and attempt; no group of a
later attempt is earlier by the clock, save for placeholders, which have no time; a test id belongs to one test, and occurs at most
once in a group. -/
structure OneRun (gs : List Group) : Prop where
  attempt : ∀ g ∈ gs, 1 ≤ g.runNumber
  one : gs.Pairwise fun g g' => ¬ (g.workId = g'.workId ∧ g.runNumber = g'.runNumber)
  clock : ∀ g ∈ gs, ∀ g' ∈ gs, (∃ id, g.has id) → (∃ id, g'.has id) → g.workId = g'.workId → g.runNumber < g'.runNumber →
    g.notLater g'
  owner : ∀ g ∈ gs, ∀ g' ∈ gs, ∀ id, g.has id → g'.has id → g.workId = g'.workId
  once : ∀ g ∈ gs, ∀ id, (g.results.filter fun t => t.id == id && decide (t.status ≠ .nativeRunnerError)).length ≤ 1

/-- Moreover, a test id occurs in the first attempt if it does in any. -/
structure SingleRun (gs : List Group) : Prop extends OneRun gs where
  first : ∀ g ∈ gs, ∀ id, g.has id → ∃ g' ∈ gs, g'.workId = g.workId ∧ g'.runNumber = 1 ∧ g'.has id

/-- The runner's results of first attempts, in the order received. -/
def firstAttempts (lines : List Line) (runner : Summary.Runner) : List TestResult :=
  (((received lines).filter fun g => g.runNumber = 1).flatMap (·.results)).filter fun t => t.runner = runner

end Abq.Report
