import Verif.Model.Summary
/-!
# Vocabulary for summaries

`History` is the list of results in the order in which they are accounted.
-/

namespace Abq.Summary

/-- A result of a test (as opposed to a placeholder, reported because the native runner crashed). -/
def Result.material (r : Result) : Bool := r.status ≠ .nativeRunnerError

/-- The results of one test. -/
def resultsOf (h : List Result) (id : String) : List Result := h.filter fun r => r.material && r.id == id

/-- The placeholders of tests for which no result came later. -/
def unresolved : List Result → List Result
  | [] => []
  | r :: later =>
    if !r.material && !later.any (fun r' => r'.material && r'.workId == r.workId) then r :: unresolved later
    else unresolved later

/-- A test failed: its first failure was in a first attempt, and it did not pass after that. -/
def failedTest (results : List Result) : Bool :=
  match results.dropWhile (fun r => !r.status.isFailLike) with
  | [] => false
  | r :: later => r.runNumber == 1 && later.all (·.status.isFailLike)

/-- A test failed in each of its attempts. -/
def failedAlways (results : List Result) : Bool := results ≠ [] && results.all (·.status.isFailLike)

/-- `ids` lists the tests that have results, each once. -/
def TestsOf (h : List Result) (ids : List String) : Prop := ids.Nodup ∧ ∀ id, id ∈ ids ↔ resultsOf h id ≠ []

/-- Attempts are numbered as in a single run of the suite: the first result of a test is of attempt 1, the others of
later attempts. -/
def NumberedAttempts (h : List Result) : Prop :=
  ∀ id r rest, resultsOf h id = r :: rest → r.runNumber = 1 ∧ ∀ r' ∈ rest, r'.runNumber ≠ 1

/-- The number kept for a file, 0 if there is none. -/
def numberOf (file : String) (l : List (String × Nat)) : Nat :=
  match l.find? (·.1 == file) with
  | some p => p.2
  | none => 0

/-- The summary of a runner. -/
def summaryOf (runner : Runner) (l : List RunnerSummary) : Option RunnerSummary := l.find? (·.runner == runner)

/-- The test was first run there. -/
def firstAt (runner : Runner) (file : String) (results : List Result) : Bool :=
  match results.head? with
  | some r => r.runner == runner && r.file == some file
  | none => false

/-- The results accounted in a list of calls. -/
def accounted (cs : List Call) : List Result :=
  cs.filterMap fun
    | .account r => some r
    | .suiteResult => none

end Abq.Summary
