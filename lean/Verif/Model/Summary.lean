/-!
# The summary of a test suite

`crates/abq_cli/src/reporting/summary.rs`: `SuiteTracker` accumulates results and computes the numbers and the exit
code of `abq report`. Times are natural numbers (nanoseconds). Counters (`u64`) are natural numbers.
-/

namespace Abq.Summary

/-- `net_protocol/runners.rs` `Status`, without the payloads of the variants. -/
inductive Status where
  | failure | success | error | pending | todo | skipped | timedOut | nativeRunnerError
deriving DecidableEq, Repr

/-- `runners.rs` `Status::is_fail_like`. -/
def Status.isFailLike : Status → Bool
  | .failure | .error | .timedOut | .nativeRunnerError => true
  | .success | .pending | .todo | .skipped => false

/-- `net_protocol.rs:93-94` `WorkerRunner`: worker and runner number. -/
abbrev Runner := Nat × Nat

/-- What `account_result` receives (summary.rs:156): `run_number`, `work_id` and the fields of `test_result` it reads. -/
structure Result where
  runNumber : Nat
  workId : Nat
  id : String
  status : Status
  runtime : Nat
  file : Option String
  runner : Runner
deriving DecidableEq, Repr

/-- summary.rs:23-37 `StatusTag`. -/
inductive Tag where
  | neverFailed
  | alwaysFailed (internalError : Bool)
  | ultimatelySucceeded
  | ultimatelyFailed
deriving DecidableEq, Repr

/-- summary.rs:52-56 `TestStatus`, with the fields of its `OverallStatus`. -/
structure TestStatus where
  tag : Tag
  retried : Bool
  file : Option String
  runner : Runner
deriving DecidableEq, Repr

/-- summary.rs:72-77 `AggregatedMetrics`; `exit.rs`: SUCCESS is 0, FAILURE is 1, ABQ_ERROR is 101. -/
structure Metrics where
  failed : Nat
  retried : Nat
  exitCode : Nat
deriving DecidableEq, Repr

/-- summary.rs:85-99 the body of the loop of `AggregatedMetrics::new`. -/
def Metrics.count (m : Metrics) (s : TestStatus) : Metrics :=
  let m := { m with retried := m.retried + if s.retried then 1 else 0 }
  match s.tag with
  | .alwaysFailed internalError =>
    let m := { m with failed := m.failed + 1 }
    if internalError then { m with exitCode := 101 }
    else if m.exitCode = 0 then { m with exitCode := 1 }
    else m
  | .neverFailed | .ultimatelySucceeded | .ultimatelyFailed => m

/-- summary.rs:80-107 `AggregatedMetrics::new`. -/
def aggregate (l : List TestStatus) : Metrics := l.foldl Metrics.count ⟨0, 0, 0⟩

/-- summary.rs:110-131 `SuiteTracker`. A `HashMap` is an association list in some order; which order is settled by
`C41_any_order`. -/
structure Tracker where
  testTime : Nat
  totalAttempts : Nat
  tests : List (String × TestStatus)
  delayed : List (Nat × List (String × TestStatus))
  cached : Option (Nat × Metrics)
deriving DecidableEq, Repr

/-- summary.rs:141-152 `SuiteTracker::new`. -/
def Tracker.new : Tracker := ⟨0, 0, [], [], none⟩

/-- summary.rs:161-167 `make_new_test_status`. -/
def newStatus (r : Result) (tag : Tag) : TestStatus := ⟨tag, false, r.file, r.runner⟩

/-- summary.rs:173-182 `delayed_native_runner_errors.entry(work_id).or_default().push(..)`. -/
def pushDelayed (w : Nat) (x : String × TestStatus) :
    List (Nat × List (String × TestStatus)) → List (Nat × List (String × TestStatus))
  | [] => [(w, [x])]
  | (w', l) :: rest => if w' = w then (w', l ++ [x]) :: rest else (w', l) :: pushDelayed w x rest

/-- summary.rs:205-221 the new tag of an entry. -/
def Tag.next (t : Tag) (runNumber : Nat) (failLike : Bool) : Tag :=
  match t with
  | .neverFailed =>
    if failLike then (if runNumber = 1 then .alwaysFailed false else .ultimatelyFailed) else .neverFailed
  | .alwaysFailed b => if failLike then .alwaysFailed b else .ultimatelySucceeded
  | .ultimatelySucceeded => .ultimatelySucceeded
  | .ultimatelyFailed => .ultimatelyFailed

/-- summary.rs:201-227 what is done with the entry of the test. -/
def TestStatus.update (s : TestStatus) (r : Result) (isNew : Bool) : TestStatus :=
  { s with tag := s.tag.next r.runNumber r.status.isFailLike, retried := !isNew }

/-- `self.tests.get_mut(id)` and the update of that entry (summary.rs:196-227). -/
def updateEntry (r : Result) (isNew : Bool) : List (String × TestStatus) → List (String × TestStatus)
  | [] => []
  | (k, s) :: rest => if k = r.id then (k, s.update r isNew) :: rest else (k, s) :: updateEntry r isNew rest

/-- summary.rs:156-232 `account_result`. The times are added as `u64` (runners.rs:569-580): a release build wraps around. -/
def Tracker.account (t : Tracker) (r : Result) : Tracker :=
  let t := { t with totalAttempts := t.totalAttempts + 1 }
  if r.status = .nativeRunnerError then
    { t with delayed := pushDelayed r.workId (r.id, newStatus r (.alwaysFailed true)) t.delayed }
  else
    let isNew := !(t.tests.map (·.1)).contains r.id
    let tests := if isNew then t.tests ++ [(r.id, newStatus r .neverFailed)] else t.tests
    { t with
      tests := updateEntry r isNew tests
      testTime := (t.testTime + r.runtime) % 18446744073709551616
      delayed := t.delayed.filter (fun p => p.1 ≠ r.workId) }

/-- summary.rs:248-258 `iter_all_test_statuses`. -/
def Tracker.statuses (t : Tracker) : List TestStatus :=
  t.tests.map (·.2) ++ (t.delayed.flatMap (·.2)).map (·.2)

/-- summary.rs:234-246 `load_aggregated_metrics`; the cell is written through a shared reference. -/
def Tracker.load (t : Tracker) : Metrics × Tracker :=
  match t.cached with
  | some (dirtyBit, metrics) =>
    if dirtyBit = t.totalAttempts then (metrics, t)
    else
      let metric := aggregate t.statuses
      (metric, { t with cached := some (t.totalAttempts, metric) })
  | none =>
    let metric := aggregate t.statuses
    (metric, { t with cached := some (t.totalAttempts, metric) })

/-- `.entry(file).and_modify(|c| *c += 1).or_insert(1)` (summary.rs:292-296, summary.rs:304-308). -/
def bump (file : String) : List (String × Nat) → List (String × Nat)
  | [] => [(file, 1)]
  | (f, n) :: rest => if f = file then (f, n + 1) :: rest else (f, n) :: bump file rest

/-- `abq_reporting/src/output.rs` `RunnerSummary`. -/
structure RunnerSummary where
  runner : Runner
  failuresPerFile : List (String × Nat)
  retriesPerFile : List (String × Nat)
deriving DecidableEq, Repr

/-- summary.rs:289-310 what is done with the summary of the test's runner. -/
def RunnerSummary.count (s : RunnerSummary) (t : TestStatus) : RunnerSummary :=
  let s := match t.tag, t.file with
    | .alwaysFailed false, some file => { s with failuresPerFile := bump file s.failuresPerFile }
    | _, _ => s
  if t.retried then
    match t.file with
    | some file => { s with retriesPerFile := bump file s.retriesPerFile }
    | none => s
  else s

/-- The order of the keys of `runner_summaries` (summary.rs:273: a `BTreeMap`; the order is derived at `net_protocol.rs:93-94`). -/
def Runner.lt (a b : Runner) : Bool := a.1 < b.1 || (a.1 == b.1 && a.2 < b.2)

/-- summary.rs:280-287 `runner_summaries.entry(test.runner).or_insert_with(..)` in a map ordered by its keys, and the update. -/
def countRunner (t : TestStatus) : List RunnerSummary → List RunnerSummary
  | [] => [RunnerSummary.count ⟨t.runner, [], []⟩ t]
  | s :: rest =>
    if s.runner = t.runner then s.count t :: rest
    else if Runner.lt t.runner s.runner then RunnerSummary.count ⟨t.runner, [], []⟩ t :: s :: rest
    else s :: countRunner t rest

/-- `reporting.rs:115-130` `SuiteResult`, without the wall time. -/
structure SuiteResult where
  exitCode : Nat
  count : Nat
  countFailed : Nat
  testsRetried : Nat
  testTime : Nat
  runnerSummaries : List RunnerSummary
deriving DecidableEq, Repr

/-- summary.rs:260-322 `suite_result`, and the tracker with its cache afterwards. -/
def Tracker.suiteResult (t : Tracker) : SuiteResult × Tracker :=
  let (m, t) := t.load
  let (count, summaries) := t.statuses.foldl (fun (acc : Nat × List RunnerSummary) s =>
    (acc.1 + 1, countRunner s acc.2)) (0, [])
  ({ exitCode := m.exitCode, count, countFailed := m.failed, testsRetried := m.retried,
     testTime := t.testTime, runnerSummaries := summaries }, t)

/-- The calls a user of `SuiteTracker` makes (the public methods, summary.rs:156-322). -/
inductive Call where
  | account (r : Result)
  | suiteResult
deriving DecidableEq, Repr

/-- A tracker after calls, with the answers so far (summary.rs:156-322). -/
def call (s : Tracker × List SuiteResult) : Call → Tracker × List SuiteResult
  | .account r => (s.1.account r, s.2)
  | .suiteResult => (s.1.suiteResult.2, s.2 ++ [s.1.suiteResult.1])

/-- Calls from the beginning (summary.rs:141-322). -/
def calls (cs : List Call) : Tracker × List SuiteResult := cs.foldl call (.new, [])

/-- The answer after accounting results, in order (summary.rs:156-232, summary.rs:260-322). -/
def summarise (rs : List Result) : SuiteResult := (rs.foldl Tracker.account .new).suiteResult.1

end Abq.Summary
