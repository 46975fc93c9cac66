import Verif.Model.Summary
/-!
# The report command

`crates/abq_cli/src/report.rs` and `report/ordered_results.rs`. Output is an abstract string. Errors of writing to
the terminal are left out.
-/

namespace Abq.Report
open Summary (Status Runner Tracker)

/-- `runners.rs:710-741, 825` `TestResult`: the fields read here. -/
structure TestResult where
  id : String
  status : Status
  runtime : Nat
  file : Option String
  runner : Runner
  timestamp : Nat
deriving DecidableEq, Repr

/-- `net_protocol.rs:563-571` `AssociatedTestResults`. -/
structure Group where
  workId : Nat
  runNumber : Nat
  results : List TestResult
  before : String
  after : Option String
deriving DecidableEq, Repr

/-- `net_protocol.rs:735-741` `ResultsLine`, with the size of the manifest of its `Summary`. -/
inductive Line where
  | results (gs : List Group)
  | summary (manifestSize : Nat)
deriving DecidableEq, Repr

/-! ## Ordering results -/

/-- `ordered_results.rs:46-52` `key_triple`. -/
def Group.key (g : Group) : Nat × Option Nat × Nat := (g.workId, g.results.head?.map (·.timestamp), g.runNumber)

/-- The derived order of `Option`: `None` is least (`ordered_results.rs:38, 73-75`). -/
def cmpOption : Option Nat → Option Nat → Ordering
  | none, none => .eq
  | none, some _ => .lt
  | some _, none => .gt
  | some a, some b => compare a b

/-- The derived order of a triple is lexicographic (`ordered_results.rs:38, 73-75`). -/
def cmpKey (a b : Nat × Option Nat × Nat) : Ordering :=
  (compare a.1 b.1).then ((cmpOption a.2.1 b.2.1).then (compare a.2.2 b.2.2))

/-- `ordered_results.rs:73-75` `cmp`. -/
def cmp (a b : Group) : Ordering := cmpKey a.key b.key

/-- The contract of `BinaryHeap::into_sorted_vec` (`ordered_results.rs:33-35`): the elements of the heap in ascending order. Which of two
elements with equal keys comes first is not specified. -/
structure IsSort (sort : List Group → List Group) : Prop where
  perm : ∀ l, (sort l).Perm l
  ascending : ∀ l, (sort l).Pairwise fun a b => cmp a b ≠ .gt

/-- `ordered_results.rs:22-31` `extend`: pushed onto the heap. -/
def extendHeap (heap gs : List Group) : List Group := heap ++ gs

/-! ## Reporters -/

/-- `abq_reporting/src/lib.rs:31-35` `ReportedResult`. -/
structure Reported where
  before : Option String
  result : TestResult
  after : Option String
deriving DecidableEq, Repr

/-- A call of a reporter (`Reporter`, `abq_reporting/src/lib.rs:50-67`). -/
inductive Event where
  | push (runNumber : Nat) (r : Reported)
  | afterAll
  | finish
deriving DecidableEq, Repr

/-- A reporter: the calls it received, and which call it answers with an error, given those before
(`abq_reporting/src/lib.rs:50-67`). -/
structure Reporter where
  log : List Event
  refuses : List Event → Event → Bool

/-- The reporter after a call (`abq_reporting/src/lib.rs:50-67`). -/
def Reporter.got (r : Reporter) (e : Event) : Reporter := { r with log := r.log ++ [e] }

/-- `for reporter in reporters.iter_mut() { reporter.push_result(..)?; }`: stops at the first error (`report.rs:352-354`). -/
def tell (e : Event) : List Reporter → List Reporter × Bool
  | [] => ([], true)
  | r :: rs =>
    if r.refuses r.log e then (r.got e :: rs, false)
    else
      let (rs, ok) := tell e rs
      (r.got e :: rs, ok)

/-! ## Processing results -/

/-- The locals of `process_results` (report.rs:123-126). -/
structure St where
  seen : List Nat
  tracker : Tracker
  tracked : List (Nat × TestResult)
  reporters : List Reporter

/-- What is passed to `account_result` (`report.rs:335`). -/
def toResult (g : Group) (t : TestResult) : Summary.Result :=
  ⟨g.runNumber, g.workId, t.id, t.status, t.runtime, t.file, t.runner⟩

/-- report.rs:335-361 the loop of `handle_result`; `before` and `after` are what `std::mem::take` left. -/
def handleLoop (g : Group) (before after : Option String) (s : St) : List TestResult → St × Bool
  | [] => (s, true)
  | t :: rest =>
    let s := { s with tracker := s.tracker.account (toResult g t) }
    let outputAfter := if rest.isEmpty then after else none
    let after := if rest.isEmpty then none else after
    let reported : Reported := ⟨before, t, outputAfter⟩
    let (rs, ok) := tell (.push g.runNumber reported) s.reporters
    let s := { s with reporters := rs }
    if ok then
      handleLoop g none after { s with tracked := s.tracked ++ [(g.runNumber, t)] } rest
    else (s, false)

/-- report.rs:313-364 `handle_result`. -/
def handle (s : St) (g : Group) : St × Bool :=
  let s := { s with seen := if s.seen.contains g.workId then s.seen else s.seen ++ [g.workId] }
  handleLoop g (some g.before) g.after s g.results

/-- report.rs:148-156 the loop over the ordered results. -/
def handleAll (s : St) : List Group → St × Bool
  | [] => (s, true)
  | g :: gs =>
    let (s, ok) := handle s g
    if ok then handleAll s gs else (s, false)

/-- `for reporter in reporters { reporter.finish(..)?; }` is `tell` with `finish`. Errors of `process_results`
(`report.rs:118-193`). -/
inductive Failure where
  | reporter
  | noSummary
  | incomplete (manifestSize seen : Nat)
deriving DecidableEq, Repr

/-- report.rs:134-145 what is done with a line. -/
def collectLine (acc : List Group × Option Nat) : Line → List Group × Option Nat
  | .results gs => (extendHeap acc.1 gs, acc.2)
  | .summary n => (acc.1, some n)

/-- report.rs:133-146 the loop over lines: the heap and the summary. -/
def collect (lines : List Line) : List Group × Option Nat := lines.foldl collectLine ([], none)

/-- What `process_results` leaves: the reporters, what was tracked, and the exit code or an error (`report.rs:118-193`). -/
structure Outcome where
  reporters : List Reporter
  tracked : List (Nat × TestResult)
  result : Except Failure Nat

/-- report.rs:118-193 `process_results`. -/
def process (sort : List Group → List Group) (reporters : List Reporter) (lines : List Line) : Outcome :=
  let (heap, runSummary) := collect lines
  let (s, ok) := handleAll ⟨[], .new, [], reporters⟩ (sort heap)
  if !ok then ⟨s.reporters, s.tracked, .error .reporter⟩
  else
    let reporters := s.reporters.map (·.got .afterAll)
    let (suiteResult, _) := s.tracker.suiteResult
    match runSummary with
    | none => ⟨reporters, s.tracked, .error .noSummary⟩
    | some manifestSize =>
      if manifestSize ≠ s.seen.length then ⟨reporters, s.tracked, .error (.incomplete manifestSize s.seen.length)⟩
      else
        let (reporters, ok) := tell .finish reporters
        if !ok then ⟨reporters, s.tracked, .error .reporter⟩
        else ⟨reporters, s.tracked, .ok suiteResult.exitCode⟩

/-- report.rs:195-225 `print_report`: the results that are printed, in order. -/
def printed (tracked : List (Nat × TestResult)) : List (Nat × TestResult) :=
  tracked.filter fun p =>
    match p.2.status with
    | .failure | .error | .nativeRunnerError | .timedOut => true
    | .success | .pending | .todo | .skipped => false

/-! ## Listing the tests of a runner -/

/-- report.rs:82-116 `print_tests_for_runner`: the printed lines. `sort_by_key` is a stable sort; so is `List.mergeSort`. -/
def testsForRunner (lines : List Line) (runner : Runner) : List String :=
  let groups := lines.flatMap fun
    | .results gs => gs
    | .summary _ => []
  let results := groups.flatMap fun g => if g.runNumber = 1 then g.results else []
  let ours := results.filter fun t => t.runner = runner
  (ours.mergeSort fun a b => decide (a.timestamp ≤ b.timestamp)).map (·.id)

end Abq.Report
