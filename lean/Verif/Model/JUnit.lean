import Verif.Model.Summary
/-!
# The JUnit report

`crates/reporters/junit_xml/src/lib.rs`: the `Collector` of the reporter `junit-xml`. What the library `junit_report` writes is
taken to be what it is given, with the counts it derives from the test cases (its attributes `tests`, `errors`, `failures` and
`time`). Stripping escape codes from an output is a function `strip`.
-/

namespace Abq.JUnit
open Summary (Status)

/-- `runners.rs:552-556` `TestRuntime`; a number of milliseconds is given in nanoseconds here. -/
inductive Runtime where
  | milliseconds (ns : Nat)
  | nanoseconds (ns : Nat)
deriving DecidableEq, Repr

/-- The fields of `TestResult` that are read (junit_xml/src/lib.rs:28-46), with what `SuiteTracker` reads of it. -/
structure Item where
  name : String
  output : Option String
  time : Runtime
  view : Summary.Result
deriving DecidableEq, Repr

/-- The kinds of test cases made at junit_xml/src/lib.rs:66-95. -/
inductive Kind where
  | success
  | failure (type message : String)
  | error (type message : String)
  | skipped
deriving DecidableEq, Repr

/-- `junit_report::TestCase`; time in nanoseconds (made at junit_xml/src/lib.rs:66-95). -/
structure Case where
  name : String
  time : Int
  kind : Kind
deriving DecidableEq, Repr

/-- `as i64` of a `u64` (junit_xml/src/lib.rs:50). -/
def toI64 (n : Nat) : Int := if n < 9223372036854775808 then n else (n : Int) - 18446744073709551616

/-- junit_xml/src/lib.rs:48-51. `*ms as _` drops the fraction, and is at most the largest `i64`. -/
def Runtime.duration : Runtime → Int
  | .milliseconds ns => (min (ns / 1000000) 9223372036854775807 : Nat) * 1000000
  | .nanoseconds ns => toI64 ns

/-- junit_xml/src/lib.rs:53-98 the test case of a result. -/
def caseOf (strip : String → String) (r : Item) : Case :=
  let duration := r.time.duration
  let rawOutput := r.output.getD ""
  let cleaned := strip rawOutput
  match r.view.status with
  | .failure => ⟨r.name, duration, .failure "failure" cleaned⟩
  | .success => ⟨r.name, duration, .success⟩
  | .error | .nativeRunnerError => ⟨r.name, duration, .error "error" cleaned⟩
  | .pending => ⟨r.name, 0, .skipped⟩
  | .skipped => ⟨r.name, 0, .skipped⟩
  | .todo => ⟨r.name, 0, .skipped⟩
  | .timedOut => ⟨r.name, duration, .error "timed out" cleaned⟩

/-- junit_xml/src/lib.rs:6-8 `Collector`: the test cases of its suite. -/
abbrev Collector := List Case

/-- junit_xml/src/lib.rs:28-98 `push_result`. -/
def push (strip : String → String) (c : Collector) (r : Item) : Collector := c ++ [caseOf strip r]

/-- The suite that is written (junit_xml/src/lib.rs:110-114; the sums are those of `junit_report`, which panics if the
times add up to more than 2^63 seconds: not modelled). -/
structure Suite where
  cases : List Case
  tests : Nat
  errors : Nat
  failures : Nat
  time : Int
deriving DecidableEq, Repr

/-- junit_xml/src/lib.rs:110-114 `write_xml`. -/
def write (c : Collector) : Suite :=
  { cases := c
    tests := c.length
    errors := c.countP fun x => match x.kind with | .error .. => true | _ => false
    failures := c.countP fun x => match x.kind with | .failure .. => true | _ => false
    time := (c.map (·.time)).sum }

/-- `reporting.rs:164-195` the reporter: the suite after results. -/
def report (strip : String → String) (rs : List Item) : Suite := write (rs.foldl (push strip) [])

end Abq.JUnit
