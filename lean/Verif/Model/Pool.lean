/-!
# Shutting down a pool of runners

`crates/abq_workers/src/workers.rs:258-352` `WorkerPool::shutdown` and the exit code computed from it at
`crates/abq_cli/src/workers.rs:204-214` `do_shutdown`.
-/

namespace Abq.Pool

/-- Output captured from a native runner: bytes (`runners.rs:992-995`). -/
abbrev Output := List Nat

/-- The fields of `TestRunnerExit` that are used at `workers.rs:284-292`. Exit codes are `i32`, here integers; the
native runner's specification is a number. -/
structure RunnerExit where
  exitCode : Int
  manifestOutput : Option Output
  finalStdio : Output × Output
  processOutput : Output
  nativeRunnerInfo : Option Nat
deriving DecidableEq, Repr

/-- `GenericRunnerError` at `workers.rs:306-310`. -/
structure RunnerError where
  message : String
  output : Output × Output
  nativeRunnerInfo : Option Nat
deriving DecidableEq, Repr

/-- What joining a runner's task yields (`workers.rs:275-281`). A panic of the task makes `shutdown` panic. -/
inductive Joined where
  | ok (e : RunnerExit)
  | err (e : RunnerError)
  | panicked
deriving DecidableEq, Repr

/-- `workers.rs:102-109` `WorkersExitStatus`. -/
inductive Status where
  | completed (code : Int)
  | error (errors : List String)
deriving DecidableEq, Repr

/-- `workers.rs:115-124` `WorkersExit`; runners are numbered from 1, workers.rs:165. -/
structure Exit where
  status : Status
  nativeRunnerInfo : Option Nat
  manifestOutput : Option (Nat × Output)
  finalStdio : List (Nat × (Output × Output))
  processOutputs : List (Nat × Output)
deriving DecidableEq, Repr

/-- The local variables of the loop, `workers.rs:268-273`. -/
structure Acc where
  errors : List String
  highest : Int
  finalStdio : List (Nat × (Output × Output))
  processOutputs : List (Nat × Output)
  manifestOutput : Option (Nat × Output)
  nativeRunnerInfo : Option Nat
deriving DecidableEq, Repr

/-- `workers.rs:268-273`. -/
def Acc.init : Acc := ⟨[], 0, [], [], none, none⟩

/-- `workers.rs:328-340` `combined`: the captured output, each part followed by a newline if not empty. -/
def combined (o : Output × Output) : Output :=
  (if o.1.isEmpty then [] else o.1 ++ [10]) ++ (if o.2.isEmpty then [] else o.2 ++ [10])

/-- `workers.rs:274-346`: the body of the loop for runner `k`. The `debug_assert` at `workers.rs:288-293` is not in release
builds and not modelled. -/
def Acc.add (a : Acc) (k : Nat) : Joined → Option Acc
  | .panicked => none
  | .ok e => some
      { a with
        nativeRunnerInfo := a.nativeRunnerInfo.or e.nativeRunnerInfo
        manifestOutput := e.manifestOutput.map fun o => (k, o)
        highest := max e.exitCode e.exitCode
        finalStdio := a.finalStdio ++ [(k, e.finalStdio)]
        processOutputs := a.processOutputs ++ [(k, e.processOutput)] }
  | .err e => some
      { a with
        nativeRunnerInfo := a.nativeRunnerInfo.or e.nativeRunnerInfo
        errors := a.errors ++ [e.message]
        finalStdio := a.finalStdio ++ [(k, e.output)]
        processOutputs := a.processOutputs ++ [(k, combined e.output)] }

/-- The loop of `workers.rs:274-346` from runner `k` on. -/
def loop : Acc → Nat → List Joined → Option Acc
  | a, _, [] => some a
  | a, k, j :: js =>
    match a.add k j with
    | none => none
    | some a' => loop a' (k + 1) js

/-- `workers.rs:254-361` `shutdown`, after the signals to shut down; `none` when it panics. -/
def shutdown (js : List Joined) : Option Exit :=
  match loop Acc.init 1 js with
  | none => none
  | some a =>
    some
      { status := if a.errors ≠ [] then .error a.errors else .completed a.highest
        nativeRunnerInfo := a.nativeRunnerInfo
        manifestOutput := a.manifestOutput
        finalStdio := a.finalStdio
        processOutputs := a.processOutputs }

/-- `crates/abq_cli/src/workers.rs:204-214`: the exit code of `abq test`, given the suite's exit code. -/
def processExitCode (suite : Int) : Status → Int
  | .completed c => max suite c
  | .error _ => 101

end Abq.Pool
