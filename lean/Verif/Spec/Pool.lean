import Verif.Model.Pool

/-! Vocabulary for statements about a pool of runners. -/

namespace Abq.Pool

/-- The exit codes of the runners that came to an end without an error, in order. -/
def codes : List Joined → List Int
  | [] => []
  | .ok e :: js => e.exitCode :: codes js
  | _ :: js => codes js

/-- The messages of the runners that ended with an error. -/
def messages : List Joined → List String
  | [] => []
  | .err e :: js => e.message :: messages js
  | _ :: js => messages js

/-- What runners captured while generating the manifest, with the runners' numbers, the first being `k`. -/
def manifestOutputs : Nat → List Joined → List (Nat × Output)
  | _, [] => []
  | k, .ok e :: js => (match e.manifestOutput with | some o => [(k, o)] | none => []) ++ manifestOutputs (k + 1) js
  | k, _ :: js => manifestOutputs (k + 1) js

/-- The last runner that came to an end without an error, with its number, the first being `k`. -/
def lastOk : Nat → List Joined → Option (Nat × RunnerExit)
  | _, [] => none
  | k, .ok e :: js => (lastOk (k + 1) js).or (some (k, e))
  | k, _ :: js => lastOk (k + 1) js

/-- The final output of a runner: for one that failed, what it wrote to stdout and to stderr, each (unless empty)
ended by a newline. -/
def outputOf : Joined → Output
  | .ok e => e.processOutput
  | .err e => ([e.output.1, e.output.2].filter (· ≠ [])).flatMap (· ++ [10])
  | .panicked => []

/-- What is known of a runner's native runner. -/
def infoOf : Joined → Option Nat
  | .ok e => e.nativeRunnerInfo
  | .err e => e.nativeRunnerInfo
  | .panicked => none

/-- `c` is the highest of the codes, or 0 if there are none. -/
def IsHighest (c : Int) (cs : List Int) : Prop := (cs = [] ∧ c = 0) ∨ (c ∈ cs ∧ ∀ d ∈ cs, d ≤ c)

end Abq.Pool
