import Verif.Model.RwxJson

/-! # Vocabulary of C78 and C79 -/

namespace Abq.RwxJson
open Abq.Summary (Status)

variable {P : Type}

/-- A result of a test, as opposed to one reported because the native runner crashed. -/
def Spec.material (s : Spec P) : Bool := s.status ≠ .nativeRunnerError

/-- A failure that has no location. -/
def Spec.stray (s : Spec P) : Bool := !s.located && (s.status = .failure || s.status = .error)

/-- The status in the report. -/
def reportedStatus (s : Spec P) : AttemptStatus :=
  match s.status with
  | .success => .successful
  | .failure | .error => .failed s.output
  | .pending => .pended s.output
  | .skipped => .skipped s.output
  | .todo => .todo s.output
  | .timedOut => .timedOut
  | .nativeRunnerError => .canceled

def Spec.own (s : Spec P) : Attempt P := ⟨reportedStatus s, s.payload⟩

def Spec.crashMessage (s : Spec P) : String := s.output.getD "ABQ native runner error. No output was provided."

mutual
/-- All attempts of a result in the order in which they were made: those that came with it, each after its own, and itself. -/
def chronicle : Spec P → List (Attempt P)
  | .mk id name status output located payload none => [(Spec.mk id name status output located payload none).own]
  | .mk id name status output located payload (some ps) =>
    chronicles ps ++ [(Spec.mk id name status output located payload (some ps)).own]

def chronicles : List (Spec P) → List (Attempt P)
  | [] => []
  | p :: ps => (if p.material then chronicle p else []) ++ chronicles ps
end

mutual
/-- An attempt that came with a result, as the report lists it: itself, and then those that came with it. -/
def asListed : Spec P → List (Attempt P)
  | .mk id name status output located payload none => [(Spec.mk id name status output located payload none).own]
  | .mk id name status output located payload (some ps) =>
    (Spec.mk id name status output located payload (some ps)).own :: asListedAll ps

def asListedAll : List (Spec P) → List (Attempt P)
  | [] => []
  | p :: ps => (if p.material then asListed p else []) ++ asListedAll ps
end

/-- The attempts that came with a result came with no further attempts. -/
def Spec.shallow (s : Spec P) : Prop := ∀ ps, s.past = some ps → ∀ p ∈ ps, p.past = none

mutual
/-- The crashes among the attempts that came with a result. -/
def crashesOf : Spec P → List String
  | .mk _ _ _ _ _ _ none => []
  | .mk _ _ _ _ _ _ (some ps) => crashesIn ps

def crashesIn : List (Spec P) → List String
  | [] => []
  | p :: ps => (if p.material then crashesOf p else [p.crashMessage]) ++ crashesIn ps
end

/-- The results of a test. -/
def resultsOf (rs : List (Spec P)) (id : String) : List (Spec P) := rs.filter fun s => s.material && s.id == id

/-- The results of a test that count as such: stray failures before all others do not. -/
def countedOf (rs : List (Spec P)) (id : String) : List (Spec P) := (resultsOf rs id).dropWhile (·.stray)

/-- The attempts of a test in the report, in order. -/
def historyOf (c : Collector P) (id : String) : List (Attempt P) :=
  match c.tests.find? (·.1 == id) with
  | some (_, t) => t.past.getD [] ++ [t.attempt]
  | none => []

/-- The error for a failure that has no location. -/
def Spec.strayError (s : Spec P) : String :=
  match s.output with
  | some message => "'" ++ s.name ++ "': " ++ message
  | none => "'" ++ s.name ++ "': failed outside the test suite"

/-- The other errors of a list of results, after the results `before`. -/
def errorsFrom (before : List (Spec P)) : List (Spec P) → List String
  | [] => []
  | s :: rest =>
    (if s.material then
      crashesOf s ++ (if s.stray && (countedOf before s.id).isEmpty then [s.strayError] else [])
    else [s.crashMessage]) ++ errorsFrom (before ++ [s]) rest

/-- `ids` lists the tests that have results that count, each once. -/
def TestsOf (rs : List (Spec P)) (ids : List String) : Prop := ids.Nodup ∧ ∀ id, id ∈ ids ↔ countedOf rs id ≠ []

/-- The status of the last result of a test. -/
def finalStatus (rs : List (Spec P)) (id : String) : Option Status := (countedOf rs id).getLast?.map (·.status)

/-- A result as reporters receive it: what `summary.rs` reads besides. -/
structure Reported (P : Type) where
  runNumber : Nat
  workId : Nat
  runtime : Nat
  file : String
  runner : Abq.Summary.Runner
  spec : Spec P

/-- The same result for the summary of the suite. -/
def Reported.view (x : Reported P) : Abq.Summary.Result :=
  ⟨x.runNumber, x.workId, x.spec.id, x.spec.status, x.runtime, if x.spec.located then some x.file else none, x.runner⟩

/-- A test is run again only if it failed. -/
def RetriedOnFailure (rs : List (Spec P)) : Prop :=
  ∀ id, ∀ s ∈ (resultsOf rs id).dropLast, s.status.isFailLike = true

end Abq.RwxJson
