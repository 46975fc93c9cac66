import Verif.Model.Summary

/-!
# The JSON report

`crates/reporters/rwx_v1_json/src/lib.rs`: the `Collector` of the reporter `rwx-v1-json`. What of a result is copied unchanged
into an attempt (duration, output, times, metadata) is of any type here, `payload`; `Model/RwxDoc.lean` says what it is. Counters (`u64`) are natural numbers.
-/

namespace Abq.RwxJson
open Abq.Summary (Status)

variable {P : Type}

/-- `runners.rs:710-741` `TestResultSpec`: `located` says whether there is a location. -/
inductive Spec (P : Type) where
  | mk (id name : String) (status : Status) (output : Option String) (located : Bool) (payload : P) (past : Option (List (Spec P)))
deriving Repr

/-- `runners.rs:713` `id`. -/
def Spec.id : Spec P → String | .mk id .. => id
/-- `display_name` of `runners.rs:710-741`. -/
def Spec.name : Spec P → String | .mk _ name .. => name
/-- `status` of `runners.rs:710-741`. -/
def Spec.status : Spec P → Status | .mk _ _ status .. => status
/-- `output` of `runners.rs:710-741`. -/
def Spec.output : Spec P → Option String | .mk _ _ _ output .. => output
/-- Whether `location` of `runners.rs:710-741` is there. -/
def Spec.located : Spec P → Bool | .mk _ _ _ _ located .. => located
/-- The other fields of `runners.rs:710-741`. -/
def Spec.payload : Spec P → P | .mk _ _ _ _ _ payload _ => payload
/-- `past_attempts` of `runners.rs:710-741`. -/
def Spec.past : Spec P → Option (List (Spec P)) | .mk _ _ _ _ _ _ past => past

/-- rwx_v1_json/src/lib.rs:188-224 `AttemptStatus`, with the message; exceptions and backtraces are part of `payload`. -/
inductive AttemptStatus where
  | canceled
  | failed (message : Option String)
  | pended (message : Option String)
  | skipped (message : Option String)
  | successful
  | timedOut
  | todo (message : Option String)
  | quarantined
deriving DecidableEq, Repr

/-- rwx_v1_json/src/lib.rs:229-245 `Attempt`. -/
structure Attempt (P : Type) where
  status : AttemptStatus
  payload : P
deriving DecidableEq, Repr

/-- rwx_v1_json/src/lib.rs:247-256 `OptAttempt`. -/
inductive OptAttempt (P : Type) where
  | synthetic (message : String)
  | attempt (a : Attempt P) (past : Option (List (Attempt P))) (errors : List String)
deriving DecidableEq, Repr

/-- rwx_v1_json/src/lib.rs:274-305. -/
def statusOf (output : Option String) : Status → Option AttemptStatus
  | .success => some .successful
  | .failure | .error => some (.failed output)
  | .nativeRunnerError => none
  | .pending => some (.pended output)
  | .skipped => some (.skipped output)
  | .todo => some (.todo output)
  | .timedOut => some .timedOut

mutual
/-- rwx_v1_json/src/lib.rs:259-372 `Attempt::from`. -/
def attemptOf : Spec P → OptAttempt P
  | .mk _ _ status output _ payload past =>
    match statusOf output status with
    | none => .synthetic (output.getD "ABQ native runner error. No output was provided.")
    | some st =>
      match past with
      | none => .attempt ⟨st, payload⟩ none []
      | some ps => .attempt ⟨st, payload⟩ (some (attemptsOf ps).1) (attemptsOf ps).2

/-- rwx_v1_json/src/lib.rs:331-355: the loop over past attempts. -/
def attemptsOf : List (Spec P) → List (Attempt P) × List String
  | [] => ([], [])
  | s :: rest =>
    match attemptOf s with
    | .synthetic e => ((attemptsOf rest).1, e :: (attemptsOf rest).2)
    | .attempt a past es => (a :: past.getD [] ++ (attemptsOf rest).1, es ++ (attemptsOf rest).2)
end

/-- rwx_v1_json/src/lib.rs:376-388 `Test`; `first` is what the first result had, from which the lineage and the location
are copied. -/
structure Test (P : Type) where
  name : String
  located : Bool
  first : P
  attempt : Attempt P
  past : Option (List (Attempt P))
deriving DecidableEq, Repr

/-- rwx_v1_json/src/lib.rs:476-479 `Collector`; a hash map is an association list, of which only the contents matter (`C78_any_order`). -/
structure Collector (P : Type) where
  tests : List (String × Test P) := []
  errors : List String := []
deriving DecidableEq, Repr

/-- rwx_v1_json/src/lib.rs:531-552: another result of a test. -/
def Test.retry (t : Test P) (a : Attempt P) (past : Option (List (Attempt P))) : Test P :=
  { t with attempt := a, past := some (t.past.getD [] ++ [t.attempt] ++ past.getD []) }

/-- `self.tests.get_mut(id)` and the change of that entry (rwx_v1_json/src/lib.rs:484, rwx_v1_json/src/lib.rs:525-553). -/
def change (id : String) (f : Test P → Test P) : List (String × Test P) → List (String × Test P)
  | [] => []
  | (k, t) :: rest => if k = id then (k, f t) :: rest else (k, t) :: change id f rest

/-- rwx_v1_json/src/lib.rs:502-511: the message for a failure without location. -/
def strayMessage (name : String) (message : Option String) : String :=
  "'" ++ name ++ "': " ++ message.getD "failed outside the test suite"

/-- rwx_v1_json/src/lib.rs:483-554 `push_result`. -/
def Collector.push (c : Collector P) (s : Spec P) : Collector P :=
  if (c.tests.map (·.1)).contains s.id then
    match attemptOf s with
    | .synthetic e => { c with errors := c.errors ++ [e] }
    | .attempt a past es => { tests := change s.id (·.retry a past) c.tests, errors := c.errors ++ es }
  else
    match attemptOf s with
    | .synthetic e => { c with errors := c.errors ++ [e] }
    | .attempt a past es =>
      if s.located then
        { tests := c.tests ++ [(s.id, ⟨s.name, s.located, s.payload, a, past⟩)], errors := c.errors ++ es }
      else
        match a.status with
        | .failed message => { c with errors := c.errors ++ es ++ [strayMessage s.name message] }
        | _ => { tests := c.tests ++ [(s.id, ⟨s.name, s.located, s.payload, a, past⟩)], errors := c.errors ++ es }

/-- A collector after pushing results, rwx_v1_json/src/lib.rs:483-554. -/
def collect (rs : List (Spec P)) : Collector P := rs.foldl Collector.push {}

/-- rwx_v1_json/src/lib.rs:79-95 `Summary`; `failed` is `status`, of which only two values are used. -/
structure Summary where
  failed : Bool := false
  tests : Nat := 0
  otherErrors : Nat := 0
  retries : Nat := 0
  canceled : Nat := 0
  failures : Nat := 0
  pended : Nat := 0
  quarantined : Nat := 0
  skipped : Nat := 0
  successful : Nat := 0
  timedOut : Nat := 0
  todo : Nat := 0
deriving DecidableEq, Repr

/-- rwx_v1_json/src/lib.rs:120-122. -/
def Test.retried (t : Test P) : Bool :=
  match t.past with
  | some attempts => !attempts.isEmpty
  | none => false

/-- rwx_v1_json/src/lib.rs:117-157 `account`. -/
def Summary.account (s : Summary) (t : Test P) : Summary :=
  let s := { s with tests := s.tests + 1, retries := s.retries + if t.retried then 1 else 0 }
  match t.attempt.status with
  | .canceled => { s with failed := true, canceled := s.canceled + 1 }
  | .failed _ => { s with failed := true, failures := s.failures + 1 }
  | .pended _ => { s with pended := s.pended + 1 }
  | .skipped _ => { s with skipped := s.skipped + 1 }
  | .successful => { s with successful := s.successful + 1 }
  | .timedOut => { s with failed := true, timedOut := s.timedOut + 1 }
  | .todo _ => { s with todo := s.todo + 1 }
  | .quarantined => { s with quarantined := s.quarantined + 1 }

/-- rwx_v1_json/src/lib.rs:159-164 `account_native_runner_errors`. -/
def Summary.accountErrors (s : Summary) (n : Nat) : Summary :=
  { s with otherErrors := s.otherErrors + n, failed := if n > 0 then true else s.failed }

/-- rwx_v1_json/src/lib.rs:575-578 the summary in `test_results`. -/
def summarise (c : Collector P) : Summary :=
  ((c.tests.map (·.2)).foldl Summary.account {}).accountErrors c.errors.length

end Abq.RwxJson
