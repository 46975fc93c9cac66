import Verif.Model.Journey
import Verif.Spec.RwxDoc
import Verif.Spec.Protocol

/-! # Vocabulary of C129: messages of native runners and reports, as JSON -/

namespace Abq.Spec.Journey
open RunStateDoc (Json)
open Abq.Spec.RwxDoc (at' elements member testsOf testsNamed attemptsOf)
open Abq.Spec.JsonText (Holdable depth)
open Abq.Spec.Messages (EntityOk Bytes U32 U64)
open Abq.Journey (Told Heard)
open Abq.JsonText (Floats parse)
open Abq.Messages (Stdio)

/-! ## Messages of native runners -/

/-- Nothing is said by leaving out a member or by `null`. -/
def given : Option Json → Option Json
  | some .null => none
  | x => x

/-- The results in a message. -/
def resultsSaid (message : Json) : List Json :=
  let plain := match at' message ["test_result"] with
    | some r => [r]
    | none => elements (at' message ["test_results"])
  match at' message ["type"] with
  | some (.str type) =>
    if type = "incremental_result" then (at' message ["one_test_result"]).toList
    else if type = "incremental_result_done" then (given (at' message ["last_test_result"])).toList
    else plain
  | _ => plain

/-- The message is of one form only: it does not have the members of several. And whatever it says it says in the form of the
protocol. -/
def Proper (message : Json) : Prop :=
  (∀ m, Protocol.SaysResultMessage .loose m message → Protocol.SaysResultMessage .protocol m message) ∧
  ((at' message ["type"] = some (.str "incremental_result") ∨ at' message ["type"] = some (.str "incremental_result_done")) →
    at' message ["test_result"] = none ∧ at' message ["test_results"] = none) ∧
  (at' message ["test_result"] ≠ none → at' message ["test_results"] = none)

/-- The attempts of a result: those that come with it, each after its own, and itself; `k` bounds how far they are nested. -/
def attemptsTo : Nat → Json → List Json
  | 0, n => [n]
  | k + 1, n => (elements (at' n ["past_attempts"])).flatMap (attemptsTo k) ++ [n]

/-- All attempts of a result: they cannot be nested further than the result is. -/
def attemptsSaid (n : Json) : List Json := attemptsTo (depth n) n

/-- It has this id. -/
def hasId (id : String) (n : Json) : Bool :=
  match at' n ["id"] with
  | some (.str s) => s == id
  | _ => false

/-- The kind of its status. -/
def Kind (n : Json) (type : String) : Prop := at' n ["status", "type"] = some (.str type)

/-- A failure without a location. -/
def Stray (n : Json) : Prop := (Kind n "failure" ∨ Kind n "error") ∧ given (at' n ["location"]) = none

/-! ## What is in the report -/

/-- The word of the report for a status. -/
def word (type : String) : String :=
  if type = "failure" ∨ type = "error" then "failed"
  else if type = "success" then "successful"
  else if type = "pending" then "pended"
  else if type = "timed_out" then "timedOut"
  else type

/-- The attempt `j` of a report says of the attempt `n` of a native runner what the latter said. -/
structure Copies (n j : Json) (runner : WorkerRunner) : Prop where
  kind : ∃ type, Kind n type ∧ at' j ["status", "kind"] = some (.str (word type))
  message : ¬ Kind n "success" → ¬ Kind n "timed_out" → at' j ["status", "message"] = given (at' n ["output"])
  exception : Kind n "failure" ∨ Kind n "error" → at' j ["status", "exception"] = given (at' n ["status", "exception"])
  backtrace : Kind n "failure" ∨ Kind n "error" → at' j ["status", "backtrace"] = given (at' n ["status", "backtrace"])
  duration : at' j ["durationInNanoseconds"] = at' n ["runtime"]
  started : at' j ["startedAt"] = given (at' n ["started_at"])
  finished : at' j ["finishedAt"] = given (at' n ["finished_at"])
  metadata : ∀ name, name ≠ "abq_metadata" → at' j ["meta", name] = at' n ["meta", name]
  worker : at' j ["meta", "abq_metadata", "worker"] = some (.int runner.worker)
  runner : at' j ["meta", "abq_metadata", "runner"] = some (.int runner.runner)

/-- The test `t` of a report has the name and place of the result `n`. -/
structure Placed (n t : Json) : Prop where
  id : at' t ["id"] = at' n ["id"]
  name : at' t ["name"] = at' n ["display_name"]
  lineage : at' t ["lineage"] = given (at' n ["lineage"])
  file : at' t ["location", "file"] = at' n ["location", "file"]
  line : at' t ["location", "line"] = given (at' n ["location", "line"])
  column : at' t ["location", "column"] = given (at' n ["location", "column"])

/-! ## All the way -/

/-- The runner could read the message of its native runner. It is nested at most so deep, its numbers are ones that can be held, and
it is of one form. -/
def HeardOk (f : Floats) (deep : Nat) (h : Heard) (message : Json) : Prop :=
  parse f h.text = some message ∧ Holdable f message ∧ depth message ≤ deep ∧ Proper message ∧ U64 h.now

/-- What is sent has numbers of their types, and the runners could read their messages, which are nested at most so deep. -/
def SentOk (f : Floats) (deep : Nat) (sent : List (RunStateDoc.Entity × List Told)) : Prop :=
  ∀ x ∈ sent, EntityOk x.1 ∧ ∀ t ∈ x.2, Bytes 16 t.workId ∧ U32 t.runNumber ∧ U32 t.source.runner.worker ∧ U32 t.source.runner.runner ∧
    t.answered f ≠ none ∧ ∀ h ∈ t.heard, ∃ message, HeardOk f deep h message

/-- The results in what was heard. -/
def resultsIn (f : Floats) (h : Heard) : List Json :=
  match parse f h.text with
  | some message => resultsSaid message
  | none => []

/-- What was said of a test: the results, each with the message it was in. -/
def saidBy (f : Floats) (t : Told) : List (Heard × Json) := t.heard.flatMap fun h => (resultsIn f h).map fun n => (h, n)

/-- All that was said, request by request, test by test. -/
def saidAll (f : Floats) (sent : List (RunStateDoc.Entity × List Told)) : List (Told × Heard × Json) :=
  (sent.flatMap (·.2)).flatMap fun t => (saidBy f t).map fun x => (t, x)

/-- The attempts that were said of the test with this id, each with the runner that made it. -/
def attemptsOfId (f : Floats) (sent : List (RunStateDoc.Entity × List Told)) (id : String) : List (Json × WorkerRunner) :=
  ((saidAll f sent).filter fun x => hasId id x.2.2).flatMap fun x => (attemptsSaid x.2.2).map fun a => (a, x.1.source.runner)

/-- When the first result of the test was heard. -/
def timeOf (f : Floats) (t : Told) : Option Nat := ((saidBy f t).head?).map (·.1.now)

/-- `t` was run no later than `t'`: its first result was heard earlier, or at the same time and it was run fewer times before. -/
def NoLater (f : Floats) (t t' : Told) : Prop :=
  ∀ a b, timeOf f t = some a → timeOf f t' = some b → a < b ∨ a = b ∧ t.runNumber ≤ t'.runNumber

/-- The report has an attempt for the result `n` of the test `t` in the message `h`: with what was said, the runner, and the output that
was captured. -/
def Reported (rd : Abq.RwxDoc.Readers) (test : Json) (t : Told) (h : Heard) (n : Json) : Prop :=
  ∃ b ∈ attemptsOf test, Copies n b t.source.runner ∧ at' b ["stdout"] = some (.str (rd.lossy h.captured.stdout)) ∧
    at' b ["stderr"] = some (.str (rd.lossy h.captured.stderr))

/-- C129 in full, for messages that are nested at most so deep: whatever the runners could read arrives, and all that was said of an
attempt is in the report. (The runners can read what is nested at most 127 deep.) -/
def FullStatement (deep : Nat) : Prop :=
  ∀ (f : Floats) (sort : List Abq.Messages.Associated → List Abq.Messages.Associated) (_ : Abq.Journey.IsSort sort) (run : String)
    (sent : List (RunStateDoc.Entity × List Told)), SentOk f deep sent → ∃ rs, Abq.Journey.reporterGets f sort run sent = some rs ∧
    ∀ (rd : Abq.RwxDoc.Readers) (spec : Option Protocol.Specification) (report : Json), Abq.RwxDoc.Writes rd rs spec report →
    ∀ t h n, (t, h, n) ∈ saidAll f sent → ¬ Stray n →
      ∃ test ∈ testsOf report, ∃ b ∈ attemptsOf test, Copies n b t.source.runner ∧
        ∀ name, (at' n ["meta", name]).isSome → at' b ["meta", name] = at' n ["meta", name]

/-- Some other error of the report has this message. -/
def OtherError (report : Json) (message : String) : Prop :=
  ∃ e ∈ elements (at' report ["otherErrors"]), at' e ["message"] = some (.str message)

end Abq.Spec.Journey
