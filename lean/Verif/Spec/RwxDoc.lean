import Verif.Model.RwxDoc
import Verif.Spec.Messages

/-! # Vocabulary of C127: what is in a document, and what a result is -/

namespace Abq.Spec.RwxDoc
open RunStateDoc (Json)
open Protocol (SpecFields ResultSpec AbqStatus)
open Abq.Messages (Result)
open Abq.RwxDoc (Readers)

/-! ## Documents -/

/-- The member of that name. -/
def member (name : String) : Json → Option Json
  | .obj ms => (ms.find? (·.1 == name)).map (·.2)
  | _ => none

/-- What is found by these names, one inside the other. -/
def at' (j : Json) : List String → Option Json
  | [] => some j
  | name :: names => (member name j).bind fun j' => at' j' names

/-- The elements of an array, none if it is not there. -/
def elements : Option Json → List Json
  | some (.arr l) => l
  | _ => []

/-- The tests of a report. -/
def testsOf (report : Json) : List Json := elements (at' report ["tests"])

/-- The tests of a report that have this id. -/
def testsNamed (report : Json) (id : String) : List Json :=
  (testsOf report).filter fun t =>
    match at' t ["id"] with
    | some (.str s) => s == id
    | _ => false

/-- The attempts of a test, the current one last. -/
def attemptsOf (test : Json) : List Json := elements (at' test ["pastAttempts"]) ++ (at' test ["attempt"]).toList

/-- How many tests of a report are of a kind. -/
def countOf (report : Json) (kind : String) : Nat :=
  (testsOf report).countP fun t =>
    match at' t ["attempt", "status", "kind"] with
    | some (.str k) => k == kind
    | _ => false

/-! ## Results -/

/-- The fields of a result. -/
def fieldsOf : ResultSpec → SpecFields
  | .mk f _ => f

/-- A result reported because the native runner crashed. -/
def crashed (r : ResultSpec) : Bool := (fieldsOf r).status = .privateNativeRunnerError

/-- A failure that has no location. -/
def stray (r : ResultSpec) : Bool :=
  match (fieldsOf r).location, (fieldsOf r).status with
  | none, .failure .. => true
  | none, .error .. => true
  | _, _ => false

/-- The results of a test that count as such: crashes do not, nor do failures without a location before all others. -/
def countedOf (rs : List Result) (id : String) : List Result :=
  (rs.filter fun r => !crashed r.result && (fieldsOf r.result).id == id).dropWhile fun r => stray r.result

mutual
/-- All attempts of a result in the order in which they were made: those that came with it, each after its own, and itself. -/
def chronicle : ResultSpec → List SpecFields
  | .mk f none => [f]
  | .mk f (some past) => chronicles past ++ [f]
def chronicles : List ResultSpec → List SpecFields
  | [] => []
  | r :: rs => (if crashed r then [] else chronicle r) ++ chronicles rs
end

/-- The attempts of results, each with the runner that made it. -/
def attemptsMade (rs : List Result) : List (SpecFields × WorkerRunner) :=
  rs.flatMap fun r => (chronicle r.result).map fun f => (f, r.source.runner)

/-- The attempts that came with a result came with no further attempts. -/
def Shallow (r : Result) : Prop := ∀ f ps, r.result = .mk f (some ps) → ∀ p ∈ ps, ∃ g, p = .mk g none

/-- The word for a status. -/
def kindOf : AbqStatus → String
  | .failure .. => "failed"
  | .error .. => "failed"
  | .success => "successful"
  | .pending => "pended"
  | .skipped => "skipped"
  | .todo => "todo"
  | .timedOut => "timedOut"
  | .privateNativeRunnerError => ""

/-- The lists are as long as each other, and what is at the same place is related. -/
def Each {α β : Type} (R : α → β → Prop) : List α → List β → Prop
  | [], [] => True
  | a :: as, b :: bs => R a b ∧ Each R as bs
  | _, _ => False

/-- The attempt of a report is that of a runner: when, how long, with what outcome and output. Times in milliseconds are turned into
nanoseconds, and output into text, by `rd`. -/
structure Says (rd : Readers) (j : Json) (f : SpecFields) (runner : WorkerRunner) : Prop where
  kind : at' j ["status", "kind"] = some (.str (kindOf f.status))
  message : at' j ["status", "message"] =
    match f.status with
    | .success => none
    | .timedOut => none
    | _ => f.output.map .str
  exception : at' j ["status", "exception"] =
    match f.status with
    | .failure e _ => e.map .str
    | .error e _ => e.map .str
    | _ => none
  backtrace : at' j ["status", "backtrace"] =
    match f.status with
    | .failure _ b => b.map fun l => .arr (l.map .str)
    | .error _ b => b.map fun l => .arr (l.map .str)
    | _ => none
  duration : at' j ["durationInNanoseconds"] =
    some (match f.runtime with
      | .nanoseconds n => .int n
      | .milliseconds text => .int (rd.nanos text))
  started : at' j ["startedAt"] = f.startedAt.map .str
  finished : at' j ["finishedAt"] = f.finishedAt.map .str
  stdout : at' j ["stdout"] = f.stdout.map fun b => .str (rd.lossy b)
  stderr : at' j ["stderr"] = f.stderr.map fun b => .str (rd.lossy b)
  worker : at' j ["meta", "abq_metadata", "worker"] = some (.int runner.worker)
  runner : at' j ["meta", "abq_metadata", "runner"] = some (.int runner.runner)
  /-- All but one of the members of the runner's own metadata. -/
  metadata : ∀ name, name ≠ "abq_metadata" → at' j ["meta", name] = member name (.obj f.metadata)

/-- The test of a report is that of these results: its name and place are those of the first, its attempts all theirs, and the current
one is the last. -/
structure Tells (rd : Readers) (t : Json) (id : String) (first : Result) (rest : List Result) : Prop where
  id : at' t ["id"] = some (.str id)
  name : at' t ["name"] = some (.str (fieldsOf first.result).displayName)
  lineage : at' t ["lineage"] = (fieldsOf first.result).lineage.map fun l => .arr (l.map .str)
  located : (at' t ["location"]).isSome = (fieldsOf first.result).location.isSome
  file : at' t ["location", "file"] = (fieldsOf first.result).location.map fun l => .str l.file
  line : at' t ["location", "line"] = (fieldsOf first.result).location.bind fun l => l.line.map fun n : Nat => .int n
  column : at' t ["location", "column"] = (fieldsOf first.result).location.bind fun l => l.column.map fun n : Nat => .int n
  attempts : ∃ made : List (SpecFields × WorkerRunner), made.Perm (attemptsMade (first :: rest)) ∧
    Each (fun j m => Says rd j m.1 m.2) (attemptsOf t) made
  current : ∃ j last, at' t ["attempt"] = some j ∧ (first :: rest).getLast? = some last ∧
    Says rd j (fieldsOf last.result) last.source.runner
  inOrder : (∀ r ∈ first :: rest, Shallow r) →
    Each (fun j m => Says rd j m.1 m.2) (attemptsOf t) (attemptsMade (first :: rest))

/-! ## Other errors -/

/-- What is written for a crash. -/
def crashMessage (r : ResultSpec) : String := (fieldsOf r).output.getD "ABQ native runner error. No output was provided."

mutual
/-- The crashes among the attempts that came with a result. -/
def crashesOf : ResultSpec → List String
  | .mk _ none => []
  | .mk _ (some past) => crashesIn past
def crashesIn : List ResultSpec → List String
  | [] => []
  | r :: rs => (if crashed r then [crashMessage r] else crashesOf r) ++ crashesIn rs
end

/-- What is written for a failure without a location. -/
def strayMessage (r : ResultSpec) : String :=
  match (fieldsOf r).output with
  | some message => "'" ++ (fieldsOf r).displayName ++ "': " ++ message
  | none => "'" ++ (fieldsOf r).displayName ++ "': failed outside the test suite"

/-- The other errors of results, after the results `before`: crashes, those that come with results, and failures without a location
of a test that has no result that counts. -/
def errorsFrom (before : List Result) : List Result → List String
  | [] => []
  | r :: rest =>
    (if crashed r.result then [crashMessage r.result]
     else crashesOf r.result ++
      if stray r.result && (countedOf before (fieldsOf r.result).id).isEmpty then [strayMessage r.result] else []) ++
    errorsFrom (before ++ [r]) rest

/-- C127 in full: nothing a runner said of an attempt is missing, its metadata included. -/
def FullStatement : Prop :=
  ∀ (rd : Readers) (rs : List Result) (spec : Option Protocol.Specification) (j : Json), Abq.RwxDoc.Writes rd rs spec j →
    ∀ r ∈ rs, crashed r.result = false → stray r.result = false →
      ∃ t ∈ testsOf j, ∃ a ∈ attemptsOf t, Says rd a (fieldsOf r.result) r.source.runner ∧
        ∀ name, (member name (.obj (fieldsOf r.result).metadata)).isSome → at' a ["meta", name] = member name (.obj (fieldsOf r.result).metadata)

end Abq.Spec.RwxDoc
