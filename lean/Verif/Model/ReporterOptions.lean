/-!
# Choosing reporters

`crates/abq_cli/src/reporting.rs:21-91, 262-345` the option `--reporter` and the reporters built from it; who writes to standard
output. A string is a list of characters. `ws` says which characters are white space.
-/

namespace Abq.ReporterOptions

/-- reporting.rs:22-37 `ReporterKind`. -/
inductive Kind where
  | default | line | dot | progress
  | junitXml (path : List Char)
  | rwxV1Json (path : List Char)
deriving DecidableEq, Repr

/-- reporting.rs:19 `DEFAULT_XML_PATH`. -/
def defaultXmlPath : List Char := "abq-test-results.xml".toList
/-- reporting.rs:20 `DEFAULT_JSON_PATH`. -/
def defaultJsonPath : List Char := "abq-test-results.json".toList

/-- reporting.rs:51-62 `Display`. -/
def Kind.print : Kind → List Char
  | .default => "default".toList
  | .line => "line".toList
  | .dot => "dot".toList
  | .progress => "progress".toList
  | .junitXml path => "junit-xml=".toList ++ path
  | .rwxV1Json path => "rwx-v1-json=".toList ++ path

/-- `str::split('=')` (reporting.rs:74). -/
def splitEq : List Char → List (List Char)
  | [] => [[]]
  | c :: cs =>
    if c = '=' then [] :: splitEq cs
    else
      match splitEq cs with
      | p :: ps => (c :: p) :: ps
      | [] => [[c]]

/-- `.filter(|s| !s.trim().is_empty())` (reporting.rs:75-76). -/
def notBlank (ws : Char → Bool) (s : Option (List Char)) : Option (List Char) := s.filter fun s => !s.all ws

/-- What `from_str` returns, reporting.rs:67-94. -/
inductive Parsed where
  | ok (k : Kind)
  | unknown (reporter : List Char)
  | missing (option : List Char)
deriving DecidableEq, Repr

/-- reporting.rs:73-92 the last arm of `from_str`. -/
def parseFile (ws : Char → Bool) (s : List Char) : Parsed :=
  let splits := splitEq s
  let reporter := notBlank ws splits[0]?
  let path := notBlank ws splits[1]?
  match reporter with
  | some r =>
    if r = "junit-xml".toList then .ok (.junitXml (path.getD defaultXmlPath))
    else if r = "rwx-v1-json".toList then .ok (.rwxV1Json (path.getD defaultJsonPath))
    else .unknown r
  | none => .missing s

/-- reporting.rs:67-94 `from_str`. -/
def parse (ws : Char → Bool) (s : List Char) : Parsed :=
  if s = "default".toList then .ok .default
  else if s = "line".toList then .ok .line
  else if s = "dot".toList then .ok .dot
  else if s = "progress".toList then .ok .progress
  else parseFile ws s

/-- reporting.rs:42-48 `outputs_to_stdout`. -/
def Kind.outputsToStdout (numRunners : Nat) : Kind → Bool
  | .default => numRunners ≠ 1
  | .dot | .line | .progress => true
  | .junitXml _ | .rwxV1Json _ => false

/-- The reporters there are (reporting.rs:276-323). -/
inductive Built where
  | dot | line | progress
  | junitXml (path : List Char)
  | rwxV1Json (path : List Char)
deriving DecidableEq, Repr

/-- reporting.rs:276-323 `reporter_from_kind`. -/
def fromKind (anyStdout : Bool) : Kind → Option Built
  | .default => if anyStdout then some .dot else none
  | .dot => some .dot
  | .line => some .line
  | .progress => some .progress
  | .junitXml path => some (.junitXml path)
  | .rwxV1Json path => some (.rwxV1Json path)

/-- reporting.rs:325-345 `build_reporters`. -/
def build (numRunners : Nat) (kinds : List Kind) : List Built :=
  kinds.filterMap (fromKind (kinds.any (Kind.outputsToStdout numRunners)))

/-- `workers.rs:65-67`, `abq_workers/src/workers.rs:162, 176` and `net_protocol.rs:153-155` `pipes_to_parent_stdio`: the native
runner writes to the standard output of `abq test`. -/
def pipes (numRunners : Nat) (kinds : List Kind) : Bool :=
  numRunners = 1 && !kinds.any (Kind.outputsToStdout numRunners)

/-- `workers.rs:168-176`: what is printed at the end, for the outputs of runners `1..n`. -/
def printedAtEnd (numRunners : Nat) (kinds : List Kind) (outputs : List (Nat × List Char)) : List (Nat × List Char) :=
  outputs.filter fun (_, o) => !(pipes numRunners kinds || o.isEmpty)

end Abq.ReporterOptions
