import Verif.Model.JUnitText

/-!
# Vocabulary of C132: reading XML

A reader for the part of XML 1.0 (fifth edition) that reports are made of: a declaration, and elements with attributes in double quotes
that contain elements only. It refuses everything else, so what it reads is XML, and any XML reader makes the same of it. Characters are
read one by one.
-/

namespace Abq.Spec.JUnitText

/-- Production 2: the characters that a document consists of. -/
def Legal (c : Char) : Bool :=
  c.toNat == 0x9 || c.toNat == 0xA || c.toNat == 0xD || (0x20 ≤ c.toNat && c.toNat ≤ 0xD7FF) ||
    (0xE000 ≤ c.toNat && c.toNat ≤ 0xFFFD) || (0x10000 ≤ c.toNat && c.toNat ≤ 0x10FFFF)

/-- Section 3.3.3 after section 2.11: what a reader makes of the text of an attribute. Each end of a line and each tab is a blank to it. -/
def normal : List Char → List Char
  | [] => []
  | '\r' :: '\n' :: cs => ' ' :: normal cs
  | c :: cs => (if c = '\t' ∨ c = '\n' ∨ c = '\r' then ' ' else c) :: normal cs

/-- An element: its name, its attributes and its elements. -/
inductive Node where
  | elem (name : List Char) (attributes : List (List Char × List Char)) (content : List Node)

def Node.name : Node → List Char
  | .elem n _ _ => n
def Node.attributes : Node → List (List Char × List Char)
  | .elem _ as _ => as
def Node.content : Node → List Node
  | .elem _ _ c => c
def Node.attribute (n : Node) (key : String) : Option (List Char) := List.lookup key.toList n.attributes

/-- Where the reader is: between tags; behind `<`; in the declaration; in a name; behind a name or a value in a tag; behind a blank in a
tag; in the name of an attribute; behind `=`; in a value, and whether behind a carriage return; in a reference; behind `/`; in an end
tag. -/
inductive Mode where
  | between
  | lt
  | decl (question : Bool)
  | name (acc : List Char)
  | tag (name : List Char) (as : List (List Char × List Char))
  | blank (name : List Char) (as : List (List Char × List Char))
  | key (name : List Char) (as : List (List Char × List Char)) (acc : List Char)
  | equals (name : List Char) (as : List (List Char × List Char)) (k : List Char)
  | value (name : List Char) (as : List (List Char × List Char)) (k acc : List Char) (cr : Bool)
  | ref (name : List Char) (as : List (List Char × List Char)) (k acc r : List Char)
  | slash (name : List Char) (as : List (List Char × List Char))
  | close (acc : List Char)

/-- The elements that are open, the innermost first, the outermost element if it is closed, and the mode. -/
structure Reader where
  opened : List Node := []
  root : Option Node := none
  mode : Mode := .between

def letter (c : Char) : Bool := ('a' ≤ c && c ≤ 'z') || ('A' ≤ c && c ≤ 'Z')

/-- The references every reader knows (section 4.6). -/
def entity (r : List Char) : Option Char :=
  if r = "lt".toList then some '<'
  else if r = "gt".toList then some '>'
  else if r = "amp".toList then some '&'
  else if r = "apos".toList then some '\''
  else if r = "quot".toList then some '"'
  else none

/-- An element is complete: it belongs to the innermost one that is open. -/
def Reader.done (s : Reader) (n : Node) : Option Reader :=
  match s.opened, s.root with
  | .elem p as c :: ps, none => some { opened := .elem p as (c ++ [n]) :: ps, root := none, mode := .between }
  | [], none => some { opened := [], root := some n, mode := .between }
  | _, some _ => none

/-- A start tag is complete. -/
def Reader.start (s : Reader) (name : List Char) (as : List (List Char × List Char)) : Option Reader :=
  match s.root with
  | none => some { s with opened := .elem name as [] :: s.opened, mode := .between }
  | some _ => none

/-- Within a tag, behind its name or a value. -/
def Reader.inTag (s : Reader) (name : List Char) (as : List (List Char × List Char)) (c : Char) : Option Reader :=
  if c = ' ' then some { s with mode := .blank name as }
  else if c = '/' then some { s with mode := .slash name as }
  else if c = '>' then s.start name as
  else none

/-- One character is read; none: this is not a document. -/
def Reader.step (s : Reader) (c : Char) : Option Reader :=
  if !Legal c then none else
  match s.mode with
  | .between => if c = '<' then some { s with mode := .lt } else none
  | .lt =>
    if c = '?' then (if s.opened.isEmpty && s.root.isNone then some { s with mode := .decl false } else none)
    else if c = '/' then some { s with mode := .close [] }
    else if letter c then some { s with mode := .name [c] }
    else none
  | .decl question => if c = '>' && question then some { s with mode := .between } else some { s with mode := .decl (c == '?') }
  | .name acc => if letter c then some { s with mode := .name (acc ++ [c]) } else s.inTag acc [] c
  | .tag name as => s.inTag name as c
  | .blank name as => if letter c then some { s with mode := .key name as [c] } else none
  | .key name as acc =>
    if letter c then some { s with mode := .key name as (acc ++ [c]) }
    else if c = '=' then (if as.any (·.1 == acc) then none else some { s with mode := .equals name as acc })
    else none
  | .equals name as k => if c = '"' then some { s with mode := .value name as k [] false } else none
  | .value name as k acc cr =>
    if c = '"' then some { s with mode := .tag name (as ++ [(k, acc)]) }
    else if c = '<' then none
    else if c = '&' then some { s with mode := .ref name as k acc [] }
    else if c = '\r' then some { s with mode := .value name as k (acc ++ [' ']) true }
    else if c = '\n' then some { s with mode := .value name as k (if cr then acc else acc ++ [' ']) false }
    else if c = '\t' then some { s with mode := .value name as k (acc ++ [' ']) false }
    else some { s with mode := .value name as k (acc ++ [c]) false }
  | .ref name as k acc r =>
    if c = ';' then (entity r).map fun d => { s with mode := .value name as k (acc ++ [d]) false }
    else if letter c then some { s with mode := .ref name as k acc (r ++ [c]) }
    else none
  | .slash name as => if c = '>' then s.done (.elem name as []) else none
  | .close acc =>
    if letter c then some { s with mode := .close (acc ++ [c]) }
    else if c = '>' then
      match s.opened with
      | .elem name as content :: rest => if name = acc then { s with opened := rest }.done (.elem name as content) else none
      | [] => none
    else none

def Reader.steps (s : Reader) : List Char → Option Reader
  | [] => some s
  | c :: cs => (s.step c).bind fun s => s.steps cs

/-- The document read, if it is one. -/
def readXml (text : List Char) : Option Node :=
  match (Reader.steps {} text) with
  | some ⟨[], some n, .between⟩ => some n
  | _ => none

/-! ## What a report says -/

/-- The time given for a result, in nanoseconds: none if the test was not run; else that it took, without fractions of milliseconds if it
was given in those (up to 2^63 ns, 292 years). -/
def TimeOf (r : JUnit.Item) (d : Int) : Prop :=
  if r.view.status = .pending ∨ r.view.status = .skipped ∨ r.view.status = .todo then d = 0
  else match r.time with
    | .nanoseconds ns => ns < 2 ^ 63 → d = ns
    | .milliseconds ns => ns < 2 ^ 63 → d ≤ ns ∧ ns < d + 1000000

/-- There is one element in it, which says what happened, with the output; no escape codes are in that. -/
def Shows (shown : List Char → List Char) (strip : String → String) (r : JUnit.Item) (what type : String) (n : Node) : Prop :=
  ∃ m, n.content = [m] ∧ m.name = what.toList ∧ m.attribute "type" = some type.toList ∧
    m.attribute "message" = some (shown (strip (match r.output with | some o => o | none => "")).toList)

/-- What is said of one result: its name, its time, and what happened. -/
def SaysOf (st : Abq.JUnitText.Style) (shown : List Char → List Char) (strip : String → String) (r : JUnit.Item) (n : Node) : Prop :=
  n.name = "testcase".toList ∧ n.attribute "name" = some (shown r.name.toList) ∧
  (∃ d, n.attribute "time" = some (st.seconds d) ∧ TimeOf r d) ∧
  match r.view.status with
  | .success => n.content = []
  | .failure => Shows shown strip r "failure" "failure" n
  | .error | .nativeRunnerError => Shows shown strip r "error" "error" n
  | .timedOut => Shows shown strip r "error" "timed out" n
  | .pending | .skipped | .todo => ∃ m, n.content = [m] ∧ m.name = "skipped".toList

/-- What is said of the run: its one suite has the counts, the total time, and an element for each result, in order. -/
def Says (st : Abq.JUnitText.Style) (shown : List Char → List Char) (strip : String → String) (rs : List JUnit.Item) (doc : Node) : Prop :=
  doc.name = "testsuites".toList ∧ ∃ n, doc.content = [n] ∧ n.name = "testsuite".toList ∧
    n.attribute "tests" = some (toString rs.length).toList ∧
    n.attribute "failures" = some (toString (rs.countP fun r => r.view.status = .failure)).toList ∧
    n.attribute "errors" = some (toString
      (rs.countP fun r => r.view.status = .error ∨ r.view.status = .timedOut ∨ r.view.status = .nativeRunnerError)).toList ∧
    n.attribute "time" = some (st.seconds (JUnit.report strip rs).time) ∧
    n.content.length = rs.length ∧
    ∀ (i : Nat) (r : JUnit.Item) (m : Node), rs[i]? = some r → n.content[i]? = some m → SaysOf st shown strip r m

/-- The texts a report shows of a result: its name, and its output without escape codes if it failed or could not be carried out. -/
def textsOf (strip : String → String) (r : JUnit.Item) : List (List Char) :=
  match r.view.status with
  | .failure | .error | .nativeRunnerError | .timedOut => [r.name.toList, (strip (match r.output with | some o => o | none => "")).toList]
  | .success | .pending | .skipped | .todo => [r.name.toList]

/-- Numbers and times of day are printed in characters that mean nothing else in XML. -/
def Plain (st : Abq.JUnitText.Style) : Prop :=
  (∀ t, ∀ c ∈ st.seconds t, c.isDigit = true ∨ c = '.' ∨ c = '-') ∧
  ∀ c ∈ st.timestamp, c.isDigit = true ∨ c = '.' ∨ c = '-' ∨ c = ':' ∨ c = 'T' ∨ c = 'Z'

end Abq.Spec.JUnitText
