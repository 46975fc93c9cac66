import Verif.Model.JUnit
/-!
# The text of the JUnit report

What `junit_report::Report::write_xml` writes (`crates/reporters/junit_xml/src/lib.rs:110-114`): a model of the external libraries
`junit-report` 0.8.2 and `quick-xml` 0.26.0 as far as they are used, after the documents expected in
`junit_xml/src/lib.rs:189-211, 256-270, 297-310, 337-350, 377-390`. The text is a list of characters, which is written as UTF-8.
-/

namespace Abq.JUnitText

/-- What is not the report's own: how seconds are printed (`Duration::as_seconds_f64`), the time of day, and whether an element without
content is written as one tag, which matters to the suite alone (junit_xml/src/lib.rs:18-25, 110-114). -/
structure Style where
  seconds : Int → List Char
  timestamp : List Char
  short : Bool

/-- `quick_xml::escape::escape` (junit_xml/src/lib.rs:110-114). -/
def escapeChar (c : Char) : List Char :=
  if c = '<' then "&lt;".toList
  else if c = '>' then "&gt;".toList
  else if c = '\'' then "&apos;".toList
  else if c = '&' then "&amp;".toList
  else if c = '"' then "&quot;".toList
  else [c]

/-- A text as the value of an attribute (junit_xml/src/lib.rs:110-114). -/
def escape (cs : List Char) : List Char := cs.flatMap escapeChar

/-- The attributes of a tag (junit_xml/src/lib.rs:192-208). -/
def attributes (as : List (String × List Char)) : List Char :=
  as.flatMap fun a => ' ' :: a.1.toList ++ ['=', '"'] ++ escape a.2 ++ ['"']

/-- An element without content (junit_xml/src/lib.rs:193-206). -/
def leaf (name : String) (as : List (String × List Char)) : List Char :=
  '<' :: name.toList ++ attributes as ++ ['/', '>']

/-- An element with content (junit_xml/src/lib.rs:192-208). -/
def element (name : String) (as : List (String × List Char)) (content : List Char) : List Char :=
  '<' :: name.toList ++ attributes as ++ ['>'] ++ content ++ ['<', '/'] ++ name.toList ++ ['>']

/-- A test case (junit_xml/src/lib.rs:66-95, 193-206). -/
def testCase (st : Style) (c : JUnit.Case) : List Char :=
  let as := [("name", c.name.toList), ("time", st.seconds c.time)]
  match c.kind with
  | .success => leaf "testcase" as
  | .failure type message => element "testcase" as (leaf "failure" [("type", type.toList), ("message", message.toList)])
  | .error type message => element "testcase" as (leaf "error" [("type", type.toList), ("message", message.toList)])
  | .skipped => element "testcase" as (leaf "skipped" [])

/-- The attributes of the suite; its name is that given at `report.rs:51` and `workers.rs:64` (junit_xml/src/lib.rs:192). -/
def suiteAttributes (st : Style) (s : JUnit.Suite) : List (String × List Char) :=
  [("id", "0".toList), ("name", "suite".toList), ("package", "testsuite/suite".toList), ("tests", (Nat.repr s.tests).toList),
   ("errors", (Nat.repr s.errors).toList), ("failures", (Nat.repr s.failures).toList), ("hostname", "localhost".toList),
   ("timestamp", st.timestamp), ("time", st.seconds s.time)]

/-- The suite (junit_xml/src/lib.rs:192-207). -/
def suite (st : Style) (s : JUnit.Suite) : List Char :=
  if st.short && s.cases.isEmpty then leaf "testsuite" (suiteAttributes st s)
  else element "testsuite" (suiteAttributes st s) (s.cases.flatMap (testCase st))

/-- `write_xml` (junit_xml/src/lib.rs:110-114, 190-208). -/
def document (st : Style) (s : JUnit.Suite) : List Char :=
  "<?xml version=\"1.0\" encoding=\"utf-8\"?>".toList ++ element "testsuites" [] (suite st s)

/-- The file a reporter writes after these results (`reporting.rs:164-195`). -/
def file (st : Style) (strip : String → String) (rs : List JUnit.Item) : List Char := document st (JUnit.report strip rs)

end Abq.JUnitText
