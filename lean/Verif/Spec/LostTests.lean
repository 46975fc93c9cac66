import Verif.Model.LostTests

/-!
# Reports of lost tests: vocabulary of C123
-/

namespace Abq.Spec
open Abq.Messages Abq.Protocol

/-- A report says nothing about a test that is neither known nor captured: the outputs are what was captured, if they are given
at all, and nothing is said about where the test is in the suite and when it ran. -/
def NothingMadeUp (captured : Stdio) : ResultSpec → Prop
  | .mk f past =>
    (∀ o, f.stdout = some o → o = captured.stdout) ∧ (∀ e, f.stderr = some e → e = captured.stderr) ∧
    f.location = none ∧ f.lineage = none ∧ f.startedAt = none ∧ f.finishedAt = none ∧ past = none

/-- The fields of a report. -/
def fieldsOf : ResultSpec → SpecFields
  | .mk f _ => f

/-- How an error of a test shows: its title, the command that failed, why, what it wrote and who ran it, in that order. -/
def Explains (m : List Char) (title cmd why out err who : List Char) : Prop :=
  ∃ a b c d e f, m = title ++ a ++ cmd ++ b ++ why ++ c ++ out ++ d ++ err ++ e ++ who ++ f

end Abq.Spec
