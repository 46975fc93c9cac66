import Verif.Model.ReporterOptions

/-! # Vocabulary of C82 and C83 -/

namespace Abq.ReporterOptions

/-- A printable ASCII character other than a space is not white space. -/
def Sane (ws : Char → Bool) : Prop := ∀ c : Char, 33 ≤ c.toNat → c.toNat ≤ 126 → ws c = false

/-- A path that can be given: not blank, without `=`. -/
def Plain (ws : Char → Bool) (path : List Char) : Prop := '=' ∉ path ∧ ∃ c ∈ path, ws c = false

/-- Writes to standard output. -/
def Built.onStdout : Built → Bool
  | .dot | .line | .progress => true
  | .junitXml _ | .rwxV1Json _ => false

/-- The part before the first `=`. -/
def beforeEq (s : List Char) : List Char := s.takeWhile (· ≠ '=')

end Abq.ReporterOptions
