import Verif.Model.StripCodes

/-! # Vocabulary of C139 -/

namespace Abq.Spec.StripCodes

/-- Whether a character is shown, or ends a line: it is no control character of ASCII, or it is a line feed. -/
def Visible (c : Char) : Prop := 0x20 ≤ c.toNat ∨ c = '\n'

/-- A character in a range of ASCII. -/
def Within (lo hi : Char) (c : Char) : Prop := lo.toNat ≤ c.toNat ∧ c.toNat ≤ hi.toNat

/-- The pieces an output is made of: text, and the codes of ECMA-48. -/
inductive Piece where
  | text (t : List Char)
  /-- A control sequence: `ESC [`, parameters and a last character. It sets colours and moves the cursor. -/
  | csi (parameters : List Char) (final : Char)
  /-- A command to the system, `ESC ]`, ended by a bell. It sets titles and links. -/
  | oscBell (t : List Char)
  /-- The same, ended by `ESC \`. -/
  | osc (t : List Char)
  /-- Another string, `ESC` with `P`, `X`, `^` or `_`, ended by `ESC \`. -/
  | string (start : Char) (t : List Char)
  /-- Another code: `ESC`, perhaps some characters, and a last one. It chooses sets of characters and resets terminals. -/
  | other (middle : List Char) (final : Char)
  /-- A control character other than a line feed and ESC, such as a tab or a bell. -/
  | control (c : Char)

/-- The characters of a piece. -/
def Piece.chars : Piece → List Char
  | .text t => t
  | .csi parameters final => '\x1B' :: '[' :: parameters ++ [final]
  | .oscBell t => '\x1B' :: ']' :: t ++ ['\x07']
  | .osc t => '\x1B' :: ']' :: t ++ ['\x1B', '\\']
  | .string start t => '\x1B' :: start :: t ++ ['\x1B', '\\']
  | .other middle final => '\x1B' :: middle ++ [final]
  | .control c => [c]

/-- What ECMA-48 says of the characters of a piece. -/
def Piece.Valid : Piece → Prop
  | .text t => ∀ c ∈ t, Visible c
  | .csi parameters final => (∀ c ∈ parameters, Within ' ' '?' c) ∧ Within '@' '~' final
  | .oscBell t | .osc t => ∀ c ∈ t, 0x20 ≤ c.toNat
  | .string start t => (start = 'P' ∨ start = 'X' ∨ start = '^' ∨ start = '_') ∧ ∀ c ∈ t, Within ' ' '~' c
  | .other middle final => (∀ c ∈ middle, Within ' ' '/' c) ∧ Within '0' '~' final ∧
      (middle = [] → final ≠ 'P' ∧ final ≠ 'X' ∧ final ≠ '[' ∧ final ≠ ']' ∧ final ≠ '^' ∧ final ≠ '_')
  | .control c => c.toNat < 0x20 ∧ c ≠ '\n' ∧ c ≠ '\x1B'

/-- What is left of a piece. -/
def Piece.shown : Piece → List Char
  | .text t => t
  | _ => []

end Abq.Spec.StripCodes
