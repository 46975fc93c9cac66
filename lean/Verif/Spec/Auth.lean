import Verif.Model.Auth

/-! # Vocabulary for tokens -/

namespace Abq.Auth
open Abq.Wire (Byte)

/-- A letter or digit. -/
def LetterOrDigit (b : Nat) : Prop :=
  ('0'.toNat ≤ b ∧ b ≤ '9'.toNat) ∨ ('A'.toNat ≤ b ∧ b ≤ 'Z'.toNat) ∨ ('a'.toNat ≤ b ∧ b ≤ 'z'.toNat)

/-- The bytes of a token: thirty letters and digits. -/
def IsToken (t : List Byte) : Prop := t.length = 30 ∧ ∀ b ∈ t, LetterOrDigit b

/-- The bytes of a text made of ASCII characters. -/
def ascii (s : String) : List Byte := s.toList.map Char.toNat

/-- The connection's first bytes are the token. -/
def Presents (stream t : List Byte) : Prop := ∃ rest, stream = t ++ rest

end Abq.Auth
