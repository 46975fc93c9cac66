import Verif.Model.JUnit

/-!
# Removing escape codes

What `strip_ansi_escapes::strip` does to the output of a test before it is written to the JUnit report
(`crates/reporters/junit_xml/src/lib.rs:53-64`). It is a function of the library `strip-ansi-escapes` 0.1.1, which gives each byte to the
parser of `vte` 0.10.1, which gives those of characters that are not ASCII to the parser of `utf8parse` 0.2.0. These are modelled from
their use at `junit_xml/src/lib.rs:57-58`. Simplification: parameters and the contents of codes are not collected, as nothing is done with
them; states of `vte` that differ only in that are one (`CsiEntry`, `CsiParam`, `CsiIntermediate` and `CsiIgnore` are `csi`; `DcsIgnore` and
`DcsPassthrough` are `dcs`). Writing to memory does not fail.
-/

namespace Abq.StripCodes

/-- `utf8parse`'s states, between the bytes of a character (`junit_xml/src/lib.rs:57`). -/
inductive Tail where
  | tail3 | tail2 | tail1
  /-- `U3_2_e0`, `U3_2_ed`, `Utf8_4_3_f0`, `Utf8_4_3_f4`: the second byte has a smaller range -/
  | e0 | ed | f0 | f4
deriving DecidableEq, Repr

/-- `vte`'s states (`junit_xml/src/lib.rs:57`). -/
inductive State where
  | ground | escape | escapeIntermediate | csi | dcsEntry | dcsParam | dcsIntermediate | dcs | osc
  /-- a string that starts with SOS, PM or APC -/
  | sos
  /-- in a character, with the code point so far -/
  | utf8 (t : Tail) (point : Nat)
deriving DecidableEq, Repr

/-- What the parser tells to do: to show a character, by its code point, or to do what a control character says
(`junit_xml/src/lib.rs:57`). -/
inductive Told where
  | nothing | print (point : Nat) | execute (b : Nat)
deriving DecidableEq, Repr

/-- `utf8parse`'s `advance` in its first state, for the bytes that `vte` gives it there (`junit_xml/src/lib.rs:57`). -/
def begin (b : Nat) : State × Told :=
  if 0xC2 ≤ b ∧ b ≤ 0xDF then (.utf8 .tail1 (b % 32 * 64), .nothing)
  else if b = 0xE0 then (.utf8 .e0 (b % 16 * 4096), .nothing)
  else if b = 0xED then (.utf8 .ed (b % 16 * 4096), .nothing)
  else if 0xE1 ≤ b ∧ b ≤ 0xEF then (.utf8 .tail2 (b % 16 * 4096), .nothing)
  else if b = 0xF0 then (.utf8 .f0 (b % 8 * 262144), .nothing)
  else if b = 0xF4 then (.utf8 .f4 (b % 8 * 262144), .nothing)
  else if 0xF1 ≤ b ∧ b ≤ 0xF3 then (.utf8 .tail3 (b % 8 * 262144), .nothing)
  else (.ground, .print 0xFFFD)

/-- `utf8parse`'s `advance` in its other states; a byte that does not belong there is taken, and U+FFFD shown
(`junit_xml/src/lib.rs:57`). -/
def continued (t : Tail) (point b : Nat) : State × Told :=
  match t with
  | .tail1 => if 0x80 ≤ b ∧ b ≤ 0xBF then (.ground, .print (point + b % 64)) else (.ground, .print 0xFFFD)
  | .tail2 => if 0x80 ≤ b ∧ b ≤ 0xBF then (.utf8 .tail1 (point + b % 64 * 64), .nothing) else (.ground, .print 0xFFFD)
  | .tail3 => if 0x80 ≤ b ∧ b ≤ 0xBF then (.utf8 .tail2 (point + b % 64 * 4096), .nothing) else (.ground, .print 0xFFFD)
  | .e0 => if 0xA0 ≤ b ∧ b ≤ 0xBF then (.utf8 .tail1 (point + b % 64 * 64), .nothing) else (.ground, .print 0xFFFD)
  | .ed => if 0x80 ≤ b ∧ b ≤ 0x9F then (.utf8 .tail1 (point + b % 64 * 64), .nothing) else (.ground, .print 0xFFFD)
  | .f0 => if 0x90 ≤ b ∧ b ≤ 0xBF then (.utf8 .tail2 (point + b % 64 * 4096), .nothing) else (.ground, .print 0xFFFD)
  | .f4 => if 0x80 ≤ b ∧ b ≤ 0x8F then (.utf8 .tail2 (point + b % 64 * 4096), .nothing) else (.ground, .print 0xFFFD)

/-- The table of `vte`, but for the bytes that mean the same everywhere (`junit_xml/src/lib.rs:57`). -/
def change (s : State) (b : Nat) : State × Told :=
  match s with
  | .ground =>
    if b < 0x20 then (.ground, .execute b)
    else if b < 0x80 then (.ground, .print b)
    else if b ≤ 0x9C ∧ b ≠ 0x90 ∧ b ≠ 0x9B then (.ground, .execute b)
    else if 0xC2 ≤ b ∧ b ≤ 0xF4 then begin b
    else (.ground, .nothing)
  | .escape =>
    if b < 0x20 then (.escape, .execute b)
    else if b < 0x30 then (.escapeIntermediate, .nothing)
    else if b = 0x50 then (.dcsEntry, .nothing)
    else if b = 0x58 ∨ b = 0x5E ∨ b = 0x5F then (.sos, .nothing)
    else if b = 0x5B then (.csi, .nothing)
    else if b = 0x5D then (.osc, .nothing)
    else if b < 0x7F then (.ground, .nothing)
    else (.escape, .nothing)
  | .escapeIntermediate =>
    if b < 0x20 then (.escapeIntermediate, .execute b)
    else if 0x30 ≤ b ∧ b < 0x7F then (.ground, .nothing)
    else (.escapeIntermediate, .nothing)
  | .csi =>
    if b < 0x20 then (.csi, .execute b)
    else if 0x40 ≤ b ∧ b < 0x7F then (.ground, .nothing)
    else (.csi, .nothing)
  | .dcsEntry =>
    if 0x20 ≤ b ∧ b < 0x30 then (.dcsIntermediate, .nothing)
    else if 0x30 ≤ b ∧ b < 0x40 then (.dcsParam, .nothing)
    else if 0x40 ≤ b ∧ b < 0x7F then (.dcs, .nothing)
    else (.dcsEntry, .nothing)
  | .dcsParam =>
    if 0x20 ≤ b ∧ b < 0x30 then (.dcsIntermediate, .nothing)
    else if 0x3C ≤ b ∧ b < 0x7F then (.dcs, .nothing)
    else (.dcsParam, .nothing)
  | .dcsIntermediate =>
    if 0x30 ≤ b ∧ b < 0x7F then (.dcs, .nothing) else (.dcsIntermediate, .nothing)
  | .dcs => if b = 0x9C then (.ground, .nothing) else (.dcs, .nothing)
  | .sos => if b = 0x9C then (.ground, .nothing) else (.sos, .nothing)
  | .osc => if b = 0x07 then (.ground, .nothing) else (.osc, .nothing)
  | .utf8 t point => continued t point b

/-- `vte`'s `advance` (`junit_xml/src/lib.rs:57`): first the bytes of a character, then CAN, SUB and ESC, which mean the same in all other
states, then the table. -/
def advance (s : State) (b : Nat) : State × Told :=
  match s with
  | .utf8 t point => continued t point b
  | s =>
    if b = 0x18 ∨ b = 0x1A then (.ground, .execute b)
    else if b = 0x1B then (.escape, .nothing)
    else change s b

/-- What `strip-ansi-escapes` writes: the character shown, or the end of a line (`junit_xml/src/lib.rs:57`). -/
def Told.written : Told → List Nat
  | .nothing => []
  | .print point => [point]
  | .execute b => if b = 0x0A then [0x0A] else []

/-- The bytes one after the other (`junit_xml/src/lib.rs:57`): the code points written. -/
def run : State → List Nat → State × List Nat
  | s, [] => (s, [])
  | s, b :: bs =>
    let (s', told) := advance s b
    let (s'', out) := run s' bs
    (s'', told.written ++ out)

/-- The bytes of a text (`junit_xml/src/lib.rs:53`). -/
def bytes (t : List Char) : List Nat := t.flatMap fun c => (String.utf8EncodeChar c).map (·.toNat)

/-- `junit_xml/src/lib.rs:53-64` the output of a test, cleaned; `none` if what is left is no text, which is a panic there. -/
def strip (t : List Char) : Option (List Char) :=
  let points := (run .ground (bytes t)).2
  if points.all fun n => n.isValidChar then some (points.map Char.ofNat) else none

end Abq.StripCodes
