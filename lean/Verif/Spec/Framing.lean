import Verif.Model.Framing

/-! Vocabulary for statements about messages on the wire. -/

namespace Abq.Wire

/-- What is assumed of serialization and compression: decoding undoes encoding, and nothing is encoded as nothing. -/
structure Codec.Lawful {T : Type} (c : Codec T) : Prop where
  json : ∀ m, c.fromSlice (c.toVec m) = some m
  gz : ∀ b, c.gunzip (c.gzip b) = some b
  jsonNe : ∀ m, c.toVec m ≠ []
  gzNe : ∀ b, c.gzip b ≠ []

/-- The bytes of a message after its four bytes of size. -/
def body {T : Type} (c : Codec T) (z : Bool) (m : T) : List Byte := (frame c z m).drop 4

/-- The message is below the limit of 2 GiB (after compression, if it is compressed). -/
def Fits {T : Type} (c : Codec T) (z : Bool) (m : T) : Prop :=
  (if z = true ∧ (c.toVec m).length > 1000000 then c.gzip (c.toVec m) else c.toVec m).length < 2 ^ 31

/-- The bytes of a sequence of messages. -/
def frames {T : Type} (c : Codec T) (z : Bool) (ms : List T) : List Byte := (ms.map (frame c z)).flatten

/-- The reader knows the size of the message it waits for, and has nothing of its body. -/
def AtBody (r : Reader) : Prop := r.msgSize.isSome = true ∧ r.read = 0

/-- No text that ends in zeros is a message. -/
def Codec.RefusesZeros {T : Type} (c : Codec T) : Prop := ∀ b k, 0 < k → c.fromSlice (b ++ List.replicate k 0) = none

/-- Decompression stops at the end of what was compressed: zeros after it are not looked at. -/
def Codec.IgnoresZeros {T : Type} (c : Codec T) : Prop := ∀ b k, c.gunzip (c.gzip b ++ List.replicate k 0) = some b

/-- A schedule without faults: no i/o errors, no time-outs in the middle of a message; and `next` is not abandoned at
the moment between the size and the body of a message. -/
def Calm {T : Type} (c : Codec T) : Conn T → List Act → Prop
  | _, [] => True
  | s, a :: as =>
    (a ≠ .ioError ∧ a ≠ .eof ∧ (a = .expire → s.reader.msgSize = none) ∧ (a = .cancel → ¬ AtBody s.reader)) ∧
    Calm c (s.step c a) as

/-- `next` is never abandoned between the size and the body of a message. -/
def NoBadCancel {T : Type} (c : Codec T) : Conn T → List Act → Prop
  | _, [] => True
  | s, a :: as => (a = .cancel → ¬ AtBody s.reader) ∧ NoBadCancel c (s.step c a) as

/-- Events of a blocking reader without faults. -/
def Quiet : Ev → Prop
  | .read _ | .interrupted | .wouldBlock => True
  | _ => False

/-- A `read` that is allowed to deliver something. -/
def Ev.delivers : Ev → Bool
  | .read k => k != 0
  | _ => false

end Abq.Wire
