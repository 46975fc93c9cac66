import Verif.Model.Capture

/-!
# Vocabulary: what the child wrote, what was captured, and interleavings
-/

namespace Abq.Spec
open Abq.Capture

/-- The bytes an action writes to the child's stream `w`. -/
def bytesTo (w : Which) : Act → List Byte
  | .child w' bs => if w' = w then bs else []
  | _ => []

/-- All that the child wrote to its stream `w` in a schedule, up to the point where it closed it. -/
def wrote (w : Which) (as : List Act) : List Byte := (as.takeWhile (· ≠ .childCloses w)).flatMap (bytesTo w)

/-- The bytes of the stream `w` that a call took. -/
def takenBy (w : Which) : Event → List Byte
  | .captured o e => match w with | .out => o | .err => e
  | .finished o e _ => match w with | .out => o | .err => e
  | _ => []

/-- All captures of the stream `w`, one after the other. -/
def taken (w : Which) (evs : List Event) : List Byte := evs.flatMap (takenBy w)

/-- What is to be captured: the header (if any), and what the child wrote. -/
def expected (isRetry : Bool) (retryHeader : List Byte) (w : Which) (as : List Act) : List Byte :=
  (if w = .out ∧ isRetry = true then retryHeader else []) ++ wrote w as

/-- The events that crash the caller. -/
def Crashed (evs : List Event) : Prop := .panicked ∈ evs ∨ .again ∈ evs

/-- `c` interleaves `a` and `b`, each in its own order. -/
inductive Merge {α : Type} : List α → List α → List α → Prop
  | nil : Merge [] [] []
  | left (x : α) {a b c : List α} : Merge a b c → Merge (x :: a) b (x :: c)
  | right (x : α) {a b c : List α} : Merge a b c → Merge a (x :: b) (x :: c)

/-- No read from the child fails, nor, if the output is forwarded, a write to the parent's streams. -/
def Healthy (piped : Bool) (as : List Act) : Prop := ∀ w, (piped = true → Act.write w .fail ∉ as) ∧ Act.read w none ∉ as

/-- The child closes the stream `w`, and all that is left of it is copied, in pieces of up to `N` bytes. -/
def drain (w : Which) (N : Nat) : List Act :=
  [.childCloses w, .write w (.accept N), .write w (.accept N), .read w (some N), .write w (.accept N), .eof w]

end Abq.Spec
