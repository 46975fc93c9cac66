import Verif.Spec.Auth

/-! # Vocabulary of C137 -/

namespace Abq.Spec.TokenGen
open Abq.Wire (Byte)

/-- A renaming of what a generator may draw: any number of words is renamed to as many words, each of them to one of 32 bits if it was
one, and renaming twice changes nothing. It takes the sequences of a given length to each other one by one, so the sequences in a set
are as many as those in the renamed set. -/
structure Renaming (f : List Nat → List Nat) : Prop where
  twice : ∀ draws, f (f draws) = draws
  length : ∀ draws, (f draws).length = draws.length
  words : ∀ draws, (∀ d ∈ draws, d < 2 ^ 32) → ∀ d ∈ f draws, d < 2 ^ 32

end Abq.Spec.TokenGen
