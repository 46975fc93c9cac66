import Verif.Model.TestTime

/-! # Vocabulary for how long a native runner may take -/

namespace Abq.Spec.TestTime
open Abq.TestTime Abq.NativeRunner

/-- How long it takes until all of these have been heard. -/
def together : List Heard → Nat
  | [] => 0
  | h :: hs => h.after + together hs

/-- The test is answered at time `n`: it was written, any number of parts of its results came, and then the rest of them. -/
def Answered (t : Test) (n : Nat) : Prop :=
  ∃ w parts h later, t.write = .done w ∧ t.heard = parts ++ h :: later ∧ (∀ p ∈ parts, p.what = some .increment) ∧
    h.what = some .results ∧ n = w + together parts + h.after

/-- The native runner fails at time `n`: it could not be written to, or it hung up or wrote something else instead of results. -/
def Fails (t : Test) (n : Nat) : Prop :=
  t.write = .failed n ∨
  ∃ w parts h later, t.write = .done w ∧ t.heard = parts ++ h :: later ∧ (∀ p ∈ parts, p.what = some .increment) ∧
    h.what ≠ some .increment ∧ h.what ≠ some .results ∧ n = w + together parts + h.after

/-- The results of the test are with the sender of results at time `n`. -/
def Delivered (t : Test) (n : Nat) : Prop := ∃ m r, Answered t m ∧ t.room = some r ∧ n = m + r

/-- The steps of `Model/NativeRunner.lean` for what is heard. -/
def steps : List Heard → List Act
  | [] => []
  | ⟨_, some m⟩ :: hs => .say m :: .go :: steps hs
  | ⟨_, none⟩ :: hs => .hangUp :: .go :: steps hs

end Abq.Spec.TestTime
