import Verif.Model.SendTime

/-! # Vocabulary for how long a worker tries to get a message to the queue (C154) -/

namespace Abq.Spec.SendTime
open Abq.SendTime

/-- An outage lasts at most `length` milliseconds from each moment in it, and then the queue can be reached for at least `gap`. -/
def ShortOutages (world : Nat → Try) (length gap : Nat) : Prop :=
  ∀ t, (world t).ok = false → ∃ back, t < back ∧ back ≤ t + length ∧ ∀ u, back ≤ u → u < back + gap → (world u).ok = true

/-- The queue cannot be reached at any time between these. -/
def Down (world : Nat → Try) (first last : Nat) : Prop := ∀ t, first ≤ t → t ≤ last → (world t).ok = false

/-- No connection is lost once it is there. -/
def NoneLost (exchange : Nat → Exchange) : Prop := ∀ t, (exchange t).written = true ∧ (exchange t).acked = true

/-- When a worker notices that there is no connection to ask for tests over, and how many attempts it has left then: at once and three if
there was none, else after it has tried the old one, which is lost, and two. -/
def NoConnection (old : Option Exchange) (now start attempts : Nat) : Prop :=
  (old = none ∧ start = now ∧ attempts = 3) ∨
  ∃ x, old = some x ∧ (x.written = false ∨ x.acked = false) ∧ start = now + x.takes ∧ attempts = 2

/-- No connection lives long enough for an answer. -/
def AllLost (exchange : Nat → Exchange) : Prop := ∀ t, (exchange t).written = false ∨ (exchange t).acked = false

end Abq.Spec.SendTime
