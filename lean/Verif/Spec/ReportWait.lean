import Verif.Model.ReportWait
/-! # Vocabulary for how long a report waits (C149) -/

namespace Abq.Spec.ReportWait
open Abq.ReportWait

/-- How long a turn takes that connects with the `k`-th attempt: the attempts, three seconds between any two of them, and the exchange. -/
def spent (t : Turn) (k : Nat) : Nat := ((List.range k).map fun j => t.tryTime (j + 1)).sum + 3000 * (k - 1) + t.exchange

/-- A turn connects with one of five attempts, can ask, and has been answered in full after at most `d` milliseconds. -/
def AnsweredIn (t : Turn) (d : Nat) : Prop :=
  (∃ k, 1 ≤ k ∧ k ≤ 5 ∧ t.connects k = true ∧ (∀ j, 1 ≤ j → j < k → t.connects j = false) ∧ spent t k ≤ d) ∧ t.sent = true ∧ t.reply ≠ none

end Abq.Spec.ReportWait
