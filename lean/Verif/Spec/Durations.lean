import Verif.Model.Durations
/-!
# Vocabulary for how durations are written (C120)
-/

namespace Abq.Durations
open Terminal (Text)

/-- The text is a number of seconds with two decimals, and it is this number of hundredths. -/
def ShowsHundredths (t : Text) (h : Nat) : Prop :=
  ∃ s a b, a < 10 ∧ b < 10 ∧ h = 100 * s + 10 * a + b ∧
    t = (toString s).toList ++ ['.', a.digitChar, b.digitChar] ++ " seconds".toList

/-- A duration (in nanoseconds) is shown in seconds, correct to the hundredth: what is shown is at most 5 ms more, and
less than 6 ms less. (The part of it below a millisecond is not looked at.) -/
def ShownWell (t : Text) (ns : Nat) : Prop :=
  ∃ h, ShowsHundredths t h ∧ h * 10000000 ≤ ns + 5000000 ∧ ns < h * 10000000 + 6000000

/-- Minutes, seconds and milliseconds, those that are not zero. -/
def unitsText (m s ms : Nat) : Text :=
  let parts := [(m, "m"), (s, "s"), (ms, "ms")].filter (0 < ·.1)
  if parts = [] then "0 ms".toList
  else ((parts.map fun p => (toString p.1 ++ " " ++ p.2).toList).intersperse ", ".toList).flatten

end Abq.Durations
