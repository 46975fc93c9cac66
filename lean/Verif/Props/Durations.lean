import Verif.Spec.Durations
import Verif.Proof.Durations
import Verif.Props.Output
/-!
# How durations are written (C120)
-/

namespace Abq.Props
open Durations
open Terminal (Text)

/-! ## C120 -/

/-- **C120**: every duration below `2 ^ 53` milliseconds (285 thousand years) is shown in seconds, correct to the
hundredth, although it is divided and rounded with floating point numbers. -/
theorem C120_seconds (ns : Nat) (hn : ns / 1000000 < 2 ^ 53) : ShownWell (partialSeconds ns) ns := by
  obtain ⟨h1, h2⟩ := hundredths_close (ns / 1000000) hn
  refine ⟨hundredths (ns / 1000000), ?_, by omega, by omega⟩
  have ht : partialSeconds ns = (toString (hundredths (ns / 1000000) / 100)).toList ++
      '.' :: (toString (hundredths (ns / 1000000) % 100 / 10)).toList ++
      (toString (hundredths (ns / 1000000) % 10)).toList ++ " seconds".toList := rfl
  rw [ht]
  generalize hundredths (ns / 1000000) = h
  refine ⟨h / 100, h % 100 / 10, h % 10, by omega, by omega, by omega, ?_⟩
  rw [digit_text (h % 100 / 10) (by omega), digit_text (h % 10) (by omega)]
  simp

/-- **C120**, in the summary. The first line says how long the suite took, and the time that its results say was spent in
test code, in seconds, each correct to the hundredth. -/
theorem C120_summary (g : Output.Grouping) (h : List Summary.Result) (ids : List String) (hi : Summary.TestsOf h ids)
    (wall : Nat) (hw : wall / 1000000 < 2 ^ 53) (hb : ((h.filter (·.material)).map (·.runtime)).sum < 2 ^ 64) :
    ∃ took spent rest,
      suiteSummary g wall (Summary.summarise h)
        = Output.numbers took spent (ids.length + (Summary.unresolved h).length)
            (ids.countP (fun id => Summary.failedTest (Summary.resultsOf h id)) + (Summary.unresolved h).length)
            (ids.countP fun id => 2 ≤ (Summary.resultsOf h id).length) ++ rest ∧
      ShownWell took wall ∧ ShownWell spent ((h.filter (·.material)).map (·.runtime)).sum := by
  obtain ⟨retries, failures, -, -, -, -, ht⟩ := C88_summary g h ids hi (partialSeconds wall)
    (partialSeconds (Runtime.duration (.nanoseconds (Summary.summarise h).testTime)))
  refine ⟨_, _, _, ((show suiteSummary g wall (Summary.summarise h) = _ from ht).trans (List.append_assoc _ _ _)),
    C120_seconds wall hw, ?_⟩
  have e : Runtime.duration (.nanoseconds (Summary.summarise h).testTime)
      = ((h.filter (·.material)).map (·.runtime)).sum := C41_test_time_partial h hb
  rw [e]
  apply C120_seconds
  generalize ((h.filter (·.material)).map (·.runtime)).sum = t at *
  have : (2 : Nat) ^ 64 ≤ 2 ^ 53 * 1000000 := by decide
  omega

/-- **C120**, with units. A duration is shown as minutes, seconds (below 60) and milliseconds (below 1000) that add up to
it, up to the part below a millisecond. -/
theorem C120_units (d : Runtime) : ∃ m s ms, s < 60 ∧ ms < 1000 ∧
    d.duration / 1000000 = 60000 * m + 1000 * s + ms ∧ inUnits d = unitsText m s ms := by
  have hd : d.duration / 1000000 = d.millis := by
    cases d with
    | milliseconds ms => exact Nat.mul_div_cancel _ (by decide)
    | nanoseconds ns => rfl
  refine ⟨d.duration / 1000000 / 60000, d.duration / 1000000 % 60000 / 1000, d.duration / 1000000 % 60000 % 1000,
    by omega, by omega, by omega, ?_⟩
  unfold inUnits
  dsimp only
  rw [← hd]
  generalize d.duration / 1000000 / 60000 = m
  generalize d.duration / 1000000 % 60000 / 1000 = s
  generalize d.duration / 1000000 % 60000 % 1000 = ms
  rcases Nat.eq_zero_or_pos m with rfl | hm <;> rcases Nat.eq_zero_or_pos s with rfl | hs <;>
    rcases Nat.eq_zero_or_pos ms with rfl | hx <;> simp [unitsText, *] <;> rfl

/-- **C120**, sums. A time given in whole milliseconds (as for tests that were lost to a crash) adds exactly to one in
nanoseconds, up to `2 ^ 53` ns (104 days). -/
theorem C120_sum (ms ns : Nat) (hm : ms * 1000000 < 2 ^ 53) (hs : ns + ms * 1000000 < 2 ^ 64) :
    ((Runtime.nanoseconds ns).add (.milliseconds (ofNat ms))).duration = ns + ms * 1000000 ∧
    ((Runtime.milliseconds (ofNat ms)).add (.nanoseconds ns)).duration = ns + ms * 1000000 ∧
    (Runtime.milliseconds (ofNat ms)).duration = ms * 1000000 := by
  have h : toU64 (mul (ofNat ms) (ofNat 1000000)) = ms * 1000000 := by
    rw [mul_exact ms 1000000 (by omega) (by decide) hm, toU64_exact _ hm]
  refine ⟨?_, ?_, ?_⟩
  · show (ns + toU64 (mul (ofNat ms) (ofNat 1000000))) % 18446744073709551616 = _
    rw [h]; exact Nat.mod_eq_of_lt hs
  · show (ns + toU64 (mul (ofNat ms) (ofNat 1000000))) % 18446744073709551616 = _
    rw [h]; exact Nat.mod_eq_of_lt hs
  · show toU64 (ofNat ms) * 1000000 = _
    rw [toU64_exact ms (by omega)]

/-- **C120**, sums of times in the same unit. -/
theorem C120_sum_same (a b m n : Nat) (hn : a + b < 2 ^ 64) (hm : m + n < 2 ^ 53) :
    ((Runtime.nanoseconds a).add (.nanoseconds b)).duration = a + b ∧
    ((Runtime.milliseconds (ofNat m)).add (.milliseconds (ofNat n))).duration = (m + n) * 1000000 := by
  refine ⟨Nat.mod_eq_of_lt hn, ?_⟩
  show toU64 (Durations.add (ofNat m) (ofNat n)) * 1000000 = _
  rw [add_exact m n hm, toU64_exact _ hm]

example : ((Runtime.milliseconds (ofNat 1500)).add (.milliseconds (ofNat 250))).duration = 1750000000 := by
  have h : 1500 + 250 < 2 ^ 53 := by decide
  exact (C120_sum_same 0 0 1500 250 (by decide) h).2

/-! The texts of the tests in `output.rs:871-900`. -/

set_option exponentiation.threshold 3000
set_option maxRecDepth 20000

example : partialSeconds 360000000000 = "360.00 seconds".toList := by decide
example : partialSeconds 412035000000 = "412.04 seconds".toList := by decide
example : partialSeconds 15035000000 = "15.04 seconds".toList := by decide
example : partialSeconds 35000000 = "0.04 seconds".toList := by decide
/-- The number next to 1.005 is smaller than it. -/
example : partialSeconds 1005000000 = "1.00 seconds".toList := by decide
example : inUnits (.nanoseconds 412035999999) = "6 m, 52 s, 35 ms".toList := by decide
example : inUnits (.milliseconds (ofNat 15035)) = "15 s, 35 ms".toList := by decide
example : inUnits (.nanoseconds 0) = "0 ms".toList := by decide
/-- Ties are rounded to even numbers. -/
example : partialSeconds 125000000 = "0.12 seconds".toList := by decide

/-- Two tests of 1.2 s in a suite that took 1.5 s. -/
example : suiteSummary .worker 1500000000 (Summary.summarise
      [⟨1, 1, "a", .success, 1200000000, none, (0, 1)⟩, ⟨1, 2, "b", .success, 1200000000, none, (0, 1)⟩])
    = Output.numbers "1.50 seconds".toList "2.40 seconds".toList 2 0 0 := by decide

end Abq.Props
