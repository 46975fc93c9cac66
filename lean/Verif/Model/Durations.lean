import Verif.Model.Output
/-!
# How durations are written

`crates/abq_reporting/src/output.rs:496-537` and the arithmetic of durations in
`crates/abq_utils/src/net_protocol/runners.rs:552-580`. Errors of writing are left out. Numbers with a floating point
(`f64`, IEEE 754 binary64) are modelled bit by bit as far as they occur: the results of the operations are rounded to 53
significant bits, ties to even. Negative numbers, infinities and NaN do not occur: the number of milliseconds of a
`TestRuntime` is made from a whole number (`generic_test_runner/src/lib.rs:1373`).
-/

namespace Abq.Durations
open Terminal (Text)

/-- The whole number closest to `n / d`; of two that are equally close, the even one. This is how IEEE 754 rounds, and
how `core::fmt` rounds decimals (`{:.2}`, output.rs:536) since Rust 1.67; `/repo/rust-toolchain.toml` says 1.81. -/
def nearest (n d : Nat) : Nat :=
  if 2 * (n % d) < d then n / d
  else if d < 2 * (n % d) then n / d + 1
  else if n / d % 2 = 0 then n / d
  else n / d + 1

/-- A finite, non-negative `f64` (output.rs:534-535) is given as a multiple of the smallest positive one, which is
`2 ^ -1074`. This is the `f64` closest to `n / d`: with 53 significant bits, or a multiple of `2 ^ -1074` if it is too
small for that. (Used by every operation of output.rs:534-535 and runners.rs:561-580 with a floating point.) Numbers from
`2 ^ 1024` do not occur. -/
def round (n d : Nat) : Nat :=
  let ulp := 2 ^ (Nat.log2 (n * 2 ^ 1074 / d) - 52)
  nearest (n * 2 ^ 1074) (d * ulp) * ulp

/-- `n as f64` for a whole number (output.rs:534). -/
def ofNat (n : Nat) : Nat := round n 1

/-- `x / y` (output.rs:535). -/
def div (x y : Nat) : Nat := round x y

/-- `x * y` (runners.rs:577). -/
def mul (x y : Nat) : Nat := round (x * y) (2 ^ 1074 * 2 ^ 1074)

/-- `x + y` (runners.rs:573). -/
def add (x y : Nat) : Nat := round (x + y) (2 ^ 1074)

/-- `x as u64`: rounded down, and saturated (runners.rs:563, 577, output.rs:502). -/
def toU64 (x : Nat) : Nat := min (x / 2 ^ 1074) (2 ^ 64 - 1)

/-- `{x:.2}` (output.rs:536): the digits before the point, and two digits after it. -/
def twoDecimals (x : Nat) : Text :=
  let h := nearest (100 * x) (2 ^ 1074)
  (toString (h / 100)).toList ++ '.' :: (toString (h % 100 / 10)).toList ++ (toString (h % 10)).toList

/-- runners.rs:552-556 `TestRuntime`. -/
inductive Runtime where
  | milliseconds (ms : Nat)
  | nanoseconds (ns : Nat)
deriving DecidableEq, Repr

/-- runners.rs:561-566 `TestRuntime::duration`, in nanoseconds. -/
def Runtime.duration : Runtime → Nat
  | .milliseconds ms => toU64 ms * 1000000
  | .nanoseconds ns => ns

/-- runners.rs:569-580 `add_assign`. Numbers of nanoseconds are added as `u64`; a release build wraps around. -/
def Runtime.add : Runtime → Runtime → Runtime
  | .milliseconds l, .milliseconds r => .milliseconds (Durations.add l r)
  | .nanoseconds l, .nanoseconds r => .nanoseconds ((l + r) % 18446744073709551616)
  | .milliseconds ms, .nanoseconds ns => .nanoseconds ((ns + toU64 (mul ms (ofNat 1000000))) % 18446744073709551616)
  | .nanoseconds ns, .milliseconds ms => .nanoseconds ((ns + toU64 (mul ms (ofNat 1000000))) % 18446744073709551616)

/-- output.rs:530-537 `format_duration_to_partial_seconds`, for a duration in nanoseconds (`as_millis` rounds down). -/
def partialSeconds (ns : Nat) : Text :=
  let millis := ofNat (ns / 1000000)
  let seconds := div millis (ofNat 1000)
  twoDecimals seconds ++ " seconds".toList

/-- output.rs:501-504 the whole milliseconds of a duration. -/
def Runtime.millis : Runtime → Nat
  | .milliseconds ms => toU64 ms
  | .nanoseconds ns => ns / 1000000

/-- output.rs:498-528 `format_duration`. -/
def inUnits (d : Runtime) : Text :=
  let millis := d.millis
  let minutes := millis / 60000
  let millis := millis % 60000
  let seconds := millis / 1000
  let millis := millis % 1000
  let text : Text := []
  let written := false
  let (text, written) :=
    if minutes > 0 then (text ++ (toString minutes).toList ++ " m".toList, true) else (text, written)
  let (text, written) :=
    if seconds > 0 then
      ((if written then text ++ ", ".toList else text) ++ (toString seconds).toList ++ " s".toList, true)
    else (text, written)
  if millis > 0 || !written then
    (if written then text ++ ", ".toList else text) ++ (toString millis).toList ++ " ms".toList
  else text

/-- `reporting.rs:133-150` `write_short_summary_lines`, for a suite that took `wall` nanoseconds. -/
def suiteSummary (g : Output.Grouping) (wall : Nat) (s : Summary.SuiteResult) : Text :=
  Output.shortSummary g (partialSeconds wall) (partialSeconds (Runtime.duration (.nanoseconds s.testTime))) s

end Abq.Durations
