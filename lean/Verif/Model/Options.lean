import Verif.Model.Address
import Verif.Model.Config
import Verif.Model.JobQueue
/-!
# The words of options

`crates/abq_cli/src/args.rs:27-49` (`-n`), `crates/abq_utils/src/net_protocol.rs:516-541` (`--test-strategy`) and
`crates/abq_cli/src/reporting.rs:97-113` (`--color`): the `FromStr` and `Display` of their types. A string is a list of characters.
`--reporter` is in `Model/ReporterOptions.lean`, `--remote-persistence-strategy` in `Model/RemoteConfig.lean`, addresses are in
`Model/Address.lean`.
-/

namespace Abq.Options
open Abq.Address (toDigit)
open Abq.Config (NumRunners)

/-- The loop over digits in `from_str_radix` of the standard library (used at `args.rs:41-43`), with the checks for overflow. -/
def digits (bound : Nat) : List Char → Nat → Option Nat
  | [], n => some n
  | c :: cs, n =>
    match toDigit 10 c with
    | none => none
    | some d => if n * 10 + d < bound then digits bound cs (n * 10 + d) else none

/-- `usize::from_str` of the standard library, on 64 bits (used at `args.rs:41-43`): a plus sign may come first, a minus sign is no
digit of an unsigned number. -/
def parseUsize : List Char → Option Nat
  | [] => none
  | ['+'] => none
  | '+' :: cs => digits (2 ^ 64) cs 0
  | cs => digits (2 ^ 64) cs 0

/-- `args.rs:34-49` `from_str`: a `NonZeroUsize` is not 0. -/
def parseNum (s : List Char) : Option NumRunners :=
  if s = "cpu-cores".toList then some .cpuCores
  else
    match parseUsize s with
    | some 0 => none
    | some n => some (.fixed n)
    | none => none

/-- `net_protocol.rs:516` `STRATEGY_BY_TEST`. -/
def strategyByTest : List Char := "by-test".toList
/-- `net_protocol.rs:517` `STRATEGY_BY_FILE`. -/
def strategyByFile : List Char := "by-file".toList

/-- `net_protocol.rs:519-526` `Display` of `TestStrategy`. -/
def printStrategy : TestStrategy → List Char
  | .byTest => strategyByTest
  | .byTopLevelGroup => strategyByFile

/-- `net_protocol.rs:528-541` `from_str` of `TestStrategy`. -/
def parseStrategy (s : List Char) : Except (List Char) TestStrategy :=
  if s = strategyByTest then .ok .byTest
  else if s = strategyByFile then .ok .byTopLevelGroup
  else .error ("Can't parse distribution strategy :'".toList ++ s ++ "', must be ".toList ++ "default".toList ++ " or ".toList ++
    "by-group".toList)

/-- `reporting.rs:97-101` `ColorPreference`. -/
inductive Color where
  | auto
  | never
deriving DecidableEq, Repr

/-- `reporting.rs:103-113` `from_str` of `ColorPreference`. -/
def parseColor (s : List Char) : Option Color :=
  if s = "auto".toList then some .auto
  else if s = "never".toList then some .never
  else none

end Abq.Options
