import Verif.Model.Options
import Verif.Spec.Address
/-!
# What the help of `abq test` says about the words of options
-/

namespace Abq.Spec.Options
open Abq.Config (NumRunners)
open Abq.Options (Color)

/-- `-n`: a positive number, with a plus sign or without, of runners; or "cpu-cores". A number of a machine with 64 bits. -/
def SaysNum (s : List Char) : NumRunners → Prop
  | .cpuCores => s = "cpu-cores".toList
  | .fixed n => 0 < n ∧ n < 2 ^ 64 ∧ ∃ ds, Address.Numeral 10 ds n ∧ (s = ds ∨ s = '+' :: ds)

/-- `--test-strategy`. -/
def SaysStrategy (s : List Char) : TestStrategy → Prop
  | .byTest => s = "by-test".toList
  | .byTopLevelGroup => s = "by-file".toList

/-- `--color`. -/
def SaysColor (s : List Char) : Color → Prop
  | .auto => s = "auto".toList
  | .never => s = "never".toList

/-- A message that says that one of two words must be given. -/
def Demands (message w1 w2 : List Char) : Prop := ∃ pre, message = pre ++ ", must be ".toList ++ w1 ++ " or ".toList ++ w2

end Abq.Spec.Options
