import Verif.Model.BatchSize
import Verif.Spec.Address
/-!
# What `--batch-size` says

"How many tests to send to a worker a time": a positive number, any number of 64 bits.
-/

namespace Abq.Spec.BatchSize

/-- The word is the number, with a plus sign or without. -/
def Says (s : List Char) (n : Nat) : Prop := 0 < n ∧ n < 2 ^ 64 ∧ ∃ ds, Address.Numeral 10 ds n ∧ (s = ds ∨ s = '+' :: ds)

/-- A machine whose allocator gives at most `m` bytes at once. -/
def upTo (m : Nat) (n : Nat) : Bool := decide (n ≤ m)

end Abq.Spec.BatchSize
