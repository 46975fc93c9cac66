import Verif.Model.Auth

/-!
# Generated tokens

`RawToken::new_random` (`crates/abq_utils/src/auth/token.rs`), used by `abq token new` (`abq_cli/src/main.rs:649-653`) and for the admin's
token of a queue that `abq test` starts (`abq_cli/src/instance.rs:332`). The generator is the sequence of the 32-bit words it draws; a
function that needs more of them than it is given answers `none`. The `rand` library's `Alphanumeric` is modelled as it is in version
0.8: the six highest bits of a word choose one of 62 characters, and the words that choose none are skipped.
-/

namespace Abq.Auth
open Abq.Wire (Byte)

/-- The characters of `rand::distributions::Alphanumeric` (token.rs:31), by number. -/
def symbol (i : Nat) : Nat :=
  if i < 26 then 65 + i else if i < 52 then 97 + (i - 26) else 48 + (i - 52)

/-- token.rs:31 `rng.sample(Alphanumeric)`: the byte, and the words that are left. -/
def sample : List Nat → Option (Byte × List Nat)
  | [] => none
  | d :: ds => if d / 2 ^ 26 < 62 then some (symbol (d / 2 ^ 26), ds) else sample ds

/-- token.rs:30-32: the loop that fills the buffer. -/
def fill : Nat → List Nat → Option (List Byte)
  | 0, _ => some []
  | n + 1, ds =>
    match sample ds with
    | none => none
    | some (b, ds) => (fill n ds).map (b :: ·)

/-- token.rs:22-35 `RawToken::new_random`, user.rs:40-42, admin.rs:37-39. -/
def newRandom (draws : List Nat) : Option (List Byte) := fill tokenLen draws

/-- main.rs:649-653 `abq token new`: the line that is printed, without its end. -/
def tokenNew (draws : List Nat) : Option (List Byte) := (newRandom draws).map displayUser

end Abq.Auth
