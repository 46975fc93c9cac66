import Verif.Model.Options
/-!
# The command that `abq test` prints for replaying its tests

`crates/abq_cli/src/workers.rs:193-209`; when it is printed is in `Model/WorkerExit.lean`. And what the options it names take:
`crates/abq_cli/src/args.rs:254-259` (`--worker`), `crates/abq_utils/src/net_protocol.rs:266-278` (`--run-id`); `--num` is in
`Model/Options.lean`. A string is a list of characters.
-/

namespace Abq.ReplayHint
open Abq.Address (number)
open Abq.Options (digits parseUsize)

/-- What the user is to replace by their command (`workers.rs:201`). -/
def placeholder : List Char := "<your-test-command>".toList

/-- `workers.rs:200-205`: the line printed, with something in the place of `<your-test-command>`. -/
def line (runId : List Char) (worker runners : Nat) (command : List Char) : List Char :=
  "\tabq".toList ++ " test".toList ++ " --run-id ".toList ++ runId ++ " --worker ".toList ++ number 10 worker ++
    " --num ".toList ++ number 10 runners ++ " -- ".toList ++ command

/-- `net_protocol.rs:266-272` `from_str` of `RunId`: any text. -/
def parseRunId (s : List Char) : Option (List Char) := some s

/-- How the library takes a `u32` for `--worker` (`args.rs:258-259`): as an `i64`, which must be within bounds. -/
def parseWorker : List Char → Option Nat
  | '-' :: cs =>
    if cs = [] then none
    else
      match digits (2 ^ 63 + 1) cs 0 with
      | some 0 => some 0
      | _ => none
  | cs =>
    match parseUsize cs with
    | some n => if n < 2 ^ 32 then some n else none
    | none => none

end Abq.ReplayHint
