import Verif.Model.AllRuns

/-!
# The test command's hash, and the native runner's protocol version
-/

namespace Abq

/-- A test command: the program and its arguments (`net_protocol.rs:348-352` `NativeTestRunnerParams`). -/
structure Command where
  cmd : String
  args : List String
deriving DecidableEq, Repr

/-- `test_command_hash.rs:7-14` `TestCommandHash::from_command`; `blake3` is a parameter, applied to the bytes given to
`update` one after the other. Simplification: characters in place of UTF-8 bytes. -/
def commandHash (blake3 : String → String) (c : Command) : String :=
  blake3 (String.ofList (c.cmd.toList ++ c.args.flatMap String.toList))

/-- `runners.rs:34-40` `AbqProtocolVersion`. -/
structure ProtocolVersion where
  major : UInt64
  minor : UInt64
deriving DecidableEq, Repr

/-- `runners.rs:62-64` `PrivProtocolWitness`. -/
inductive Witness where
  | v0_2
deriving DecidableEq, Repr

/-- `runners.rs:51-58` `get_supported_witness`, with `V0_2` of runners.rs:46. -/
def ProtocolVersion.supported (v : ProtocolVersion) : Option Witness :=
  if v = ⟨0, 2⟩ then some .v0_2 else none

/-- What happens while waiting for the native runner to connect and announce itself
(`generic_test_runner/src/lib.rs:114-131`). -/
inductive Spawned where
  | timeout
  | acceptFailed
  | readFailed
  | announced (v : ProtocolVersion)
deriving DecidableEq, Repr

/-- What can go wrong in `generic_test_runner/src/lib.rs:103-144`. -/
inductive OpenErr where
  | timeout
  | io
  | notCompatible
deriving DecidableEq, Repr

/-- `generic_test_runner/src/lib.rs:103-144` `open_native_runner_connection`. -/
def openConnection : Spawned → Except OpenErr Witness
  | .timeout => .error .timeout
  | .acceptFailed => .error .io
  | .readFailed => .error .io
  | .announced v =>
    match v.supported with
    | none => .error .notCompatible
    | some w => .ok w

end Abq
