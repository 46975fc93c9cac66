import Verif.Model.Messages
import Verif.Model.Pool
import Verif.Model.Terminal
/-!
# What is said of a native runner that fails to give a manifest

`crates/abq_runners/generic_test_runner/src/lib.rs:162-214, 794-819` (`retrieve_manifest`, `run_help`), and the texts of errors:
`crates/abq_utils/src/net_protocol/runners.rs:662-706`, `crates/abq_utils/src/error.rs:25-34`. The text of an error of the system is
given from outside. Collecting the output is in `Model/Capture.lean`, waiting in `Model/NativeRunner.lean`.
-/

namespace Abq.ErrorText
open Abq.Protocol (Location OutOfBandError Manifest ManifestMessage)
open Terminal (Text)

/-- A number, as it is printed (`runners.rs:666-668`, `error.rs:32`). -/
def number (n : Nat) : Text := (toString n).toList

/-- `runners.rs:662-674` `Display` of `Location`. -/
def locationText (l : Location) : Text :=
  l.file.toList ++
    match l.line with
    | some line => "[".toList ++ number line ++ (match l.column with
        | some column => ":".toList ++ number column
        | none => []) ++ "]".toList
    | none => []

/-- `runners.rs:696-698`. -/
def exceptionText : Option String → Text
  | some x => "\n\n".toList ++ x.toList
  | none => []

/-- `runners.rs:699-701`. -/
def whereText : Option Location → Text
  | some l => " at ".toList ++ locationText l
  | none => []

/-- `runners.rs:686-706` `Display` of `OutOfBandError`. -/
def oobText (e : OutOfBandError) : Text :=
  e.message.toList ++ exceptionText e.exception ++ whereText e.location ++ (e.backtrace.getD []).flatMap fun b => "\n".toList ++ b.toList

/-- `error.rs:9-14`: a place in the code of abq. -/
structure Place where
  file : String
  line : Nat
  column : Nat
deriving DecidableEq, Repr

/-- `error.rs:26-34` `Display` of `LocatedError`. -/
def locatedText (error : Text) (p : Place) : Text :=
  error ++ " at ".toList ++ p.file.toList ++ "@".toList ++ number p.line ++ ":".toList ++ number p.column

/-- lib.rs:162-200 `retrieve_manifest`: the manifest, or the text of the error (lib.rs:1089-1092 says of an `OOBError` just its text).
`result` is the message, or the text of the error met while reading it or waiting for the exit (lib.rs:204-214), `read` the place of
that, `here` the place lib.rs:177. -/
def retrieve (here read : Place) (result : Except Text ManifestMessage) : Except Text Manifest :=
  match result with
  | .ok (.success m _) => .ok m
  | .ok (.failure e _) => .error (locatedText (oobText e) here)
  | .error t => .error (locatedText t read)

/-- lib.rs:803-818: what the queue is sent. -/
def sent (version : Protocol.Version) (spec : Protocol.Specification) (output : Messages.Stdio) :
    Except Text Manifest → Messages.ManifestResult
  | .ok m => .manifest ⟨m, version, spec⟩
  | .error t => .runnerError (String.ofList t) output

/-- lib.rs:811-819, `crates/abq_workers/src/workers.rs:306-326`: what the runner ends with, if it got no manifest. -/
def joined (output : Pool.Output × Pool.Output) (info : Option Nat) : Except Text Manifest → Option Pool.Joined
  | .ok _ => none
  | .error t => some (.err ⟨String.ofList t, output, info⟩)

end Abq.ErrorText
