import Verif.Model.Access
import Verif.Spec.Auth
import Verif.Spec.Framing

/-! # Vocabulary of C128 -/

namespace Abq.Spec.Access
open Abq.Access
open Abq.Wire (Byte)
open Abq.Auth (IsToken)

/-- The tokens of a command line are tokens: others are refused by the parser of arguments (C38). -/
def StartArgs.WellFormed (a : StartArgs) : Prop := (∀ t, a.userToken = some t → IsToken t) ∧ ∀ t, a.adminToken = some t → IsToken t

/-- The token a client sends, if any. -/
def tokenOf (o : ClientOptions) : Option (List Byte) :=
  match o.auth with
  | .token t => some t
  | .noAuth => none

/-- The client sends one of the two tokens of the queue, or none to a queue that was given none. -/
def SameToken (a : StartArgs) (o : ClientOptions) : Prop :=
  match tokenOf o with
  | none => a.userToken = none ∧ a.adminToken = none
  | some t => a.userToken = some t ∨ a.adminToken = some t

/-- The client and the queue use TLS both or neither, and the client trusts the certificate of the queue. -/
def SameTls (lib : Library) (a : StartArgs) (o : ClientOptions) : Prop :=
  (o.tls = none ∧ a.tlsCert = none ∧ a.tlsKey = none) ∨
  ∃ cert key pinned, o.tls = some pinned ∧ a.tlsCert = some (some cert) ∧ a.tlsKey = some (some key) ∧ lib.meets cert key pinned = true

/-- The first message of a TLS client is one record: `16 03`, and not longer than a record may be. -/
def Records (lib : Library) : Prop :=
  ∀ cert, ∃ rest, lib.hello cert = 22 :: 3 :: rest ∧ rest.length < 2 ^ 15 ∧ ∀ b ∈ rest, b < 256

end Abq.Spec.Access
