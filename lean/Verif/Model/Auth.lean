import Verif.Model.Framing

/-!
# Tokens and authentication

`crates/abq_utils/src/auth/token.rs`, `user.rs`, `admin.rs`, `strategy.rs`. A string is the list of its UTF-8 bytes.
-/

namespace Abq.Auth
open Abq.Wire (Byte)

/-- `token.rs:9` `TOKEN_LEN`. -/
def tokenLen : Nat := 30

/-- `char::is_ascii_alphanumeric` of a byte (`token.rs:39`). -/
def isAlphanumeric (b : Nat) : Bool :=
  (48 ≤ b && b ≤ 57) || (65 ≤ b && b ≤ 90) || (97 ≤ b && b ≤ 122)

/-- `token.rs:37-45` `RawToken::from_buf`: the loop over the characters. -/
def fromBuf (buf : List Byte) : Option (List Byte) :=
  if buf.all isAlphanumeric then some buf else none

/-- The part before and after the leftmost match of a (non-empty) pattern (`token.rs:47-66`). -/
def splitOnce (pat : List Byte) : List Byte → Option (List Byte × List Byte)
  | [] => none
  | b :: s =>
    if pat.isPrefixOf (b :: s) then some ([], (b :: s).drop pat.length)
    else (splitOnce pat s).map fun p => (b :: p.1, p.2)

/-- The iterator of `str::split` (`token.rs:50`): its state is the part not yet returned, `none` when it is done.
The part returned by `next` and the state after it. -/
def splitNext (pat : List Byte) : Option (List Byte) → Option (List Byte) × Option (List Byte)
  | none => (none, none)
  | some s =>
    match splitOnce pat s with
    | some (x, y) => (some x, some y)
    | none => (some s, none)

/-- `token.rs:47-66` `parse_human_readable`; `none` is `InvalidToken`. -/
def parse (s pat : List Byte) : Option (List Byte) :=
  let parts := splitNext pat (some s)
  match parts.1 with
  | none => none
  | some before =>
    if before ≠ [] then none
    else
      match (splitNext pat parts.2).1 with
      | none => none
      | some after => if after.length ≠ tokenLen then none else fromBuf after

/-- `token.rs:68-78` `display_human_readable`. -/
def display (token pat : List Byte) : List Byte := pat ++ token

/-- `user.rs:11` `"abqs_"`. -/
def userPrefix : List Byte := [97, 98, 113, 115, 95]

/-- `admin.rs:10` `"abqadmin_"`. -/
def adminPrefix : List Byte := [97, 98, 113, 97, 100, 109, 105, 110, 95]

/-- `user.rs:56-65` and `:50-54`. -/
def parseUser (s : List Byte) : Option (List Byte) := parse s userPrefix
/-- `user.rs:50-54` `Display`. -/
def displayUser (t : List Byte) : List Byte := display t userPrefix

/-- `admin.rs:45-62`. -/
def parseAdmin (s : List Byte) : Option (List Byte) := parse s adminPrefix
/-- `admin.rs:47-51` `Display`. -/
def displayAdmin (t : List Byte) : List Byte := display t adminPrefix

/-! ## Strategies -/

/-- `strategy.rs:34-40`. -/
inductive ClientAuth where
  | noAuth
  | token (t : List Byte)
deriving DecidableEq, Repr

/-- `strategy.rs:73-103` `send`, `async_send`: what the client writes first. -/
def ClientAuth.send : ClientAuth → List Byte
  | .noAuth => []
  | .token t => t

/-- `strategy.rs:118-123`. -/
inductive Role where
  | client
  | admin
deriving DecidableEq, Repr

/-- `strategy.rs:132-137`. -/
def Role.isClient : Role → Bool
  | .client => true
  | .admin => true

/-- `strategy.rs:139-144`. -/
def Role.isAdmin : Role → Bool
  | .admin => true
  | .client => false

/-- `strategy.rs:148-163`. -/
inductive ServerAuth where
  | noAuth
  | tokens (user admin : List Byte)
deriving DecidableEq, Repr

/-- The errors of `strategy.rs:195-258`. -/
inductive AuthErr where
  /-- the stream ended before the header was complete -/
  | unexpectedEof
  | permissionDenied
deriving DecidableEq, Repr

/-- `strategy.rs:235-258` `verify_header_help`. -/
def verifyHelp (buf user admin : List Byte) : Except AuthErr Role :=
  if buf = user then .ok .client
  else if buf = admin then .ok .admin
  else .error .permissionDenied

/-- `strategy.rs:195-233` `verify_header`, `async_verify_header`, on all that the peer writes before it closes the
connection or stops: the role, and what is left to be read by the server. -/
def ServerAuth.verify (s : ServerAuth) (stream : List Byte) : Except AuthErr (Role × List Byte) :=
  match s with
  | .noAuth => .ok (.admin, stream)
  | .tokens user admin =>
    if stream.length < tokenLen then .error .unexpectedEof
    else (verifyHelp (stream.take tokenLen) user admin).map fun r => (r, stream.drop tokenLen)

end Abq.Auth
