import Verif.Model.Hosted
import Verif.Model.WorkerExit
import Verif.Model.Messages

/-!
# What is said to the hosted API and what it says, as text

`crates/abq_hosted/src/config.rs`, `error.rs` and `notify.rs`: the JSON of answers and requests, and what becomes of a status. Continues
`Model/Hosted.lean`, which starts from what was read. The `url` library is a parameter.
-/

namespace Abq.HostedText
open RunStateDoc (Json reqField optField)
open Protocol (decStr)
open Hosted (Body TokenKind QueueConfig Reply Sending fromBody)
open Messages (struct variant)

/-- What the `url` library makes of a text (`config.rs:101-112`): `none` if it is not a URL; else the addresses it resolves to, if it
does, and the pairs of its query. -/
abbrev Urls := String → Option (Option (List String) × List (String × String))

/-- `config.rs:35-41` `AccessTokenKind`, derived `Deserialize`. -/
def decKind (j : Json) : Option TokenKind :=
  match variant j with
  | some ("personal_access_token", .null) => some .personal
  | some ("organization_access_token", .null) => some .organization
  | _ => none

/-- `String::into_bytes` (`config.rs:139`). -/
def bytes (s : String) : List Nat := s.toUTF8.data.toList.map UInt8.toNat

/-- An `Option<String>` that is an entry of an array (`config.rs:51`). -/
def decMaybe : Json → Option (Option String)
  | .null => some none
  | j => (decStr j).map some

/-- `config.rs:49-54` `HostedQueueSuccessResponseConfig`, derived `Deserialize`, which also takes an array of the fields. -/
def decSuccess (urls : Urls) : Json → Option Body
  | .obj ms =>
    (reqField "queue_url" ms fun j => (decStr j).bind urls).bind fun url =>
    (optField "tls_public_certificate" ms decStr).bind fun cert =>
    (reqField "rwx_access_token_kind" ms decKind).map fun kind => .success url.1 url.2 (cert.map bytes) kind
  | .arr [u, c, k] =>
    ((decStr u).bind urls).bind fun url =>
    (decMaybe c).bind fun cert =>
    (decKind k).map fun kind => .success url.1 url.2 (cert.map bytes) kind
  | _ => none

/-- `config.rs:55-59` `HostedQueueUnsupportedResponseConfig`, derived `Deserialize`, likewise. -/
def decUnsupported : Json → Option Body
  | .obj ms =>
    (reqField "rwx_access_token_kind" ms decKind).bind fun kind =>
    (reqField "usage_error" ms decStr).map fun e => .unsupported kind e
  | .arr [k, e] =>
    (decKind k).bind fun kind =>
    (decStr e).map fun e => .unsupported kind e
  | _ => none

/-- `config.rs:43-48` `HostedQueueResponse`, untagged: the first of the two that can be read. -/
def decBody (urls : Urls) (j : Json) : Option Body := (decSuccess urls j).or (decUnsupported j)

/-- `error.rs:4-16` `Error`. -/
inductive Error where
  | invalidUrl
  | unauthenticated
  | unauthorized
  | schema
  | other
deriving DecidableEq, Repr

/-- `error.rs:18-33` `from`, for an error with this status. -/
def ofStatus (code : Nat) : Error :=
  if code = 401 then .unauthenticated
  else if code = 403 then .unauthorized
  else .other

/-- `config.rs:94-149`: the errors made of an answer. -/
def ofAnswer : Hosted.ApiErr → Error
  | .request => .other
  | .schema _ => .schema
  | .runIdDiffers => .other

/-- `config.rs:62-150` `from_api`: `base` is whether the address of the API is a URL which can have a path, `replies` what the requests
would get, one after the other, and `text` the body of the one that is kept. `none` while requests are not answered. -/
def fromApi (f : JsonText.Floats) (urls : Urls) (base : Bool) (runId : String) (replies : List Reply) (text : List JsonText.Byte) :
    Option (Except Error QueueConfig) :=
  if base then
    match (({} : Sending).run replies).result with
    | none => none
    | some .transport => some (.error .other)
    | some (.status code) =>
      if 400 ≤ code && code < 600 then some (.error (ofStatus code))
      else
        match (JsonText.parse f text).bind (decBody urls) with
        | none => some (.error .other)
        | some b =>
          match fromBody runId b with
          | .ok q => some (.ok q)
          | .error e => some (.error (ofAnswer e))
  else some (.error .invalidUrl)

/-- `notify.rs:8-19` `RecordTestRunRequest`, derived `Serialize`, of what is sent at `notify.rs:63-70`. -/
def encRecord (r : WorkerExit.Request) : Json :=
  struct [("run_id", some (.str r.runId)),
    ("native_runner_specification", some (struct [("name", some (.str r.spec.name)), ("version", some (.str r.spec.version)),
      ("host", some (.str r.spec.host))]))]

/-- The body of the request (`notify.rs:72-77`). -/
def recordText (r : WorkerExit.Request) : List JsonText.Byte := JsonText.print (encRecord r)

end Abq.HostedText
