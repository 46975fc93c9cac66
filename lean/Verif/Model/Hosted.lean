import Verif.Model.Auth

/-!
# The hosted API

`crates/abq_hosted/src/config.rs`: the request for the queue to use, its retries, and what is taken from the answer.
-/

namespace Abq.Hosted

/-- What a request can give: no answer (`reqwest::Error`), or an answer with an HTTP status (`config.rs:189-218`). -/
inductive Reply where
  | transport
  | status (code : Nat)
deriving DecidableEq, Repr

/-- `StatusCode::is_success` (`config.rs:189-218`). -/
def isSuccess (code : Nat) : Bool := 200 ≤ code && code < 300

/-- `StatusCode::is_server_error` (`config.rs:189-218`). -/
def isServerError (code : Nat) : Bool := 500 ≤ code && code < 600

/-- `StatusCode::TOO_MANY_REQUESTS` (`config.rs:189-218`). -/
def tooManyRequests : Nat := 429

/-- `config.rs:154` `DEFAULT_REQUEST_ATTEMPTS`. -/
def maxAttempts : Nat := 6

/-- `config.rs:155` `DEFAULT_REQUEST_DECAY`, in seconds. -/
def initialDecay : Nat := 5

/-- `config.rs:156` `DEFAULT_REQUEST_DECAY_MUL`. -/
def decayMul : Nat := 2

/-- The state of `send_request_with_decay_help`, with that of the retrier it calls: the number of requests sent, the next
delay, the delays slept, and the reply returned (`config.rs:158-218`). -/
structure Sending where
  lastAttempt : Nat := 0
  decay : Nat := initialDecay
  slept : List Nat := []
  result : Option Reply := none
deriving DecidableEq, Repr

/-- `config.rs:158-171` the closure of `build_retrier`: whether to retry, after sleeping. -/
def Sending.retry (s : Sending) : Bool × Sending :=
  if s.lastAttempt = maxAttempts then (false, s)
  else (true, { s with slept := s.slept ++ [s.decay], decay := s.decay * decayMul })

/-- `config.rs:189-218` `send_request_with_decay_help`: one round of the loop, in which the request gets the reply `r`.
After it returned, nothing more is sent. -/
def Sending.round (s : Sending) (r : Reply) : Sending :=
  match s.result with
  | some _ => s
  | none =>
    let s := { s with lastAttempt := s.lastAttempt + 1 }
    match r with
    | .transport => { s with result := some .transport }
    | .status code =>
      if isSuccess code then { s with result := some (.status code) }
      else if isServerError code || code == tooManyRequests then
        match s.retry with
        | (true, s) => s
        | (false, s) => { s with result := some (.status code) }
      else { s with result := some (.status code) }

/-- The loop, against a server (and network) that gives these replies one after the other (`config.rs:189-218`). -/
def Sending.run (s : Sending) (rs : List Reply) : Sending := rs.foldl Sending.round s

/-! ## The answer -/

/-- `config.rs:35-41` `AccessTokenKind`. -/
inductive TokenKind where
  | personal
  | organization
deriving DecidableEq, Repr

/-- The body of an answer (`config.rs:45-48` `HostedQueueResponse`), with what the `url` library makes of `queue_url`: the
addresses it resolves to, or an error, and the pairs of its query. -/
inductive Body where
  | success (addrs : Option (List String)) (query : List (String × String)) (cert : Option (List Nat)) (kind : TokenKind)
  | unsupported (kind : TokenKind) (usageError : String)
deriving DecidableEq, Repr

/-- `config.rs:16-19` `HostedQueueConfig`. -/
inductive QueueConfig where
  | success (addr : String) (runId : String) (token : List Nat) (cert : Option (List Nat)) (kind : TokenKind)
  | unsupported (kind : TokenKind) (usageError : String)
deriving DecidableEq, Repr

/-- The errors of `config.rs:62-150`. -/
inductive ApiErr where
  /-- no reply, a status of 400 or more, or a body that is not the expected JSON -/
  | request
  | schema (what : String)
  | runIdDiffers
deriving DecidableEq, Repr

/-- `config.rs:112` `queue_url.query_pairs().collect()` into a map, and `get`: the last pair with the key. -/
def queryGet (query : List (String × String)) (key : String) : Option String :=
  (query.reverse.find? fun p => p.1 == key).map (·.2)

/-- `UserToken::from_str` (`auth/user.rs:56-65`). Simplification: the code points in place of the UTF-8 bytes; only ASCII
texts are accepted. -/
def userToken (s : String) : Option (List Nat) := Auth.parseUser (s.toList.map Char.toNat)

/-- `config.rs:94-149`, the part of `from_api` that follows the request, on the body of the answer. -/
def fromBody (runId : String) : Body → Except ApiErr QueueConfig
  | .success addrs query cert kind =>
    match addrs with
    | some [addr] =>
      match queryGet query "token" with
      | none => .error (.schema "missing token")
      | some t =>
        match userToken t with
        | none => .error (.schema "invalid token")
        | some token =>
          match queryGet query "run_id" with
          | none => .error (.schema "missing run id")
          | some r =>
            if r ≠ runId then .error .runIdDiffers
            else .ok (.success addr r token cert kind)
    | some _ => .error (.schema "expected exactly one resolved queue address")
    | none => .error (.schema "address")
  | .unsupported kind usageError => .ok (.unsupported kind usageError)

/-- `config.rs:62-150` `from_api`: the request with its retries, `error_for_status`, the JSON of the body (`none` if it is
not as expected), and the above. `replies` are what the requests would get, one after the other; none if the request never
ends. -/
def fromApi (runId : String) (replies : List Reply) (body : Option Body) : Option (Except ApiErr QueueConfig) :=
  match (({} : Sending).run replies).result with
  | none => none
  | some .transport => some (.error .request)
  | some (.status code) =>
    if 400 ≤ code && code < 600 then some (.error .request)
    else
      match body with
      | none => some (.error .request)
      | some b => some (fromBody runId b)

end Abq.Hosted
