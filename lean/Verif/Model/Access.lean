import Verif.Model.Auth
import Verif.Model.Config

/-!
# Who gets to talk to a queue

How a queue started by `abq start` or by `abq test` protects its three servers, how a command opens a connection, and what of it reaches
the server (`abq_cli/src/main.rs`, `abq_utils/src/{net_opt,tls}.rs`, `abq_utils/src/net_async/{tcp,tls}.rs`; the blocking versions in
`abq_utils/src/net/{tcp,tls}.rs` do the same). The TLS library is a parameter: a session that was set up carries what is written into
it, and only that.
-/

namespace Abq.Access
open Abq.Wire (Byte)
open Abq.Auth (ClientAuth ServerAuth)
open Abq.Config (readOpt)

/-- The TLS library (rustls), as it is used at tls.rs:17-38, tls.rs:55-66, tls.rs:84-98, net_async/tls.rs:114-127,
net_async/tls.rs:197-210. -/
structure Library extends Config.Tls where
  /-- A client that trusts only the certificate `pinned` sets up a session, for the name of tls.rs:12-14, with a server that has this
  certificate and key. -/
  meets : (cert key pinned : List Nat) → Bool
  /-- The first bytes of a client that trusts only this certificate. It writes nothing more before the server has answered. -/
  hello : List Nat → List Byte

/-- What `abq start` is given (args.rs:97-133). A file is its contents, `none` if it is not readable. -/
structure StartArgs where
  userToken : Option (List Byte)
  adminToken : Option (List Byte)
  tlsCert : Option (Option (List Nat))
  tlsKey : Option (Option (List Nat))

/-- net_opt.rs:9-13 `ServerOptions`. -/
structure ServerOptions where
  auth : ServerAuth
  /-- Certificate and key. -/
  tls : Option (List Nat × List Nat)

/-- net_opt.rs:66-70 `ClientOptions`. -/
structure ClientOptions where
  auth : ClientAuth
  /-- The certificate that is trusted. -/
  tls : Option (List Nat)

/-- Why `abq start` does not start (main.rs:294-333). -/
inductive Refusal where
  /-- One of two arguments that require each other is missing (args.rs:105-132). -/
  | usage
  | unreadable
  | badTls
deriving DecidableEq

/-- main.rs:314-333, with the checks of args.rs:105-132 made before. -/
def startOptions (lib : Library) (a : StartArgs) : Except Refusal ServerOptions :=
  if a.userToken.isSome ≠ a.adminToken.isSome ∨ a.tlsCert.isSome ≠ a.tlsKey.isSome then .error .usage
  else
    let auth := match a.userToken, a.adminToken with
      | some u, some ad => ServerAuth.tokens u ad
      | _, _ => .noAuth
    match readOpt a.tlsCert, readOpt a.tlsKey with
    | .ok (some cert), .ok (some key) => if lib.pairOk cert key then .ok ⟨auth, some (cert, key)⟩ else .error .badTls
    | .ok _, .ok _ => .ok ⟨auth, none⟩
    | _, _ => .error .unreadable

/-- instance.rs:328-335, instance.rs:353-354: the queue that `abq test` starts for itself, with a random token for admins. -/
def ownOptions (fresh : List Byte) (userToken : Option (List Byte)) (tls : Option (List Nat × List Nat)) : ServerOptions :=
  ⟨match userToken with
    | some u => .tokens u fresh
    | none => .noAuth, tls⟩

/-- strategy.rs:106-114, main.rs:873-876: the options of a command for its connection. -/
def clientOptions (c : Config.Connection) : ClientOptions :=
  ⟨match c.token with
    | some t => .token t
    | none => .noAuth, c.cert⟩

/-- What goes over a connection from client to server, up to the first answer: bytes in the clear, or bytes in a session. -/
inductive Sent where
  | clear (bytes : List Byte)
  | inside (bytes : List Byte)
deriving DecidableEq

/-- net_async/tcp.rs:182-189, net_async/tls.rs:197-210 `connect` (and net/tcp.rs:128-135, net/tls.rs:152-167), and the requests that
are written then. `proves`: with whom a session is set up by the peer, whoever that is. -/
def ClientOptions.sends (lib : Library) (o : ClientOptions) (proves : (pinned : List Nat) → Bool) (requests : List Byte) : Sent :=
  match o.tls with
  | none => .clear (o.auth.send ++ requests)
  | some pinned => if proves pinned then .inside (o.auth.send ++ requests) else .clear (lib.hello pinned)

/-- With whom a server sets up a session (net_opt.rs:24-63). -/
def ServerOptions.proves (lib : Library) (o : ServerOptions) (pinned : List Nat) : Bool :=
  match o.tls with
  | some (cert, key) => lib.meets cert key pinned
  | none => false

/-- net_async/tls.rs:119 `acceptor.accept`, or net_async/tcp.rs:158: the bytes from which the token is read; `none` if there is no
session. Bytes in the clear are no session: either they are none of TLS, or the client gives up. -/
def ServerOptions.gets (o : ServerOptions) : Sent → Option (List Byte)
  | .clear bytes => if o.tls.isNone then some bytes else none
  | .inside bytes => if o.tls.isSome then some bytes else none

/-- net_async/tcp.rs:154-164, net_async/tls.rs:114-127 `handshake`: what is left to be read after it; `none` if it fails. The role is
dropped: the servers make no use of it (queue.rs:1899-1909, queue.rs:2591-2601, negotiate.rs:574-583). -/
def ServerOptions.handshake (o : ServerOptions) (sent : Sent) : Option (List Byte) :=
  match o.gets sent with
  | none => none
  | some bytes =>
    match o.auth.verify bytes with
    | .ok (_, rest) => some rest
    | .error _ => none

/-- The messages that are read from a connection (queue.rs:1899-1909, queue.rs:2591-2601, negotiate.rs:574-583), under a schedule of
reads. -/
def ServerOptions.reads {T : Type} (c : Wire.Codec T) (o : ServerOptions) (sent : Sent) (as : List Wire.Act) : List (T × Nat) :=
  match o.handshake sent with
  | none => []
  | some rest => ((Wire.Conn.new rest : Wire.Conn T).run c as).out

end Abq.Access
