import Verif.Model.Hosted

/-!
# What the command line, the environment and the hosted API decide

`crates/abq_cli/src/main.rs`: `abq test`, `abq report` and `abq health` up to the point where they contact a queue.
Run ids, addresses and paths are texts; certificates, keys and tokens are bytes.
-/

namespace Abq.Config
open Abq.Hosted (TokenKind QueueConfig)

/-- `main.rs:104-115` `RunIdEnvironment`: the variables that are set (to valid Unicode). -/
structure Env where
  abqRunId : Option String
  ci : Option String
  buildkite : Option String
  circle : Option String
  github : Option String
  mint : Option String
deriving DecidableEq, Repr

/-- `main.rs:228-247` `get_inferred_run_id`. -/
def inferredRunId (e : Env) : Option String :=
  if e.abqRunId.isSome || e.ci.getD "false" == "false" then none
  else e.buildkite.or (e.circle.or (e.github.or e.mint))

/-- `main.rs:74-81` `ConfigFromApi`. -/
inductive ApiConfig where
  | success (addr : String) (token : List Nat) (cert : Option (List Nat)) (kind : TokenKind)
  | unsupported (usageError : String) (kind : TokenKind)
deriving DecidableEq, Repr

/-- `main.rs:74-81`. -/
def ApiConfig.kind : ApiConfig → TokenKind
  | .success _ _ _ k => k
  | .unsupported _ k => k

/-- `main.rs:786-809` `get_config_from_api`, on what `HostedQueueConfig::from_api` returned. -/
def ApiConfig.ofHosted : QueueConfig → ApiConfig
  | .success addr _ token cert kind => .success addr token cert kind
  | .unsupported kind usageError => .unsupported usageError kind

/-- `main.rs:677-681` `QueueLocation`. -/
inductive Location where
  | remote (addr : String)
  | ephemeral (tlsKey : Option (List Nat))
  | unsupported (message : String)
deriving DecidableEq, Repr

/-- `main.rs:683-687`. -/
def Location.isRemote : Location → Bool
  | .remote _ => true
  | _ => false

/-- `main.rs:669-674` `ResolvedConfig`. -/
structure Resolved where
  token : Option (List Nat)
  cert : Option (List Nat)
  kind : Option TokenKind
  location : Location
deriving DecidableEq, Repr

/-- `main.rs:698-701`. -/
def note : TokenKind → String
  | .personal => "Note: you are using a Personal Access Token"
  | .organization => "Note: you are using an Organization Access Token"

/-- `main.rs:689-713` `resolve_config_with_api_config`. -/
def resolveWithApi : ApiConfig → Resolved
  | .success addr token cert kind => ⟨some token, cert, some kind, .remote addr⟩
  | .unsupported usageError kind => ⟨none, none, some kind, .unsupported (usageError ++ "\n" ++ note kind)⟩

/-- `main.rs:715-733` `resolve_config_from_cli_args`. -/
def resolveFromCli (addr : Option String) (tlsKey token cert : Option (List Nat)) : Resolved :=
  ⟨token, cert, none,
    match addr with
    | some a => .remote a
    | none => .ephemeral tlsKey⟩

/-- `main.rs:744-766` `resolve_config`. -/
def resolve (token : Option (List Nat)) (addr : Option String) (cert tlsKey : Option (List Nat))
    (api : Option ApiConfig) (explicitRunId : Bool) : Resolved :=
  match api with
  | some a =>
    if a.kind != .personal || explicitRunId then resolveWithApi a
    else resolveFromCli addr tlsKey token cert
  | none => resolveFromCli addr tlsKey token cert

/-- The errors of `main.rs:371-458`, `args.rs:27-49`. -/
inductive Err where
  /-- a certificate or key file could not be read -/
  | unreadable
  /-- the hosted API -/
  | api (e : Hosted.ApiErr)
  /-- no queue to run against -/
  | unsupported (message : String)
  /-- a run id, but an ephemeral queue -/
  | runIdButEphemeral
  /-- no executable to run -/
  | noCommand
  /-- a certificate or key that is not one -/
  | badTls
  /-- one of certificate and key without the other -/
  | halfTls
  /-- `abq report` without a run id -/
  | noRunId
deriving DecidableEq, Repr

/-- `main.rs:832-862` `validate_queue_location`. -/
def validateLocation (l : Location) (explicitRunId : Bool) : Except Err Unit :=
  match l with
  | .unsupported m => .error (.unsupported m)
  | _ => if explicitRunId && !l.isRemote then .error .runIdButEphemeral else .ok ()

/-- `main.rs:811-830` `validate_abq_test_args`: the program and its arguments. -/
def validateArgs : List String → Except Err (String × List String)
  | [] => .error .noCommand
  | cmd :: args => .ok (cmd, args)

/-- The queue a command talks to: an existing one, or one started in this process with this authentication and
certificate (`instance.rs:320-361` `new_ephemeral`). -/
inductive Queue where
  | remote (addr : String)
  | inProcess (userToken : Option (List Nat)) (certAndKey : Option (List Nat × List Nat))
deriving DecidableEq, Repr

/-- How a command talks to the queue: the queue, the token it sends and the certificate it expects (`main.rs:371-458`). -/
structure Connection where
  queue : Queue
  token : Option (List Nat)
  cert : Option (List Nat)
deriving DecidableEq, Repr

/-- The TLS library: which bytes are certificates, and which pairs are a certificate and its key (`main.rs:371-458`). -/
structure Tls where
  certOk : List Nat → Bool
  pairOk : List Nat → List Nat → Bool

/-- `main.rs:864-915` `find_or_create_abq`, up to the first message to a remote queue. -/
def findOrCreate (tls : Tls) (l : Location) (token cert : Option (List Nat)) : Except Err Connection :=
  if !cert.all tls.certOk then .error .badTls
  else
    match l with
    | .remote addr => .ok ⟨.remote addr, token, cert⟩
    | .ephemeral key =>
      match cert, key with
      | some c, some k => if tls.pairOk c k then .ok ⟨.inProcess token (some (c, k)), token, cert⟩ else .error .badTls
      | none, none => .ok ⟨.inProcess token none, token, cert⟩
      | _, _ => .error .halfTls
    | .unsupported m => .error (.unsupported m)

/-- `main.rs:657-662` `read_opt_path_bytes`: `none` if no file is given, the contents or an error else. -/
def readOpt (f : Option (Option (List Nat))) : Except Err (Option (List Nat)) :=
  match f with
  | none => .ok none
  | some none => .error .unreadable
  | some (some b) => .ok (some b)

/-- `args.rs:27-49` `NumRunners`. -/
inductive NumRunners where
  | cpuCores
  | fixed (n : Nat)
deriving DecidableEq, Repr

/-- The arguments of `abq test` (`main.rs:371-391`) that matter here. A file is its contents, `none` if it is not
readable. -/
structure TestArgs where
  runId : Option String
  accessToken : Option String
  queueAddr : Option String
  token : Option (List Nat)
  tlsCert : Option (Option (List Nat))
  tlsKey : Option (Option (List Nat))
  localMode : Bool
  num : NumRunners
  retries : UInt32
  args : List String
deriving DecidableEq, Repr

/-- The rest of the world: the variables for the run id, the access token stored by `abq login` (`abq_config.rs:54-58`
`read_abq_config`, `none` if there is none), the hosted API, the run id made up when none is given
(`RunId::unique`), the number of physical cores, and the TLS library. -/
structure World where
  env : Env
  storedToken : Option String
  api : String → String → Except Hosted.ApiErr QueueConfig
  fresh : String
  cores : Nat
  tls : Tls

/-- `net_protocol.rs` `ExecutionMode`. -/
inductive Mode where
  | writeNormal
  | readonly
deriving DecidableEq, Repr

/-- What `workers::start_workers_standalone` is called with (`main.rs:480-497`). -/
structure TestPlan where
  runId : String
  connection : Connection
  numRunners : Nat
  maxRunNumber : UInt32
  cmd : String
  args : List String
  mode : Mode
  recordTelemetry : Bool
  accessToken : Option String
deriving DecidableEq, Repr

/-- `main.rs:404-413`: the access token in use, if not in local mode. -/
def accessTokenOf (w : World) (cli : Option String) : Option String := cli.or w.storedToken

/-- `main.rs:411-416`: the configuration from the API, for the access token in use. -/
def apiConfigOf (w : World) (token : Option String) (runId : String) : Except Err (Option ApiConfig) :=
  match token with
  | none => .ok none
  | some t =>
    match w.api t runId with
    | .error e => .error (.api e)
    | .ok c => .ok (some (.ofHosted c))

/-- `main.rs:453-458`. The subtraction is on `usize`, and there is at least one core. -/
def numRunnersOf (cores : Nat) : NumRunners → Nat
  | .cpuCores => max (cores - 1) 1
  | .fixed n => n

/-- `main.rs:461-464`. -/
def modeOf : Option TokenKind → Mode
  | some .personal => .readonly
  | _ => .writeNormal

/-- `main.rs:371-498` `abq test`. -/
def testPlan (w : World) (a : TestArgs) : Except Err TestPlan := do
  let external := a.runId.or (inferredRunId w.env)
  let explicitRunId := external.isSome && !a.localMode
  let runId := external.getD w.fresh
  let tlsCert ← readOpt a.tlsCert
  let tlsKey ← readOpt a.tlsKey
  let accessToken := if a.localMode then none else accessTokenOf w a.accessToken
  let api ← apiConfigOf w accessToken runId
  let r := resolve a.token a.queueAddr tlsCert tlsKey api explicitRunId
  validateLocation r.location explicitRunId
  let (cmd, args) ← validateArgs a.args
  let connection ← findOrCreate w.tls r.location r.token r.cert
  return {
    runId, connection, cmd, args, accessToken
    numRunners := numRunnersOf w.cores a.num
    maxRunNumber := 1 + a.retries
    mode := modeOf r.kind
    recordTelemetry := r.location.isRemote }

/-- The arguments of `abq report` (`main.rs:500-510`). -/
structure ReportArgs where
  runId : Option String
  accessToken : Option String
  queueAddr : Option String
  token : Option (List Nat)
  tlsCert : Option (Option (List Nat))
deriving DecidableEq, Repr

/-- `main.rs:500-567` `abq report`, up to the request for results: the run and the connection. -/
def reportPlan (w : World) (a : ReportArgs) : Except Err (String × Connection) := do
  match a.runId.or (inferredRunId w.env) with
  | none => .error .noRunId
  | some runId =>
    let tlsCert ← readOpt a.tlsCert
    let api ← apiConfigOf w (accessTokenOf w a.accessToken) runId
    let r := resolve a.token a.queueAddr tlsCert none api true
    validateLocation r.location true
    let connection ← findOrCreate w.tls r.location r.token r.cert
    return (runId, connection)

/-! ## `abq health` -/

/-- What asking a service for its health gives (`health.rs:38-86` `get_health`): nothing if it cannot be reached or does
not answer properly. -/
abbrev Answer := Option (Bool × String)

/-- What `abq health` ends with (`main.rs:594-648`). -/
inductive HealthOut where
  | tooFew
  | exit (code : Nat) (lines : List Bool)
deriving DecidableEq, Repr

/-- `main.rs:625-645`: the loop over the services, with the line printed for each (healthy or not). -/
def healthLoop (allHealthy : Bool) (lines : List Bool) : List Answer → Bool × List Bool
  | [] => (allHealthy, lines)
  | some (true, _) :: l => healthLoop allHealthy (lines ++ [true]) l
  | some (false, _) :: l => healthLoop false (lines ++ [false]) l
  | none :: l => healthLoop false (lines ++ [false]) l

/-- `main.rs:594-648` `abq health`, on the answers of the queues, work schedulers and negotiators given. -/
def health (queues schedulers negotiators : List Answer) : HealthOut :=
  match queues ++ schedulers ++ negotiators with
  | [] => .tooFew
  | l =>
    let r := healthLoop true [] l
    .exit (if r.1 then 0 else 1) r.2

end Abq.Config
