import Verif.Model.Config

/-!
# Vocabulary: what the options mean

Written from the help texts of `crates/abq_cli/src/args.rs`. Only the types of the model are used.
-/

namespace Abq.Spec
open Abq.Config Abq.Hosted

/-- `r` is the first of the texts that is there. -/
def FirstOf (l : List (Option String)) (r : String) : Prop :=
  ∃ pre post, l = pre ++ some r :: post ∧ ∀ x ∈ pre, x = none

/-- The environment is that of a CI service. -/
def InCi (e : Env) : Prop := ∃ c, e.ci = some c ∧ c ≠ "false"

/-- The CI environment gives the run id `r`. -/
def CiRunId (e : Env) (r : String) : Prop :=
  e.abqRunId = none ∧ InCi e ∧ FirstOf [e.buildkite, e.circle, e.github, e.mint] r

/-- The user gives the run id `r`: as an option, or by running in CI. -/
def GivenRunId (w : World) (option : Option String) (r : String) : Prop :=
  option = some r ∨ (option = none ∧ CiRunId w.env r)

/-- The user's access token is `t`: as an option, or from `abq login`. -/
def TokenInUse (w : World) (option : Option String) (t : String) : Prop :=
  option = some t ∨ (option = none ∧ w.storedToken = some t)

/-- The kind of access token the API reports. -/
def kindIn : QueueConfig → TokenKind
  | .success _ _ _ _ k => k
  | .unsupported k _ => k

/-- The file given as an option (if any) has this contents. -/
def FileIs (option : Option (Option (List Nat))) (contents : Option (List Nat)) : Prop :=
  (option = none ∧ contents = none) ∨ ∃ b, option = some (some b) ∧ contents = some b

/-- Where the queue's configuration comes from. -/
inductive Source where
  | api (answer : QueueConfig)
  | commandLine

/-- The documented choice: what the API answers, unless there is no access token, or `--local` is given, or the token is
a personal one and no run id is given. -/
def Chosen (w : World) (token : Option String) (localMode given : Prop) (runId : String) : Source → Prop
  | .api ans => ¬ localMode ∧ (∃ t, TokenInUse w token t ∧ w.api t runId = .ok ans) ∧
      (kindIn ans = .organization ∨ given)
  | .commandLine => localMode ∨ (∀ t, ¬ TokenInUse w token t) ∨
      ∃ t ans, TokenInUse w token t ∧ w.api t runId = .ok ans ∧ kindIn ans = .personal ∧ ¬ given

/-- The connection made for a source, with the options `--queue-addr`, `--token`, `--tls-cert`, `--tls-key`. -/
def Connects (tls : Tls) (addr : Option String) (token cert key : Option (List Nat)) (given : Prop) :
    Source → Connection → Prop
  | .api (.success addr _ tok cert _), c =>
      c = ⟨.remote addr, some tok, cert⟩ ∧ ∀ b, cert = some b → tls.certOk b = true
  | .api (.unsupported _ _), _ => False
  | .commandLine, c =>
      (∀ b, cert = some b → tls.certOk b = true) ∧ c.token = token ∧ c.cert = cert ∧
      match addr with
      | some x => c.queue = .remote x
      | none => ¬ given ∧
          ((cert = none ∧ key = none ∧ c.queue = .inProcess token none) ∨
            ∃ x y, cert = some x ∧ key = some y ∧ tls.pairOk x y = true ∧ c.queue = .inProcess token (some (x, y)))

/-- A run is read-only for those who connect with a personal token through the API. -/
def ReadonlyFor : Source → Prop
  | .api ans => kindIn ans = .personal
  | .commandLine => False

/-- The run a test command belongs to: the given one, else a new one. -/
def RunOf (w : World) (option : Option String) (r : String) : Prop :=
  GivenRunId w option r ∨ ((∀ x, ¬ GivenRunId w option x) ∧ r = w.fresh)

/-- A run id is given, and counts: `--local` runs alone. -/
def HasRunId (w : World) (a : TestArgs) : Prop := (∃ r, GivenRunId w a.runId r) ∧ a.localMode = false

/-- What `abq test` does, according to its documentation. -/
def TestDocumented (w : World) (a : TestArgs) (p : TestPlan) : Prop :=
  RunOf w a.runId p.runId ∧
  (∃ cert key source, FileIs a.tlsCert cert ∧ FileIs a.tlsKey key ∧
    Chosen w a.accessToken (a.localMode = true) (HasRunId w a) p.runId source ∧
    Connects w.tls a.queueAddr a.token cert key (HasRunId w a) source p.connection ∧
    (p.mode = .readonly ↔ ReadonlyFor source)) ∧
  (a.args = p.cmd :: p.args) ∧
  (∀ t, p.accessToken = some t ↔ a.localMode = false ∧ TokenInUse w a.accessToken t) ∧
  (p.recordTelemetry = true ↔ ∃ x, p.connection.queue = .remote x) ∧
  p.numRunners = (match a.num with | .fixed n => n | .cpuCores => max (w.cores - 1) 1) ∧
  p.maxRunNumber = 1 + a.retries

/-- What `abq report` does, according to its documentation. -/
def ReportDocumented (w : World) (a : ReportArgs) (r : String) (c : Connection) : Prop :=
  GivenRunId w a.runId r ∧
  ∃ cert source, FileIs a.tlsCert cert ∧ Chosen w a.accessToken False True r source ∧
    Connects w.tls a.queueAddr a.token cert none True source c

end Abq.Spec
