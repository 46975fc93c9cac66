import Verif.Model.Attach

/-!
# Starting queues, and finding their servers

`crates/abq_cli/src/instance.rs` and `crates/abq_queue/src/queue.rs:1610-1712`: the three servers of a queue and the addresses it
advertises. `crates/abq_workers/src/negotiate.rs:409-447`: how a command finds the negotiator of a queue.

The network is a parameter: which machine an IP address leads to, seen from a machine.
-/

namespace Abq.Startup
open Abq.Attach (Addr publicize)

/-- The arguments of `abq start` about addresses: `crates/abq_cli/src/args.rs:71-101`. -/
structure StartArgs where
  bind : String := "0.0.0.0"
  publicIp : Option String := none
  port : Nat := 0
  workPort : Nat := 0
  negotiatorPort : Nat := 0
deriving DecidableEq, Repr

/-- `instance.rs:58-59`: the IP address the queue says it can be reached at. -/
def StartArgs.advertised (a : StartArgs) : String := a.publicIp.getD a.bind

/-- `bind` of the operating system (`queue.rs:1635-1639, 1642-1646, 1661-1664`): port 0 asks for any free port, here `choice`;
`none` if the port is taken. Simplification: a port is taken whatever IP address it is bound to. -/
def bindPort (used : List Nat) (choice p : Nat) : Option Nat :=
  if p = 0 then (if choice = 0 ∨ choice ∈ used then none else some choice)
  else if p ∈ used then none else some p

/-- A queue with its three listeners (`queue.rs:1456-1470` `Abq`). -/
structure Live where
  bind : String
  publicIp : String
  server : Nat
  negotiator : Nat
  work : Nat
deriving DecidableEq, Repr

/-- The ports a system picks when it may (`queue.rs:1565-1572`, "binds to any port if `0`"). -/
structure Choices where
  server : Nat
  negotiator : Nat
  work : Nat
deriving Repr

/-- `queue.rs:1613-1712` `start_queue`: binds the three servers in this order; `none` is the panic of `unwrap` when one cannot be
bound. -/
def startQueue (used : List Nat) (ch : Choices) (a : StartArgs) : Option Live :=
  match bindPort used ch.server a.port with
  | none => none
  | some server =>
    match bindPort (server :: used) ch.negotiator a.negotiatorPort with
    | none => none
    | some negotiator =>
      match bindPort (negotiator :: server :: used) ch.work a.workPort with
      | none => none
      | some work => some { bind := a.bind, publicIp := a.advertised, server, negotiator, work }

/-- `queue.rs:2035-2049` `handle_negotiator_info`, with `queue.rs:1648`. -/
def Live.negotiatorInfo (l : Live) (version : String) : Addr × String :=
  (publicize ⟨l.bind, l.negotiator⟩ l.publicIp, version)

/-- What the negotiator is started with: `queue.rs:1689-1697`. -/
def Live.attachQueue (l : Live) : Attach.Queue :=
  { publicIp := l.publicIp, work := ⟨l.bind, l.work⟩, results := ⟨l.bind, l.server⟩ }

/-! ## Machines -/

/-- The servers of a queue (`queue.rs:1635-1697`). -/
inductive Service where
  | server
  | negotiator
  | work
deriving DecidableEq, Repr

/-- A queue that runs on a machine, and its version of ABQ (`abq_utils::VERSION`, `crates/abq_utils/src/lib.rs`). -/
structure Deployed where
  machine : String
  live : Live
  version : String
deriving DecidableEq, Repr

/-- The listener of a queue at a port (`queue.rs:1635-1664`). -/
def Live.service (l : Live) (port : Nat) : Option Service :=
  if port = l.server then some .server
  else if port = l.negotiator then some .negotiator
  else if port = l.work then some .work
  else none

/-- Whether a listener bound to `bind` accepts connections to `ip`: INADDR_ANY accepts all (`queue.rs:1587-1588`). -/
def accepts (bind ip : String) : Bool := bind == "0.0.0.0" || bind == ip

/-- The machine an IP address leads to, seen from a machine (what `connect` at `negotiate.rs:421, 334` does). -/
abbrev Route := String → String → Option String

/-- The listener a connection from `src` to an address reaches (`negotiate.rs:421, 334`). -/
def reach (route : Route) (queues : List Deployed) (src : String) (a : Addr) : Option (Deployed × Service) :=
  match route src a.host with
  | none => none
  | some m =>
    queues.findSome? fun d =>
      if d.machine = m ∧ accepts d.live.bind a.host = true then (d.live.service a.port).map (fun s => (d, s)) else none

/-- The ports in use on a machine, as far as queues use them (`queue.rs:1635-1664`). -/
def portsOn (queues : List Deployed) (m : String) : List Nat :=
  (queues.filter (fun d => d.machine = m)).flatMap fun d => [d.live.server, d.live.negotiator, d.live.work]

/-- What happens to queues: `abq start` on a machine (`instance.rs:46-154`), or one ends. -/
inductive Happens where
  | start (machine : String) (args : StartArgs) (ch : Choices) (version : String)
  | ends (i : Nat)
deriving Repr

/-- One of these; a start that panics leaves nothing behind (`instance.rs:46-154`). -/
def happen (queues : List Deployed) : Happens → List Deployed
  | .start m a ch v =>
    match startQueue (portsOn queues m) ch a with
    | some l => queues ++ [{ machine := m, live := l, version := v }]
    | none => queues
  | .ends i => queues.eraseIdx i

/-- A history (of `instance.rs:46-154`). -/
def history (hs : List Happens) : List Deployed := hs.foldl happen []

/-! ## A worker that attaches -/

/-- `negotiate.rs:391-402` `QueueNegotiatorHandleError`. -/
inductive AskErr where
  | couldNotConnect
  | incompatible (localVersion remoteVersion : String)
deriving DecidableEq, Repr

/-- `negotiate.rs:391-402`, `instance.rs:287-303`: what the error says. -/
def AskErr.text : AskErr → String
  | .couldNotConnect => "could not connect to the queue"
  | .incompatible l r =>
    "this abq (" ++ l ++ ") is incompatible with the remote queue version (" ++ r ++ ").\n" ++
      "If you are using `setup-abq`, please ensure that `abq` is invoked with the same run-id as `setup-abq`.\n"

/-- `negotiate.rs:409-445` `ask_queue`, by what is reached. A server that is not a queue's, or another one of its servers, does
not answer this request. -/
def askQueue (version : String) : Option (Deployed × Service) → Except AskErr Addr
  | some (d, .server) =>
    let info := d.live.negotiatorInfo d.version
    if info.2 ≠ version then .error (.incompatible version info.2) else .ok info.1
  | _ => .error .couldNotConnect

/-- What a command sends on its way to a run (`negotiate.rs:423-430, 335-341`). -/
inductive Sent where
  | negotiatorInfo (to : Addr)
  | wantsToAttach (to : Addr)
deriving DecidableEq, Repr

/-- How `abq test` gets on: an error before any worker is started (exit code 1, `crates/abq_cli/src/main.rs:54-57`), or what
`negotiate_and_start_pool` gives; `waiting` if it is still being told to wait. -/
inductive Outcome where
  | failed (e : AskErr)
  | started (s : Attach.Started)
  | waiting
deriving DecidableEq, Repr

/-- What comes of the requests to attach, which the negotiator answers according to `answers` (`negotiate.rs:331-380, 565-640`). -/
def replies (answers : List Assigned) : Option (Deployed × Service) → List Attach.Reply
  | some (d, .negotiator) => answers.map (fun a => .message (d.live.attachQueue.message a))
  | _ => [.io]

/-- `abq test --queue-addr` on machine `src` as worker `w` with `n` runners: `main.rs:864-888`, `instance.rs:363-396`,
`crates/abq_cli/src/workers.rs:107-119`, `negotiate.rs:206-301`. Simplification: one request to attach is recorded, though it is
repeated while the run is unknown. -/
def testRemote (route : Route) (queues : List Deployed) (src version : String) (w n : Nat) (addr : Addr)
    (answers : List Assigned) : Outcome × List Sent :=
  match askQueue version (reach route queues src addr) with
  | .error e => (.failed e, [.negotiatorInfo addr])
  | .ok neg =>
    match (Attach.waitForContext (replies answers (reach route queues src neg))).2 with
    | none => (.waiting, [.negotiatorInfo addr, .wantsToAttach neg])
    | some d => (.started (Attach.start w n d), [.negotiatorInfo addr, .wantsToAttach neg])

/-! ## Where a queue puts its files -/

/-- A directory given on the command line, or made for the queue: `crates/abq_cli/src/instance/local_persistence.rs:52-57`
`PersistedDir`. -/
inductive Dir where
  | configured (path : String)
  | temp (path : String)
deriving DecidableEq, Repr

/-- `local_persistence.rs:66-71`. -/
def Dir.path : Dir → String
  | .configured p => p
  | .temp p => p

/-- `local_persistence.rs:59-64` `PersistedDir::new`: the directory and the directories that exist then; `name` is the name picked
for a temporary one. -/
def newDir (dirs : List String) (name : String) : Option String → Dir × List String
  | some p => (.configured p, dirs)
  | none => (.temp name, name :: dirs)

/-- Dropping a `PersistedDir` or `TempDir` removes a temporary directory (`local_persistence.rs:52-57`, `instance.rs:339, 345`). -/
def dropDir (dirs : List String) : Dir → List String
  | .configured _ => dirs
  | .temp p => dirs.filter (· ≠ p)

/-- A queue's directories (`instance.rs:63-74, 339-349`), and the directories that exist. -/
structure Files where
  manifests : String
  results : String
  dirs : List String
deriving DecidableEq, Repr

/-- `instance.rs:61-76`: the queue of `abq start`, while it runs; the `LocalPersistence` lives until the end of
`start_abq_forever` (`instance.rs:61-154`). -/
def startFiles (dirs : List String) (m r : String) (manifestsDir resultsDir : Option String) : Files :=
  let md := newDir dirs m manifestsDir
  let rd := newDir md.2 r resultsDir
  { manifests := md.1.path, results := rd.1.path, dirs := rd.2 }

/-- `instance.rs:320-361` `new_ephemeral`: the queue of `abq test` without a remote one, once the function has returned: its local
variables `manifests_path` and `results_path` are dropped. -/
def ephemeralFiles (dirs : List String) (m r : String) : Files :=
  let dirs1 := r :: m :: dirs
  { manifests := m, results := r, dirs := dropDir (dropDir dirs1 (.temp r)) (.temp m) }

/-- Opening a file for writing, creating it if need be, works only in a directory that exists: `results/fs.rs:110-119` `open_file`,
`manifest/fs.rs:75-104`. -/
def canStore (f : Files) (dir : String) : Bool := dir ∈ f.dirs

end Abq.Startup
