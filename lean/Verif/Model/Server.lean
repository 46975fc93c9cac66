import Verif.Model.AllRuns
import Verif.Model.Auth
/-!
# The servers of a queue and their connections

`crates/abq_queue/src/queue.rs`: the queue server (queue.rs:1821-2004), the work server (queue.rs:2539-2665) and the negotiator's server
(`crates/abq_workers/src/negotiate.rs:498-655`). Each accepts connections in a loop and handles each connection in a task of
its own. On top of the registry of `Model/AllRuns.lean`.

A schedule interleaves the loops, the tasks of all connections and the continuations of the registry at their `.await`s.
Whether a write to a client succeeds is up to the schedule, and so is everything a client sends. Results (`R`) are opaque.
-/

namespace Abq.Server
open Auth (ServerAuth)

/-- The three servers (`queue.rs:1821-2004, 2539-2665`, `negotiate.rs:567-643`). -/
inductive Srv where
  | queue | work | negotiator
deriving DecidableEq, Repr

/-- `net_protocol.rs:660-690` `queue::Message`, `work_server::Message` and `MessageToQueueNegotiator`, without the entity that
sends it. A manifest is given flattened (`Model/Flatten.lean`), with the tests' groups. The time at which a message arrives
comes with it, where it is read. -/
inductive Msg (T R : Type) where
  | health (srv : Srv)
  | activeTestRuns
  | negotiatorInfo
  | cancelRun (rid : RunId)
  | manifest (rid : RunId) (flat : List (T × Nat)) (md : String)
  | manifestError (rid : RunId)
  | workerResult (rid : RunId) (rs : R)
  | ranAllTests (rid : RunId) (time : Nat)
  | testResults (rid : RunId)
  | runStatus (rid : RunId)
  | initContext (rid : RunId)
  | nextTests (rid : RunId)
  | retryManifest (rid : RunId) (e : Entity)
  | wantsToAttach (p : JoinParams)

/-- The server that can read a message (`queue.rs:1905-1910, 2593-2597`, `negotiate.rs:583-643`). -/
def Msg.srv {T R : Type} : Msg T R → Srv
  | .health s => s
  | .initContext _ | .nextTests _ | .retryManifest .. => .work
  | .wantsToAttach _ => .negotiator
  | _ => .queue

/-- A call of the registry on behalf of a client (`queue.rs:1911-1994, 2598-2657`). -/
inductive Call (T : Type) where
  | join (p : JoinParams)
  | request (rid : RunId) (r : Req T)
deriving DecidableEq

/-- The step of the registry for a call (`queue.rs:1911-1994, 2598-2657`). -/
def Call.act {T : Type} : Call T → RunsAct T
  | .join p => .join p
  | .request rid r => .request rid r

/-- What the handler of a message does between two `.await`s (`queue.rs:2006-2480`). -/
inductive Instr (T R : Type) where
  /-- Write the answer; if this fails the handler returns the error (`?`). -/
  | answer
  /-- Write the answer; go on if this fails (queue.rs:2300-2306). -/
  | answerAnyway
  /-- A call of the registry. -/
  | call (a : Call T)
  /-- queue.rs:2289-2298: get the results cell of the run and plan to persist results, if there is one. -/
  | plan (rid : RunId) (rs : R)
  /-- queue.rs:2310 `plan.execute()`. -/
  | persist (rid : RunId) (rs : R)
  /-- queue.rs:2631-2640: start the task that hands out tests on this connection. -/
  | serve (rid : RunId) (e : Entity)

/-- `queue.rs:1911-1994`, queue.rs:2598-2657, `negotiate.rs:583-643`: what is done for each message. Left out: the summary that is
persisted for a new manifest, and the streaming of results (both `Model/Results.lean`). -/
def program {T R : Type} (e : Entity) : Msg T R → List (Instr T R)
  | .health _ => [.answer]
  | .activeTestRuns => [.answer]
  | .negotiatorInfo => [.answer]
  | .cancelRun rid => [.answer, .call (.request rid (.cancel e .user))]
  | .manifest rid flat md => [.answer, .call (.request rid (if flat.isEmpty then .emptyManifest else .addManifest flat md))]
  | .manifestError rid => [.answer, .call (.request rid .manifestFailed)]
  | .workerResult rid rs => [.plan rid rs]
  | .ranAllTests rid time => [.answer, .call (.request rid (.complete e time))]
  | .testResults rid => [.call (.request rid .readCell), .answer]
  | .runStatus rid => [.call (.request rid .status), .answer]
  | .initContext rid => [.call (.request rid (.initMetadata e)), .answer]
  | .nextTests rid => [.serve rid e]
  | .retryManifest rid e' => [.call (.request rid (.retryManifest e')), .answer]
  | .wantsToAttach p => [.call (.join p), .answer]

/-- What happened on a connection (`queue.rs:1821-2004, 2539-2744`). -/
inductive Ev (T R : Type) where
  /-- A message arrived. -/
  | received (srv : Srv) (e : Entity) (m : Msg T R)
  | answered
  /-- Writing the answer failed. -/
  | unanswered
  /-- The registry was called, and came up with this. -/
  | called (a : Call T) (evs : List (Event T))
  | persisted (rid : RunId) (rs : R)
  /-- The handler panicked; the task ends. -/
  | panicked

/-- Where the task of a connection is (`queue.rs:1821-2004, 2539-2744`). -/
inductive Phase (T R : Type) where
  /-- There is no such connection. -/
  | absent
  /-- Accepted; the handshake is to be made. -/
  | opened (srv : Srv)
  /-- The message is to be read. -/
  | reading (srv : Srv)
  | running (prog : List (Instr T R))
  /-- queue.rs:2667-2744 `start_persistent_next_tests_requests_task`. -/
  | serving (rid : RunId) (e : Entity)
  | closed

/-- The servers of `queue.rs:1615-1713`: the registry, the connections and what was observed. -/
structure State (T R : Type) where
  auth : ServerAuth
  registry : Runs T
  /-- Connections by number. -/
  conns : Nat → Phase T R
  /-- The loops that have not ended. -/
  listening : Srv → Bool
  /-- `ShutdownManager::shutdown_immediately` was called. -/
  shutdown : Bool
  /-- What happened on which connection. -/
  log : List (Nat × Ev T R)

/-- queue.rs:1615-1713 `start_queue`. -/
def start (T R : Type) (auth : ServerAuth) : State T R :=
  { auth, registry := Runs.init, conns := fun _ => .absent, listening := fun _ => true, shutdown := false, log := [] }

/-- A choice of the scheduler (`queue.rs:1821-2004, 2539-2744`). -/
inductive Act (T R : Type) where
  /-- A connection is accepted and given a number that was not used before. -/
  | accept (srv : Srv) (i : Nat)
  | acceptError (srv : Srv)
  /-- The peer sends this before it closes the connection or stops. -/
  | handshake (i : Nat) (stream : List Wire.Byte)
  /-- A message is read; `none` if that fails. -/
  | receive (i : Nat) (m : Option (Entity × Msg T R))
  /-- The task goes on to the next `.await`. -/
  | exec (i : Nat)
  /-- The writing of an answer succeeds or fails. -/
  | write (i : Nat) (ok : Bool)
  /-- A request for the next tests is read, or reading fails. -/
  | ask (i : Nat) (ok : Bool)
  /-- A continuation of the registry is resumed. -/
  | resume (k : Nat) (ans : RemoteAns) (ok : Bool)
  | shutdown
  /-- The loop of a server sees that it is to be shut down. -/
  | stop (srv : Srv)

namespace State
variable {T R : Type}

/-- Connection `i` is now in phase `p` (`queue.rs:1821-2004, 2539-2744`). -/
def setConn (s : State T R) (i : Nat) (p : Phase T R) : State T R :=
  { s with conns := fun j => if j = i then p else s.conns j }

/-- Something happened on connection `i` (`queue.rs:1821-2004, 2539-2744`). -/
def note (s : State T R) (i : Nat) (ev : Ev T R) : State T R := { s with log := s.log ++ [(i, ev)] }

/-- The phase in which the rest of a program is to be executed (`queue.rs:2006-2480`). -/
def rest : List (Instr T R) → Phase T R
  | [] => .closed
  | p => .running p

/-- A call waits for the lock of the run (`queue.rs:689, 1210, 1236, 1279`). -/
def blocked (s : State T R) : Call T → Bool
  | .request rid r => r.writes && s.registry.readLocked rid
  | _ => false

/-- `expect("no run recorded")` (`queue.rs:689, 762, 798, 1118, 1208, 1234, 1279`). -/
def panics (s : State T R) : Call T → Bool
  | .request rid r => r.panicsUnknown && (s.registry.get rid).isNone
  | _ => false

/-- queue.rs:2386-2390: no answer about the status of an unknown run. -/
def silent (s : State T R) : Call T → Bool
  | .request rid .status => (s.registry.get rid).isNone
  | _ => false

/-- queue.rs:2289-2298: whether there is a cell to persist results to. -/
def hasCell (s : State T R) (rid : RunId) : Bool :=
  match (s.registry.get rid).map RunState.writeCell with
  | some (.cell _) => true
  | _ => false

/-- What the registry comes up with at a call (`queue.rs:2006-2480`). -/
def result (s : State T R) (a : Call T) : List (Event T) :=
  (s.registry.step a.act).events.drop s.registry.events.length

/-- A call of the registry on behalf of connection `i` (`queue.rs:2006-2480`). -/
def call (s : State T R) (i : Nat) (a : Call T) : State T R :=
  { s with registry := s.registry.step a.act }.note i (.called a (s.result a))

/-- The next instruction of connection `i`, unless it is a write (`queue.rs:2006-2480`). -/
def exec (s : State T R) (i : Nat) : List (Instr T R) → State T R
  | .call a :: q =>
    if s.blocked a then s
    else
      let next := if s.panics a || s.silent a then Phase.closed else rest q
      let s' := (s.call i a).setConn i next
      if s.panics a then s'.note i .panicked else s'
  | .plan rid rs :: q =>
    let after := if s.hasCell rid then .answerAnyway :: .persist rid rs :: q else .answerAnyway :: q
    (s.call i (.request rid .writeCell)).setConn i (.running after)
  | .persist rid rs :: q => (s.note i (.persisted rid rs)).setConn i (rest q)
  | .serve rid e :: _ => s.setConn i (.serving rid e)
  | _ => s

/-- The writing of an answer (`queue.rs:2006-2480`). -/
def write (s : State T R) (i : Nat) (ok : Bool) : List (Instr T R) → State T R
  | .answer :: q => if ok then (s.note i .answered).setConn i (rest q) else (s.note i .unanswered).setConn i .closed
  | .answerAnyway :: q => (s.note i (if ok then .answered else .unanswered)).setConn i (rest q)
  | _ => s

/-- queue.rs:2677-2703: a request for tests on a connection that is kept open. Simplification: the connection may ask again before
it was answered. -/
def ask (s : State T R) (i : Nat) (rid : RunId) (e : Entity) (ok : Bool) : State T R :=
  if ok then
    let a := Call.request rid (.nextWork e)
    let s' := s.call i a
    if s.panics a then (s'.note i .panicked).setConn i .closed else s'
  else s.setConn i .closed

/-- One step of a server or of a connection (`queue.rs:1821-2004, 2539-2744`, `negotiate.rs:567-643`). -/
def step (s : State T R) : Act T R → State T R
  | .accept srv i =>
    match s.conns i with
    | .absent => if s.listening srv then s.setConn i (.opened srv) else s
    | _ => s
  | .acceptError _ => s
  | .handshake i stream =>
    match s.conns i with
    | .opened srv =>
      match s.auth.verify stream with
      | .ok _ => s.setConn i (.reading srv)
      | .error _ => s.setConn i .closed
    | _ => s
  | .receive i m =>
    match s.conns i with
    | .reading srv =>
      match m with
      | some (e, m) =>
        if m.srv = srv then (s.note i (.received srv e m)).setConn i (rest (program e m)) else s.setConn i .closed
      | none => s.setConn i .closed
    | _ => s
  | .exec i =>
    match s.conns i with
    | .running p => s.exec i p
    | _ => s
  | .write i ok =>
    match s.conns i with
    | .running p => s.write i ok p
    | _ => s
  | .ask i ok =>
    match s.conns i with
    | .serving rid e => s.ask i rid e ok
    | _ => s
  | .resume k ans ok => { s with registry := s.registry.step (.resume k ans ok) }
  | .shutdown => { s with shutdown := true }
  | .stop srv => if s.shutdown then { s with listening := fun x => if x = srv then false else s.listening x } else s

/-- A schedule (`queue.rs:1821-2004, 2539-2744`). -/
def run (s : State T R) (acts : List (Act T R)) : State T R := acts.foldl step s

end State
end Abq.Server
