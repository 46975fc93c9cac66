import Verif.Model.Server
/-!
# The life of a queue: retiring it, shutting it down, dropping it

`crates/abq_queue/src/queue.rs:1456-1560` (`Abq`) and `crates/abq_utils/src/server_shutdown.rs`, on top of the servers of
`Model/Server.lean`; and the end of the process, `crates/abq_cli/src/instance.rs:150-160`.
-/

namespace Abq.Lifecycle
open Server (Srv State)

/-- Where the future of `Abq::shutdown` is (`queue.rs:1520-1543`). -/
inductive Stage where
  /-- `shutdown` was not called -/
  | idle
  /-- it awaits the task of a server's loop -/
  | awaits (srv : Srv)
  /-- it returned `Ok(())` -/
  | returned
  /-- it was called again: the assertions of queue.rs:1521 (`debug_assert!`) and `server_shutdown.rs:70` fail -/
  | panicked
deriving DecidableEq, Repr

/-- `queue.rs:1456-1470` `Abq`, and the tasks it started. The address fields are left out. -/
structure Queue (T R : Type) where
  server : State T R
  /-- `server_shutdown.rs:12` `retired`, shared with the `RetirementCell`s -/
  retired : Bool
  /-- the future of `shutdown` -/
  stage : Stage
  /-- the `Abq` was dropped -/
  dropped : Bool
  /-- the process has ended -/
  exited : Bool

/-- `queue.rs:1615-1713` `start_queue`. -/
def start (T R : Type) (auth : Auth.ServerAuth) : Queue T R :=
  { server := Server.start T R auth, retired := false, stage := .idle, dropped := false, exited := false }

/-- The calls of the owner of a queue, and the steps of its servers (`queue.rs:1500-1713`). -/
inductive Act (T R : Type) where
  /-- a task of the queue goes on: a loop, a connection or a continuation -/
  | task (a : Server.Act T R)
  /-- `Abq::retire` -/
  | retire
  /-- `Abq::shutdown` is called and polled for the first time -/
  | shutdown
  /-- the future of `shutdown` is polled again -/
  | poll
  /-- the `Abq` is dropped -/
  | drop
  /-- the process ends -/
  | exit

variable {T R : Type}

namespace Queue

/-- A call of `shutdown` is under way: it has borrowed the `Abq` exclusively (`queue.rs:1519-1560`). -/
def busy (s : Queue T R) : Bool :=
  match s.stage with
  | .awaits _ => true
  | _ => false

/-- `queue.rs:1514-1516` `is_drained`. -/
def isDrained (s : Queue T R) : Bool := s.server.registry.isDrained

/-- `queue.rs:1508-1510` `is_retired`. -/
def isRetired (s : Queue T R) : Bool := s.retired

/-- `queue.rs:1528-1541`: which task is awaited after that of a server. -/
def next : Srv → Stage
  | .negotiator => .awaits .queue
  | .queue => .awaits .work
  | .work => .returned

/-- One step.

* `shutdown`: `shutdown_immediately` sends to the three loops (`server_shutdown.rs:69-78`); sending cannot fail, as every
  loop holds its receiver until it has received.
* `poll`: the task of a loop is done when the loop was left. The results of the tasks are all `Ok` (they have no other return).
* `drop` (`queue.rs:1550-1560`): the future of `shutdown` is made and dropped; an `async fn` does nothing before it is polled.
  Then the fields are dropped: with the sender gone, the receivers of the loops yield an error, which ends the loops as
  well (`_ = shutdown.recv_shutdown_immediately() => break`).
* `exit`: `instance.rs:155-158`: once `shutdown` has returned, `abq start` returns and its runtime is dropped with all tasks. -/
def step (s : Queue T R) (a : Act T R) : Queue T R :=
  if s.exited then s
  else match a with
    | .task .shutdown => s
    | .task a => { s with server := s.server.step a }
    | .retire => if s.busy || s.dropped then s else { s with retired := true }
    | .shutdown =>
      if s.busy || s.dropped then s
      else match s.stage with
        | .idle => { s with server := s.server.step .shutdown, stage := .awaits .negotiator }
        | _ => { s with stage := .panicked }
    | .poll =>
      match s.stage with
      | .awaits srv => if s.server.listening srv then s else { s with stage := next srv }
      | _ => s
    | .drop => if s.busy || s.dropped then s else { s with server := s.server.step .shutdown, dropped := true }
    | .exit => if s.stage = .returned then { s with exited := true } else s

/-- A schedule (`queue.rs:1500-1713`). -/
def run (s : Queue T R) (acts : List (Act T R)) : Queue T R := acts.foldl step s

end Queue
end Abq.Lifecycle
