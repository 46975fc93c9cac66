/-!
# Telling the servers of a queue to stop

`crates/abq_utils/src/server_shutdown.rs`: `ShutdownManager`, `ShutdownReceiver`, `RetirementCell`. The broadcast channel of
`tokio` 1.27 they are made of is modelled by what its documentation says: a sender, a position per receiver, and a buffer
of one message.
-/

namespace Abq.Shutdown

/-- What a poll of `recv_shutdown_immediately` gives (`server_shutdown.rs:87-92`). -/
inductive Poll where
  /-- not yet -/
  | pending
  /-- `Ok(())` -/
  | told
  /-- `Err`: the sender is gone (`RecvError::Closed`) -/
  | gone
  /-- `Err`: a message was overwritten before it was received (`RecvError::Lagged`) -/
  | lagged
deriving DecidableEq, Repr

/-- What `shutdown_immediately` does (`server_shutdown.rs:69-78`). -/
inductive Sent where
  /-- `Ok(n)` -/
  | ok (n : Nat)
  /-- the channel has no receivers -/
  | err
  /-- the assertion of server_shutdown.rs:70 failed -/
  | panicked
deriving DecidableEq, Repr

/-- `server_shutdown.rs:12-17` `ShutdownManager`. The field `retired` is shared, see `St.retired`. -/
structure Manager where
  /-- `immediate_shutdown_rx`: the position of the receiver that was made with the channel, while nobody took it -/
  own : Option Nat
  /-- `shutdown` -/
  shutdown : Bool
deriving DecidableEq, Repr

/-- What can be observed, in order (`server_shutdown.rs:50-115`). -/
inductive Ev where
  /-- receiver `i` was made -/
  | added (i : Nat)
  /-- receiver `i` was dropped -/
  | dropped (i : Nat)
  | polled (i : Nat) (r : Poll)
  | shutDown (r : Sent)
  /-- the manager was dropped -/
  | managerGone
  /-- someone said that the queue is to retire -/
  | toRetire
deriving DecidableEq, Repr

/-- A manager, its channel, and all receivers (`server_shutdown.rs:12-17`, `server_shutdown.rs:81-84`). -/
structure St where
  /-- the shared `retired` -/
  retired : Bool
  /-- how many messages were sent -/
  tail : Nat
  /-- `none`: dropped -/
  manager : Option Manager
  /-- receivers, in the order in which they were made: the number of the message each gets next; `none`: dropped -/
  receivers : List (Option Nat)
  /-- ghost: what happened -/
  events : List Ev
deriving DecidableEq, Repr

/-- `server_shutdown.rs:20-29` `ShutdownManager::default`. -/
def default : St := ⟨false, 0, some ⟨some 0, false⟩, [], []⟩

/-- `server_shutdown.rs:33-48` `new_pair`. -/
def newPair : St := ⟨false, 0, some ⟨none, false⟩, [some 0], [.added 0]⟩

/-- The calls (`server_shutdown.rs:50-115`). -/
inductive Act where
  /-- `add_receiver` -/
  | add
  /-- receiver `i` is dropped -/
  | drop (i : Nat)
  /-- `recv_shutdown_immediately` of receiver `i` is polled; a future that is not ready may be dropped, which has no effect -/
  | poll (i : Nat)
  /-- `shutdown_immediately` -/
  | shutdown
  /-- the manager is dropped -/
  | dropManager
  /-- `retire` of the manager -/
  | retire
  /-- `notify_asked_to_retire` of a cell of receiver `i`, made when it existed -/
  | askToRetire (i : Nat)
deriving DecidableEq, Repr

/-- `broadcast::Receiver::recv` (called at `server_shutdown.rs:89`) for a receiver whose next message is number `next` of
`tail`, with a buffer of one message (`broadcast::channel(1)`, server_shutdown.rs:21 and server_shutdown.rs:34): what it
gives, and the number of the message that is next afterwards. -/
def receive (tail next : Nat) (closed : Bool) : Poll × Nat :=
  if next = tail then (if closed then .gone else .pending, next)
  else if next + 1 < tail then (.lagged, tail - 1)
  else (.told, next + 1)

/-- How many receivers the channel has: `broadcast::Sender::send` returns it, and fails if there is none (called at
`server_shutdown.rs:72`). -/
def St.count (s : St) (m : Manager) : Nat :=
  s.receivers.countP (·.isSome) + (if m.own.isSome then 1 else 0)

/-- One call.

* `add` (`server_shutdown.rs:50-58`): the receiver made with the channel, or else a new one, which is at the end of what was sent.
* `shutdown` (`server_shutdown.rs:69-78`). The message is only put into the channel if there are receivers.
* `retire` (`server_shutdown.rs:64-66`), `askToRetire` (`server_shutdown.rs:94-98`, `server_shutdown.rs:112-114`). -/
def St.step (s : St) : Act → St
  | .add =>
    match s.manager with
    | none => s
    | some m =>
      let next := match m.own with | some p => p | none => s.tail
      { s with manager := some { m with own := none }, receivers := s.receivers ++ [some next],
               events := s.events ++ [.added s.receivers.length] }
  | .drop i =>
    match s.receivers[i]? with
    | some (some _) => { s with receivers := s.receivers.set i none, events := s.events ++ [.dropped i] }
    | _ => s
  | .poll i =>
    match s.receivers[i]? with
    | some (some next) =>
      let r := receive s.tail next s.manager.isNone
      { s with receivers := s.receivers.set i (some r.2), events := s.events ++ [.polled i r.1] }
    | _ => s
  | .shutdown =>
    match s.manager with
    | none => s
    | some m =>
      if m.shutdown then { s with events := s.events ++ [.shutDown .panicked] }
      else if s.count m = 0 then
        { s with manager := some { m with shutdown := true }, events := s.events ++ [.shutDown .err] }
      else
        { s with manager := some { m with shutdown := true }, tail := s.tail + 1,
                 events := s.events ++ [.shutDown (.ok (s.count m))] }
  | .dropManager =>
    match s.manager with
    | none => s
    | some _ => { s with manager := none, events := s.events ++ [.managerGone] }
  | .retire =>
    match s.manager with
    | none => s
    | some _ => { s with retired := true, events := s.events ++ [.toRetire] }
  | .askToRetire i =>
    if i < s.receivers.length then { s with retired := true, events := s.events ++ [.toRetire] } else s

/-- A history of calls (`server_shutdown.rs:50-115`). -/
def St.run (s : St) (as : List Act) : St := as.foldl St.step s

/-- `is_retired` of the manager and of the cells (`server_shutdown.rs:60-62`, `server_shutdown.rs:107-109`). -/
def St.isRetired (s : St) : Bool := s.retired

end Abq.Shutdown
