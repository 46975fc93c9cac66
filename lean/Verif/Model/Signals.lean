/-!
# Stopping a queue with signals

`crates/abq_cli/src/instance.rs:113-157`: the thread that waits for signals, and the main loop of `abq start`.
-/

namespace Abq.Signals

/-- The thread of instance.rs:125-130. -/
inductive Listener where
  /-- in `next`, waiting for a signal -/
  | waiting
  /-- it has sent, and has not yet returned -/
  | sent
  /-- it has returned, which drops the only sender of the channel -/
  | done
deriving DecidableEq, Repr

/-- The locals of the loop and its thread, instance.rs:122-133. -/
structure St where
  /-- the termination signals received by the process -/
  signals : Nat := 0
  listener : Listener := .waiting
  /-- the messages in the channel -/
  channel : Nat := 0
  /-- `received_shutdown` -/
  receivedShutdown : Bool := false
  /-- `abq.retire()` was called -/
  retired : Bool := false
  /-- the assertion of instance.rs:139 failed -/
  panicked : Bool := false
  /-- the loop was left: the queue is being shut down -/
  stopping : Bool := false
deriving DecidableEq, Repr

/-- What happens: a signal, a step of the thread, a step of the loop (instance.rs:125-150). -/
inductive Act where
  /-- the process receives a termination signal -/
  | signal
  /-- the listener's turn -/
  | listen
  /-- the main loop is polled -/
  | poll
deriving DecidableEq, Repr

/-- instance.rs:137-150: the body of the loop, when `recv` completes. -/
def St.received (s : St) : St :=
  if s.receivedShutdown then
    if s.retired then { s with stopping := true } else { s with panicked := true }
  else { s with receivedShutdown := true, retired := true }

/-- One step. A `recv` completes with a message if there is one, and with `None` if there is none and the sender was dropped;
both match the pattern `_` (instance.rs:125-150). -/
def St.step (s : St) : Act → St
  | .signal => { s with signals := s.signals + 1 }
  | .listen =>
    match s.listener with
    | .waiting => if 0 < s.signals then { s with listener := .sent, channel := s.channel + 1 } else s
    | .sent => { s with listener := .done }
    | .done => s
  | .poll =>
    if s.stopping || s.panicked then s
    else if 0 < s.channel then { s with channel := s.channel - 1 }.received
    else if s.listener = .done then s.received
    else s

/-- A schedule of the steps of instance.rs:125-150. -/
def St.run (s : St) (as : List Act) : St := as.foldl St.step s

end Abq.Signals
