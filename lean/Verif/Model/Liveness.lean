/-!
# Counting the runners that are still alive

`crates/abq_workers/src/liveness.rs`: `LiveCount`, `CompletedSignaler` and the task it spawns, and the runners of
`crates/abq_workers/src/workers.rs` as far as they signal. Every action is one atomic step; schedules are any lists
of actions.
-/

namespace Abq.Live

/-- A runner's task (`workers.rs:405-426`): it holds a signaler until it signals. `dropped` is a task whose future
is dropped before it signals, which happens only if the runtime goes away (panics are caught, `workers.rs:409-420`). -/
inductive RunnerSt where
  | running
  | signalled
  | dropped
deriving DecidableEq, Repr

/-- The task of `liveness.rs:23-40`. -/
inductive Handler where
  /-- liveness.rs:25-35 in the loop -/
  | counting
  /-- after the loop, before liveness.rs:39 -/
  | announcing
  | finished
  /-- liveness.rs:29 the `expect` failed -/
  | panicked
deriving DecidableEq, Repr

/-- The receiving end of a oneshot channel or a join handle, which may not be polled after it has completed (the fields of
`liveness.rs:10-14`). -/
inductive Once where
  | open
  | used
deriving DecidableEq, Repr

/-- `liveness.rs:10-14` `LiveCount` with the channels of liveness.rs:18-20. -/
structure St where
  runners : List RunnerSt
  /-- capacity of the mpsc channel, liveness.rs:18 -/
  cap : Nat
  /-- messages in the mpsc channel -/
  chan : Nat
  /-- the atomic counter; the loop ends when it reaches zero -/
  count : Nat
  handler : Handler
  /-- `rx_all_completed`: `some` iff still to be awaited -/
  rxAll : Option Once
  /-- `completed_signal_rx_handle` -/
  handle : Option Once
  /-- some call of `wait` returned -/
  returned : Bool
  /-- some call of `wait` panicked -/
  waitPanicked : Bool
deriving DecidableEq, Repr

/-- liveness.rs:17-51 `LiveCount::new` for `n` runners; `mpsc::channel` panics for capacity zero. -/
def new (n : Nat) : Option St :=
  if n = 0 then none
  else some ⟨List.replicate n .running, n, 0, n, .counting, some .open, some .open, false, false⟩

/-- The steps of the runners (`workers.rs:405-426`), of the task (`liveness.rs:23-40`) and of a caller of `wait` (`liveness.rs:55-68`). -/
inductive Act where
  /-- runner `i` signals (`CompletedSignaler::completed`, liveness.rs:83-85, called at `workers.rs:422`) -/
  | signal (i : Nat)
  /-- runner `i` is dropped without signalling -/
  | drop (i : Nat)
  /-- one step of the spawned task -/
  | handle
  /-- `wait` is polled; a future that is not ready may be dropped and made again, which has no effect -/
  | wait
deriving DecidableEq, Repr

/-- liveness.rs:83-85. With room in the channel the message is queued; if the receiver is gone the error is ignored; else the
sender is suspended (no step). -/
def St.signal (s : St) (i : Nat) : St :=
  match s.runners[i]? with
  | some .running =>
    match s.handler with
    | .counting =>
      if s.chan < s.cap then { s with runners := s.runners.set i .signalled, chan := s.chan + 1 } else s
    | _ => { s with runners := s.runners.set i .signalled }
  | _ => s

/-- A signaler is dropped without being used (`workers.rs:405-426`). -/
def St.drop (s : St) (i : Nat) : St :=
  match s.runners[i]? with
  | some .running => { s with runners := s.runners.set i .dropped }
  | _ => s

/-- liveness.rs:25-39: receive, decrement, compare the previous value; then announce. `recv` yields nothing when all
senders are gone and the channel is empty. (The pool's own copy of the signaler, `workers.rs:158`, is gone when
`WorkerPool::new` returns; the model starts there.) -/
def St.handleStep (s : St) : St :=
  match s.handler with
  | .counting =>
    if s.chan > 0 then
      let prev := s.count
      let s := { s with chan := s.chan - 1, count := s.count - 1 }
      if prev = 1 then { s with handler := .announcing } else s
    else if s.runners.all (· ≠ .running) then { s with handler := .panicked }
    else s
  | .announcing => { s with handler := .finished }
  | _ => s

/-- liveness.rs:55-68 `wait`, polled once. The oneshot sender is used by liveness.rs:39 at the step to `finished`, and dropped unused if
the task panicked. Polling a receiver or handle that has completed panics. -/
def St.waitPoll (s : St) : St :=
  if s.waitPanicked then s else
  let afterAll (s : St) : St :=
    match s.handle with
    | some .open =>
      match s.handler with
      | .finished => { s with handle := none, returned := true }
      | .panicked => { s with handle := some .used, waitPanicked := true }
      | _ => s
    | some .used => { s with waitPanicked := true }
    | none => { s with returned := true }
  match s.rxAll with
  | some .open =>
    match s.handler with
    | .finished => afterAll { s with rxAll := none }
    | .panicked => { s with rxAll := some .used, waitPanicked := true }
    | _ => s
  | some .used => { s with waitPanicked := true }
  | none => afterAll s

/-- One step of the above (liveness.rs:17-85). -/
def St.step (s : St) : Act → St
  | .signal i => s.signal i
  | .drop i => s.drop i
  | .handle => s.handleStep
  | .wait => s.waitPoll

/-- A schedule (liveness.rs:17-85). -/
def St.run (s : St) (as : List Act) : St := as.foldl St.step s

/-- liveness.rs:71-73 `read`. -/
def St.read (s : St) : Nat := s.count

/-- `workers.rs:238-240` `workers_alive`. -/
def St.workersAlive (s : St) : Bool := s.read > 0

end Abq.Live
