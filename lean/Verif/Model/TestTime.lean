import Verif.Model.NativeRunner

/-!
# How long a native runner may take

`crates/abq_runners/generic_test_runner/src/lib.rs:103-135, 502-563, 978-1037, 1100-1163`, with the time it takes. Times are any unit,
the same throughout. Time limits pass exactly when they are due, and computing takes no time. If something happens at the very moment
at which a limit passes, either may be seen first (`tokio::select!` polls in a random order), and `tie` says that the limit is seen last.
-/

namespace Abq.TestTime
open Abq.NativeRunner (Msg)

/-- The next that is heard on the connection, and how long after the one before: a message, or that the native runner has hung up
(lib.rs:1192, 1220). -/
structure Heard where
  after : Nat
  what : Option Msg
deriving DecidableEq, Repr

/-- What becomes of writing the test to the native runner (lib.rs:1191). -/
inductive Write where
  | done (after : Nat)
  | failed (after : Nat)
  | blocked
deriving DecidableEq, Repr

/-- What happens while a test is run (lib.rs:1129-1163). -/
structure Test where
  write : Write
  /-- all that is heard from then on -/
  heard : List Heard
  /-- how long the results wait until there is room for them in the channel, if ever there is (lib.rs:892, 1152-1157) -/
  room : Option Nat
deriving DecidableEq, Repr

/-- How a test ends for `handle_one_test` (lib.rs:1100-1127): its results were handed on, the native runner failed, or the time was up. -/
inductive End where
  | handed | broken | timedOut
deriving DecidableEq, Repr

/-- The loop of `send_and_wait_for_test_results` (lib.rs:1192-1241): when it ends, and whether with all results. -/
def answer : Nat → List Heard → Option (Nat × Bool)
  | _, [] => none
  | now, h :: hs =>
    match h.what with
    | some .increment => answer (now + h.after) hs
    | some .results => some (now + h.after, true)
    | _ => some (now + h.after, false)

/-- `handle_one_test_help` (lib.rs:1129-1163), from the time 0 on. That the channel is closed is left out: its other end is in the same
task (lib.rs:1065-1066). -/
def help (t : Test) : Option (Nat × End) :=
  match t.write with
  | .blocked => none
  | .failed n => some (n, .broken)
  | .done n =>
    match answer n t.heard with
    | none => none
    | some (m, false) => some (m, .broken)
    | some (m, true) => t.room.map fun r => (m + r, .handed)

/-- `TimeoutFuture::wait` (timeout_future.rs:18-27): whether something that is there after `n` is seen before the limit. -/
def seen (limit : Nat) (tie : Bool) (n : Nat) : Bool := n < limit || (n == limit && tie)

/-- `handle_one_test` (lib.rs:1100-1127). -/
def one (limit : Nat) (tie : Bool) (t : Test) : Nat × End :=
  match help t with
  | some (n, e) => if seen limit tie n then (n, e) else (limit, .timedOut)
  | none => (limit, .timedOut)

/-- A test of a runner. `idle` is the time from the end of the one before it (or from the start) until it is begun: waiting for it to be
fetched, and for a new native runner if it is a later attempt (lib.rs:979-994). -/
structure Turn where
  idle : Nat
  tie : Bool
  test : Test
deriving DecidableEq, Repr

/-- The loop over tests (lib.rs:978-1037): when each test was begun, when it ended, and how. It ends with the first that is not
handed on (lib.rs:1010-1036). -/
def tests (limit : Nat) : Nat → List Turn → List (Nat × Nat × End)
  | _, [] => []
  | now, u :: us =>
    let r := one limit u.tie u.test
    (now + u.idle, now + u.idle + r.1, r.2) ::
      match r.2 with
      | .handed => tests limit (now + u.idle + r.1) us
      | _ => []

/-- A native runner that was just started. Failures of the system in accepting (lib.rs:121-125) are left out. -/
structure Launch where
  /-- when it connects (lib.rs:120) -/
  connects : Option Nat
  /-- how long after that something is read, and whether that is the supported version (lib.rs:127-135); if it is anything else, or the
  connection is closed, `false` -/
  greets : Option (Nat × Bool)
  /-- when its output ends (lib.rs:554) -/
  over : Option Nat
  /-- whether the limits are seen last at connecting, and at the end of the output -/
  tie : Bool
  tieOver : Bool
deriving DecidableEq, Repr

/-- `handle_native_runner_connection_error` (lib.rs:541-563) from `now` on: when it ends. -/
def refused (limit : Nat) (l : Launch) (now : Nat) : Nat :=
  match l.over with
  | some o => if seen limit l.tieOver (o - now) then max now o else now + limit
  | none => now + limit

/-- `new_native_runner` (lib.rs:502-536) from the start of the process on: when it returns, if ever, and whether the native runner can be
used. The limit is for the connection only: once that is there, the branch of `select!` is taken and the timer dropped (lib.rs:114-131). -/
def launch (limit : Nat) (l : Launch) : Option (Nat × Bool) :=
  match l.connects with
  | some c =>
    if seen limit l.tie c then
      match l.greets with
      | none => none
      | some (g, true) => some (c + g, true)
      | some (g, false) => some (refused limit l (c + g), false)
    else some (refused limit l limit, false)
  | none => some (refused limit l limit, false)

end Abq.TestTime
