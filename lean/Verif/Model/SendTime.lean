/-!
# How long a worker tries to get a message to the queue

A worker sends the queue its manifest, batches of results, that it ran all its tests, and that the run is cancelled
(`abq_workers/src/runner_strategy.rs:182-206, 286-309, 321-347`, `results_handler.rs:80-113`). All four are done in the same way: connect,
with five attempts three seconds apart, write the message and read the acknowledgement. Times are milliseconds. Sleeping takes exactly as
long as it was told, and computing takes no time.

It asks for tests in another way (`test_fetching/persistent_test_fetcher.rs`): over a connection that it keeps, with two more attempts over
new ones, and no pauses.
-/

namespace Abq.SendTime

/-- What comes of an attempt to connect, and how long it takes (`results_handler.rs:94`, `runner_strategy.rs:193, 296, 333`). -/
structure Try where
  ok : Bool
  takes : Nat
deriving DecidableEq, Repr

/-- What comes of writing a message and reading the acknowledgement, and how long both take (`results_handler.rs:100-112`,
`runner_strategy.rs:203-206, 301-305, 343-347`). -/
structure Exchange where
  written : Bool
  acked : Bool
  takes : Nat
deriving DecidableEq, Repr

/-- `retry.rs:3-29` `async_retry_n` with pauses of three seconds, from an attempt begun at `now` on, with `left` attempts left: when
attempts are begun, when it is over, and whether there is a connection. -/
def connecting (world : Nat → Try) : Nat → Nat → List Nat × Nat × Bool
  | 0, now => ([], now, false)
  | left + 1, now =>
    if (world now).ok then ([now], now + (world now).takes, true)
    else if left = 0 then ([now], now + (world now).takes, false)
    else
      let rest := connecting world left (now + (world now).takes + 3000)
      (now :: rest.1, rest.2)

/-- One message, begun at `now` (`results_handler.rs:80-113`, `runner_strategy.rs:182-206, 286-309, 321-347`): when it is over, and whether
it was acknowledged. If not, the worker panics. -/
def send (world : Nat → Try) (exchange : Nat → Exchange) (now : Nat) : Nat × Bool :=
  let c := connecting world 5 now
  if c.2.2 then
    let x := exchange c.2.1
    (c.2.1 + x.takes, x.written && x.acked)
  else (c.2.1, false)

/-- The messages of a worker, one after the other (`generic_test_runner/src/lib.rs:908-1064`). Each is given as the time that passes
between the end of the one before and its own beginning. For each message that is begun: when it was begun, when it was over, and whether
it was acknowledged. There is none after a panic. Simplified: the message that all tests were run may overlap with the last batches of
results (`generic_test_runner/src/lib.rs:1047, 1063-1064`); each of them goes as it does here. -/
def sends (world : Nat → Try) (exchange : Nat → Exchange) : Nat → List Nat → List (Nat × Nat × Bool)
  | _, [] => []
  | now, gap :: gaps =>
    let r := send world exchange (now + gap)
    (now + gap, r) :: if r.2 then sends world exchange r.1 gaps else []

/-- Attempts to get the next tests, each over a connection of its own, with `left` attempts left, the first begun at `now`
(`persistent_test_fetcher.rs:74-128`): when it is over, and whether there are tests. There is no pause between attempts. What
`written` says of an exchange is about both messages that are written to a new connection. -/
def asking (world : Nat → Try) (exchange : Nat → Exchange) : Nat → Nat → Nat × Bool
  | 0, now => (now, false)
  | left + 1, now =>
    let t := world now
    if t.ok then
      let x := exchange (now + t.takes)
      if x.written && x.acked then (now + t.takes + x.takes, true) else asking world exchange left (now + t.takes + x.takes)
    else asking world exchange left (now + t.takes)

/-- `get_next_tests`, begun at `now` (`persistent_test_fetcher.rs:16, 64-128`). `old` is what comes of asking over the connection that is
there from before, if there is one: that is the first of three attempts. If there are no tests, the worker panics. -/
def fetchNext (world : Nat → Try) (exchange : Nat → Exchange) (old : Option Exchange) (now : Nat) : Nat × Bool :=
  match old with
  | none => asking world exchange 3 now
  | some x => if x.written && x.acked then (now + x.takes, true) else asking world exchange 2 (now + x.takes)

end Abq.SendTime
