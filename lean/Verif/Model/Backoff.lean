/-!
# Delays and retries

`crates/abq_utils/src/decay.rs`, `crates/abq_utils/src/retry.rs` and the polling loop of
`crates/abq_workers/src/runner_strategy.rs:215-260`.
-/

namespace Abq.Backoff

/-- The largest `std::time::Duration`, in nanoseconds: `u64::MAX` seconds and 999999999 nanoseconds (`decay.rs:5-9`). -/
def maxDuration : Nat := (2 ^ 64 - 1) * 1000000000 + 999999999

/-- `Duration * u32` (used at `decay.rs:31`); `none` is the panic on overflow. Durations are nanoseconds. -/
def mulDuration (d m : Nat) : Option Nat := if d * m ≤ maxDuration then some (d * m) else none

/-- `decay.rs:5-9` `ExpDecay`. -/
structure ExpDecay where
  duration : Nat
  multiplier : Nat
  max : Nat
deriving DecidableEq, Repr

/-- `decay.rs:12-18` `constant`. -/
def ExpDecay.constant (duration : Nat) : ExpDecay := ⟨duration, 1, duration⟩

/-- `decay.rs:21-27` `quadratic`. -/
def ExpDecay.quadratic (starting max : Nat) : ExpDecay := ⟨starting, 2, max⟩

/-- `decay.rs:29-33` `next_duration`; `none` when it panics. -/
def ExpDecay.nextDuration (e : ExpDecay) : Option (Nat × ExpDecay) :=
  match mulDuration e.duration e.multiplier with
  | none => none
  | some d => some (e.duration, { e with duration := Nat.min e.max d })

/-- The first `n` items of the iterator (`decay.rs:36-42`); `none` if one of the calls panics. -/
def ExpDecay.delays (e : ExpDecay) : Nat → Option (List Nat)
  | 0 => some []
  | n + 1 =>
    match e.nextDuration with
    | none => none
    | some (d, e') =>
      match e'.delays n with
      | none => none
      | some ds => some (d :: ds)

/-- What a retried operation's caller can observe: the attempts made and the sleeps between them (`retry.rs:3-50`,
`runner_strategy.rs:221-264`). -/
inductive Ev where
  | attempt (k : Nat)
  | sleep
deriving DecidableEq, Repr

/-- `retry.rs:13-27` and `:34-49`: the loops of `async_retry_n` and `retry_n`, which are the same code. The
operation is what it answers to each attempt number. Modelled as a pair of the result and the events. -/
def retryLoop {ε α : Type} (maxAttempts : Nat) (operation : Nat → Except ε α) (attempt : Nat) :
    Except ε α × List Ev :=
  let attempt' := attempt + 1
  match operation attempt' with
  | .ok v => (.ok v, [.attempt attempt'])
  | .error e =>
    if attempt' ≥ maxAttempts then (.error e, [.attempt attempt'])
    else
      let r := retryLoop maxAttempts operation attempt'
      (r.1, .attempt attempt' :: .sleep :: r.2)
termination_by maxAttempts - attempt

/-- `retry.rs:3-27` `async_retry_n`, `:30-49` `retry_n`. -/
def retryN {ε α : Type} (maxAttempts : Nat) (operation : Nat → Except ε α) : Except ε α × List Ev :=
  retryLoop maxAttempts operation 0

/-- What one round trip to the work server yields (`runner_strategy.rs:236-246`): an i/o error of connecting,
writing or reading, or one of the three answers `InitContextResponse`. -/
inductive Reply (Ctx : Type) where
  | ioError
  | waitingForManifest
  | initContext (c : Ctx)
  | runAlreadyCompleted (cancelled : Bool)
deriving DecidableEq, Repr

/-- `runner_strategy.rs:248-252`: the delay after a delay of `decay` milliseconds. -/
def nextDecay (maxDecay decay : Nat) : Nat :=
  let decay := decay * 2
  if decay ≥ maxDecay then maxDecay else decay

/-- `runner_strategy.rs:233-260`: the loop, given the replies the server will give to the requests made, in order.
Returns the reply it stops at (`none` if it is still asking after the replies given) and the delays slept so far,
in milliseconds. -/
def pollLoop {Ctx : Type} (maxDecay : Nat) : Nat → List (Reply Ctx) → Option (Reply Ctx) × List Nat
  | _, [] => (none, [])
  | decay, .waitingForManifest :: rs =>
    let r := pollLoop maxDecay (nextDecay maxDecay decay) rs
    (r.1, decay :: r.2)
  | _, r :: _ => (some r, [])

/-- `runner_strategy.rs:229-260` `get_init_context`: 10 ms at first, at most 3 s. -/
def getInitContext {Ctx : Type} (replies : List (Reply Ctx)) : Option (Reply Ctx) × List Nat :=
  pollLoop 3000 10 replies

end Abq.Backoff
