import Verif.Model.Backoff

/-!
# How long a runner waits for the manifest

The loop of `abq_workers/src/runner_strategy.rs:221-264`, with the time it takes. Times are milliseconds since the loop began. Sleeping
takes exactly as long as it was told, and computing takes no time.
-/

namespace Abq.StartWait
open Abq.Backoff (Reply nextDecay)

/-- What comes of a request and how long it takes to connect, to write it and to read the answer (`runner_strategy.rs:236-246`). -/
structure Visit (Ctx : Type) where
  takes : Nat
  reply : Reply Ctx

/-- The first requests, at most `n`, that the loop at `runner_strategy.rs:235-262` makes from `now` on, when it is to sleep for `decay`
next: the times at which they are begun; and, if it came to its end, when it did and with which answer. `world now` is what comes of a
request begun at `now`. -/
def ask {Ctx : Type} (world : Nat → Visit Ctx) : Nat → Nat → Nat → List Nat × Option (Nat × Reply Ctx)
  | 0, _, _ => ([], none)
  | n + 1, now, decay =>
    match (world now).reply with
    | .waitingForManifest =>
      let rest := ask world n (now + (world now).takes + decay) (nextDecay 3000 decay)
      (now :: rest.1, rest.2)
    | .ioError => ([now], some (now + (world now).takes, .ioError))
    | .initContext c => ([now], some (now + (world now).takes, .initContext c))
    | .runAlreadyCompleted c => ([now], some (now + (world now).takes, .runAlreadyCompleted c))

/-- `runner_strategy.rs:231-234`: 10 ms at first. -/
def firstRequests {Ctx : Type} (world : Nat → Visit Ctx) (n : Nat) : List Nat × Option (Nat × Reply Ctx) := ask world n 0 10

end Abq.StartWait
