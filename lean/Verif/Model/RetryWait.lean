import Verif.Model.TestsConn

/-!
# How long a worker that is run again waits for its tests

The loop of `abq_workers/src/test_fetching/out_of_process_retry_manifest_fetcher.rs:66-123`, with the time it takes. Times are milliseconds
since the loop began. Sleeping takes exactly as long as it was told, and computing takes no time.
-/

namespace Abq.RetryWait
open Abq.TestsConn (Poll Fetched tryFetch)

/-- What comes of an attempt and how long it takes to connect, to write the request and to read the answer, with the attempts to connect
and the pauses between them (`out_of_process_retry_manifest_fetcher.rs:77-109`). -/
structure Visit (β : Type) extends Poll β where
  takes : Nat

/-- `out_of_process_retry_manifest_fetcher.rs:111-122` with `retry.rs:3-29`, from an attempt begun at `now` on, with `left` attempts left:
the times at which attempts are begun, when it ends, and with what. `world now` is what comes of an attempt begun at `now`. -/
def ask {β : Type} (world : Nat → Visit β) : Nat → Nat → List Nat × Nat × Fetched β
  | 0, now => ([], now, .panic)
  | left + 1, now =>
    match (tryFetch (world now).toPoll).1 with
    | .ok r => ([now], now + (world now).takes, r)
    | .error _ =>
      if left = 0 then ([now], now + (world now).takes, .panic)
      else
        let rest := ask world left (now + (world now).takes + 3000)
        (now :: rest.1, rest.2)

/-- `out_of_process_retry_manifest_fetcher.rs:19-20` `TRY_FETCH_MANIFEST_ATTEMPTS`, `TRY_FETCH_MANIFEST_BACKOFF`: twenty attempts. -/
def fetch {β : Type} (world : Nat → Visit β) : List Nat × Nat × Fetched β := ask world 20 0

end Abq.RetryWait
