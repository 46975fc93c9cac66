import Verif.Model.SendTime
import Verif.Model.RetryWait

/-!
# A worker that is run again asks for its tests while the queue may be out of reach

`abq_workers/src/test_fetching/out_of_process_retry_manifest_fetcher.rs:66-123` over the world of `Model/SendTime.lean`.
-/

namespace Abq.RetryOutage
open Abq.SendTime Abq.TestsConn

/-- An attempt begun at `now` (`out_of_process_retry_manifest_fetcher.rs:77-109`; `CONNECTION_ATTEMPTS` and `CONNECTION_BACKOFF`,
`out_of_process_retry_manifest_fetcher.rs:16-17`, are those of the senders of messages). `reply t` is what the queue answers to a request
over a connection that is there at `t`. -/
def visit {β : Type} (world : Nat → Try) (exchange : Nat → Exchange) (reply : Nat → Reply β) (now : Nat) : RetryWait.Visit β :=
  let c := connecting world 5 now
  { connects := fun k => (c.1[k - 1]?).any fun t => (world t).ok
    io := (exchange c.2.1).written && (exchange c.2.1).acked
    reply := reply c.2.1
    takes := (send world exchange now).1 - now }

end Abq.RetryOutage
