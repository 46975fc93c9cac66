import Verif.Model.SendTime
import Verif.Model.StartWait

/-!
# A runner waits for the manifest while the queue may be out of reach

`abq_workers/src/runner_strategy.rs:221-264` over the world of `Model/SendTime.lean`.
-/

namespace Abq.StartOutage
open Abq.SendTime

/-- A request begun at `now` (`runner_strategy.rs:236-246`): there is one attempt to connect. `reply t` is what the queue answers to a request
over a connection that is there at `t`. -/
def visit {Ctx : Type} (world : Nat → Try) (exchange : Nat → Exchange) (reply : Nat → Backoff.Reply Ctx) (now : Nat) :
    StartWait.Visit Ctx :=
  let t := world now
  if t.ok then
    let x := exchange (now + t.takes)
    ⟨t.takes + x.takes, if x.written && x.acked then reply (now + t.takes) else .ioError⟩
  else ⟨t.takes, .ioError⟩

end Abq.StartOutage
