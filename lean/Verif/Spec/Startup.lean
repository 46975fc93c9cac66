import Verif.Model.Startup

/-!
# Vocabulary for starting queues and finding their servers
-/

namespace Abq.Spec.Startup
open Abq.Startup
open Abq.Attach (Addr)

/-- The IP address a queue advertises leads from `src` to the queue's machine, and its listeners accept it. -/
def AdvertisesWell (route : Route) (src : String) (d : Deployed) : Prop :=
  route src d.live.publicIp = some d.machine ∧ (d.live.bind = "0.0.0.0" ∨ d.live.bind = d.live.publicIp)

/-- The ports a queue listens at. -/
def ports (l : Live) : List Nat := [l.server, l.negotiator, l.work]

/-- Every runner a worker starts gets its tests and sends its results to the servers of `d`. -/
def AttachedTo (route : Route) (queues : List Deployed) (src : String) (d : Deployed) : Attach.Started → Prop
  | .pool _ runners =>
    ∀ r ∈ runners, reach route queues src r.work = some (d, .work) ∧ reach route queues src r.results = some (d, .server)
  | _ => True

end Abq.Spec.Startup
