import Verif.Spec.RetryWait
import Verif.Spec.SendTime

/-! # Vocabulary for a worker that is run again while the queue may be out of reach (C155) -/

namespace Abq.Spec.RetryOutage
open Abq.TestsConn
variable {T : Type}

/-- Asked by `e` at any moment for its tests, the queue answers as it finds run `rid` then: that the manifest is still being stored; its
tests, or those in the stored manifest, which may also be unreadable; or an error. -/
def Answers (history : Nat → List (RunsAct T)) (rid : RunId) (e : Entity) (reply : Nat → Reply (List (WorkerTest T))) : Prop :=
  ∀ t s, ((Runs.init : Runs T).run (history t)).get rid = some s →
    match (s.retryManifest e).2 with
    | .manifest items => reply t = .manifest items
    | .fetchFromPersistence =>
      (∃ items, reply t = .manifest items ∧
        ∀ v, (rid, v) ∈ ((Runs.init : Runs T).run (history t)).store → v.getPartitionForEntity e.tag = some items) ∨
      reply t = .error
    | .notYetPersisted => reply t = .notYetPersisted
    | .manifestNeverReceived => reply t = .error
    | .runCancelled => reply t = .error

end Abq.Spec.RetryOutage
