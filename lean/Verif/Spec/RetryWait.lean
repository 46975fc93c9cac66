import Verif.Model.RetryWait
import Verif.Model.AllRuns
import Verif.Spec.StartWait
import Verif.Spec.TestsConn

/-! # Vocabulary for how long a worker that is run again waits for its tests -/

namespace Abq.Spec.RetryWait
open Abq.RetryWait Abq.TestsConn
variable {T : Type}

/-- An attempt begun at `now` gets through to the queue, which finds run `rid` as it is `inside now` later, and answers: it is told to wait
if the manifest is still being stored; its tests, or those in the stored manifest, which may also be unreadable; or an error. -/
def FromQueue (history : Nat → List (RunsAct T)) (rid : RunId) (e : Entity) (inside : Nat → Nat)
    (world : Nat → Visit (List (WorkerTest T))) : Prop :=
  ∀ now, inside now ≤ (world now).takes ∧ (world now).Connects ∧ (world now).io = true ∧
    ∀ s, ((Runs.init : Runs T).run (history (now + inside now))).get rid = some s →
      match (s.retryManifest e).2 with
      | .manifest items => (world now).reply = .manifest items
      | .fetchFromPersistence =>
        (∃ items, (world now).reply = .manifest items ∧
          ∀ v, (rid, v) ∈ ((Runs.init : Runs T).run (history (now + inside now))).store → v.getPartitionForEntity e.tag = some items) ∨
        (world now).reply = .error
      | .notYetPersisted => (world now).reply = .notYetPersisted
      | .manifestNeverReceived => (world now).reply = .error
      | .runCancelled => (world now).reply = .error

end Abq.Spec.RetryWait
