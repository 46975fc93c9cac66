import Verif.Model.StartWait
import Verif.Model.AllRuns

/-! # Vocabulary for how long a runner waits for the manifest -/

namespace Abq.Spec.StartWait
open Abq.Backoff Abq.StartWait
variable {T : Type}

/-- What a runner reads if the queue answers this. -/
def told : MetaAns → Reply String
  | .waitingForManifest => .waitingForManifest
  | .metadata md => .initContext md
  | .alreadyCompleted c => .runAlreadyCompleted c

/-- A queue in time: all that has happened at it by each moment. -/
def Grows (history : Nat → List (RunsAct T)) : Prop := ∀ s t, s ≤ t → history s <+: history t

/-- A request begun at `now` that takes `takes now` is answered by the queue as things are for run `rid` when it handles it, `inside now`
later. -/
def FromQueue (history : Nat → List (RunsAct T)) (rid : RunId) (e : Entity) (takes inside : Nat → Nat)
    (world : Nat → Visit String) : Prop :=
  ∀ now, inside now ≤ takes now ∧ (world now).takes = takes now ∧
    ∀ s, ((Runs.init : Runs T).run (history (now + inside now))).get rid = some s →
      (world now).reply = told (s.initMetadata e).2

end Abq.Spec.StartWait
