import Verif.Model.Replay
import Verif.Spec.AllRuns

/-! # Vocabulary of C84 -/

namespace Abq.Replay
variable {T : Type}

/-- One of the runners that took part in the run, which is over. -/
def TookPart (σ : Runs T) (rid : RunId) (e : Entity) : Prop :=
  ∃ x md seen m h, σ.get rid = some (.done x md seen m h) ∧ ∃ p ∈ seen, p.1.tag = e.tag

/-- A message of a replaying worker to a run that is over. Runners that took no part in the run leave when they ask for the init
context. -/
def Msg.Ok (σ : Runs T) (rid : RunId) : Msg T → Prop
  | .attach p => p.rid = rid
  | .initContext _ => True
  | .manifest _ _ | .emptyManifest | .manifestFailed => True
  | .retryManifest e | .nextTests e | .results e | .ranAllTests e _ | .cancel e => TookPart σ rid e

/-- What happens because of a replay that started in state `σ`: a message arrives, or a request of the replay goes on. -/
inductive Act (σ : Runs T) (rid : RunId) : RunsAct T → Prop where
  | msg (m : Msg T) (hs : Mode.readonly.sends m = true) (hm : m.Ok σ rid) : Act σ rid (m.act rid)
  | resume (i : Nat) (ans : RemoteAns) (ok : Bool) (hi : σ.pending.length ≤ i) : Act σ rid (.resume i ans ok)

/-- What an act says of a runner: that it works on the run (`true`), or that it is done or cancelled (`false`). -/
def word (rid : RunId) (t : Tag) : RunsAct T → Option Bool
  | .request r (.initMetadata e) => if r = rid ∧ e.tag = t then some true else none
  | .request r (.retryManifest e) => if r = rid ∧ e.tag = t then some true else none
  | .request r (.complete e _) => if r = rid ∧ e.tag = t then some false else none
  | .request r (.cancel e _) => if r = rid ∧ e.tag = t then some false else none
  | _ => none

/-- What was last heard of a runner. -/
def lastWord (rid : RunId) (t : Tag) : List (RunsAct T) → Option Bool
  | [] => none
  | a :: acts => (lastWord rid t acts).or (word rid t a)

end Abq.Replay
