import Verif.Spec.AllRuns

/-!
# Vocabulary for what the queue says about a run

The phase of a run is computed here from the answers the queue has given, one after the other.
-/

namespace Abq.Spec
open Abq
variable {T : Type}

/-- What an answer says about the phase of run `rid`, which was `p` before. -/
def phaseNext (rid : RunId) (p : Option Phase) : Event T → Option Phase
  | .joined q (.fresh true _) => if q.rid = rid then some .waiting else p
  | .loaded r _ => if r = rid then some .exhausted else p
  | .manifest r _ true => if r = rid then some .serving else p
  | .manifestFailed r => if r = rid ∧ p = some .waiting then some .cancelled else p
  | .emptyManifest r true => if r = rid then some .exhausted else p
  | .work r _ _ true => if r = rid ∧ p = some .serving then some .exhausted else p
  | .cancel r _ false => if r = rid then some .cancelled else p
  | .progress r _ .cancelledNotReceived => if r = rid then some .cancelled else p
  | .progress r _ .cancelledNoProgress => if r = rid then some .cancelled else p
  | _ => p

/-- The phase of run `rid` after these answers. -/
def phaseAfter (rid : RunId) (evs : List (Event T)) : Option Phase :=
  evs.foldl (phaseNext rid) none

/-- The metadata `md` came with the manifest that was accepted for the run. -/
def GivenMetadata (rid : RunId) (md : String) (acts : List (RunsAct T)) : Prop :=
  ∃ a flat b, acts = a ++ .request rid (.addManifest flat md) :: b ∧
    phaseOf ((Runs.init : Runs T).run a) rid = some .waiting

/-- A request to cancel run `rid`. -/
def cancelRequest (rid : RunId) : RunsAct T → Bool
  | .request r (.cancel ..) => r == rid
  | _ => false

/-- What put run `rid` in the cancelled phase with reason `r`: a request to cancel it with this
reason, the failure of a worker to produce the manifest, or a timeout of the progress timer. -/
def CancelledBy (rid : RunId) (r : CancelReason) (σ : Runs T) (act : RunsAct T) : Prop :=
  (∃ e, act = .request rid (.cancel e r) ∧ phaseOf σ rid ≠ some .exhausted) ∨
  (act = .request rid .manifestFailed ∧ phaseOf σ rid = some .waiting ∧ r = .manifestNeverReceived) ∨
  (∃ i ans ok last, act = .resume i ans ok ∧ σ.pending[i]? = some (.timeoutWrite rid last) ∧
    r = .manifestHadNoProgress ∧ (phaseOf σ rid = some .waiting ∨ phaseOf σ rid = some .serving))

end Abq.Spec
