import Verif.Model.QueueAnswers
import Verif.Props.Messages
/-!
# The answers of the queue arrive as they were sent (C101)
-/

namespace Abq.Props
open Abq.Messages Abq.Protocol Abq.Spec.JsonText Abq.Spec.Messages Abq.JsonText
open RunStateDoc (Json)
open QueueAnswers (Health Info Marker encHealth decHealth encInfo decInfo encActive decActive decDone decInProgress encMarker decMarker)

theorem decStatus_done (x : Json) : QueueAnswers.decStatus (.obj [("InitialManifestDone", x)]) = decDone x := rfl

theorem decResults_inProgress (x : Json) : QueueAnswers.decResults (.obj [("RunInProgress", x)]) = decInProgress x := rfl

/-- C101: the answers to `abq health`, to a worker that looks for the negotiator, and to those that ask for the number of active runs,
the status of a run or its results, are received as they were sent. -/
theorem C101_answers_received (f : Floats) :
    (∀ h : Health, receive decHealth f (send encHealth h) = some h) ∧
    (∀ i : Info, AddrOk i.address → receive decInfo f (send encInfo i) = some i) ∧
    (∀ n, U64 n → receive decActive f (send encActive n) = some n) ∧
    (∀ s : QueueAnswers.Status, (∀ n, s = .initialManifestDone n → U64 n) →
      receive QueueAnswers.decStatus f (send QueueAnswers.encStatus s) = some s) ∧
    (∀ r : QueueAnswers.Results, (∀ ts, r = .inProgress ts → ∀ t ∈ ts, TagOk t) →
      receive QueueAnswers.decResults f (send QueueAnswers.encResults r) = some r) := by
  refine ⟨fun h => ?_, fun i hi => ?_, fun n hn => ?_, fun s hs => ?_, fun r hr => ?_⟩
  · refine received (k := 1) ?_ (fit_struct ⟨some_fit (fit_bool ..), some_fit (fit_str ..), trivial⟩) (by decide)
    unfold encHealth struct decHealth
    dsimp only
    req decBool_enc
    req decStr_enc
  · refine received (k := 1) ?_ (fit_struct ⟨some_fit (fit_str ..), some_fit (fit_str ..), trivial⟩) (by decide)
    unfold encInfo struct decInfo
    dsimp only
    req (decAddr_enc hi)
    req decStr_enc
  · refine received (k := 1) ?_ (fit_struct ⟨some_fit (fit_nat f 0 _ hn), trivial⟩) (by decide)
    unfold encActive struct decActive
    dsimp only
    rw [req_present (by distinct) (by find), dec_enc_nat hn]
  · cases s with
    | active => exact received (k := 0) rfl (fit_str ..) (by decide)
    | cancelled => exact received (k := 0) rfl (fit_str ..) (by decide)
    | initialManifestDone n =>
      have hn := hs n rfl
      refine received (k := 2) ?_ (fit_obj1 (fit_struct ⟨some_fit (fit_nat f 0 _ hn), trivial⟩)) (by decide)
      unfold QueueAnswers.encStatus
      dsimp only
      rw [decStatus_done]
      unfold struct decDone
      dsimp only
      req (dec_enc_nat hn)
  · cases r with
    | streaming => exact received (k := 0) rfl (fit_str ..) (by decide)
    | pending => exact received (k := 0) rfl (fit_str ..) (by decide)
    | error m => exact received (k := 1) rfl (fit_obj1 (fit_str ..)) (by decide)
    | inProgress ts =>
      have ht := hr ts rfl
      refine received (k := 5) ?_ (fit_obj1 (fit_struct ⟨some_fit (fit_map fun t h => fit_tag f (ht t h)), trivial⟩)) (by decide)
      unfold QueueAnswers.encResults
      dsimp only
      rw [decResults_inProgress]
      unfold struct decInProgress
      dsimp only
      req (decArr_enc fun t h => Messages.decTag_enc (ht t h))

/-- C101: acknowledgements and requests for tests are received. -/
theorem C101_acknowledgements_received (f : Floats) (m : Marker) : receive (decMarker m) f (send encMarker m) = some m :=
  received (k := 1) rfl (fit_obj1 (fit_str ..)) (by decide)

/-- The document of an answer. -/
example : QueueAnswers.encResults (.inProgress [.externalClient, .runner ⟨0, 1⟩]) =
    .obj [("RunInProgress", .obj [("active_runners", .arr [.str "ExternalClient", .obj [("Runner", .arr [.int 0, .int 1])]])])] := rfl

example : U64 3 ∧ TagOk (.runner ⟨0, 1⟩) := ⟨by unfold U64; decide, ⟨by unfold U32; decide, by unfold U32; decide⟩⟩

end Abq.Props
