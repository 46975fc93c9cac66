import Verif.Model.StartOutage
import Verif.Props.StartWait
import Verif.Props.SendTime

/-!
# C154: what outages of the queue a runner survives that waits for the manifest

`world t` is what comes of an attempt to connect that is begun at `t`, `exchange t` of writing and reading from `t` on, and `reply t` is what
the queue answers over a connection that is there at `t`.
-/

namespace Abq.Props
open Abq.SendTime Abq.Spec.SendTime Abq.StartWait Abq.StartOutage
variable {Ctx : Type}

/-- C154: a runner that waits for the manifest has the queue's answer, at most two requests and three seconds after there is one at `ready`,
if no outage of the queue falls into this time and no connection is lost once it is there. -/
theorem C154_start_partial (world : Nat → Try) (exchange : Nat → Exchange) (reply : Nat → Backoff.Reply Ctx) (a x : Nat)
    (ha : ∀ t, (world t).takes ≤ a) (hx : ∀ t, (exchange t).takes ≤ x) (hl : NoneLost exchange) (ready : Nat)
    (hup : ∀ t, t ≤ ready + (a + x) + 3000 → (world t).ok = true) (hr : ∀ t, ready ≤ t → reply t ≠ .waitingForManifest) :
    ∃ n asked ended, (firstRequests (visit world exchange reply) n).2 = some (ended, reply asked) ∧ reply asked ≠ .waitingForManifest ∧
      asked ≤ ended ∧ ended ≤ ready + 2 * (a + x) + 3000 := by
  have htakes : ∀ t, (visit world exchange reply t).takes ≤ a + x := by
    intro t
    have h1 := ha t
    have h2 := hx (t + (world t).takes)
    rw [visit]
    dsimp only
    split <;> dsimp only <;> omega
  obtain ⟨n, t, h1, h2, h3⟩ := C150_soon (visit world exchange reply) ready (a + x) htakes (fun t ht => by
    rw [visit]
    dsimp only
    split
    · dsimp only
      split
      · exact hr _ (by omega)
      · simp
    · simp)
  have hv : visit world exchange reply t =
      ⟨(world t).takes + (exchange (t + (world t).takes)).takes, reply (t + (world t).takes)⟩ := by
    rw [visit]
    simp only [hup t (by omega), if_true, (hl _).1, (hl _).2, Bool.and_self]
  have h4 := htakes t
  rw [hv] at h1 h2 h4
  exact ⟨n, t + (world t).takes, _, h1, h2, by simp only; omega, by simp only at h4 ⊢; omega⟩

/-- C154: but a single attempt to connect that fails ends it with an error, however short the outage is; and so does a connection that is
lost. -/
theorem C154_start_gives_up (world : Nat → Try) (exchange : Nat → Exchange) (reply : Nat → Backoff.Reply Ctx) (n t : Nat)
    (ht : t ∈ (firstRequests (visit world exchange reply) n).1)
    (hd : (world t).ok = false ∨ (exchange (t + (world t).takes)).written = false ∨ (exchange (t + (world t).takes)).acked = false) :
    ∃ ended, (firstRequests (visit world exchange reply) n).2 = some (ended, .ioError) := by
  have hv : (visit world exchange reply t).reply = .ioError := by
    rw [visit]
    dsimp only
    split
    · rename_i hk
      dsimp only
      rw [hk] at hd
      rw [if_neg]
      rcases hd with h | h | h
      · cases h
      · simp [h]
      · simp [h]
    · rfl
  obtain ⟨-, h1, h2, h3⟩ := C150_requests (visit world exchange reply) n
  cases hr : (firstRequests (visit world exchange reply) n).2 with
  | none =>
    have := (h3 hr).2 t ht
    rw [hv] at this
    cases this
  | some p =>
    obtain ⟨ended, r⟩ := p
    obtain ⟨u, h4, h5, h6, -⟩ := h2 ended r hr
    obtain ⟨i, hi, rfl⟩ := List.mem_iff_getElem.1 ht
    by_cases hlast : i + 1 < (firstRequests (visit world exchange reply) n).1.length
    · have := (h1 i _ _ (List.getElem?_eq_getElem hi) (List.getElem?_eq_getElem hlast)).1
      rw [hv] at this
      cases this
    · rw [List.getLast?_eq_getElem?, show (firstRequests (visit world exchange reply) n).1.length - 1 = i by omega,
        List.getElem?_eq_getElem hi] at h4
      cases h4
      exact ⟨ended, by rw [h6, hv]⟩

/-! ## A case -/

/-- The manifest is there after a tenth of a second. -/
def startReply (t : Nat) : Backoff.Reply Nat := if t < 100 then .waitingForManifest else .initContext 3

example : ∃ n asked ended, (firstRequests (visit (fun _ => ⟨true, 10⟩) sendExchange startReply) n).2 = some (ended, startReply asked) ∧
    startReply asked ≠ .waitingForManifest ∧ asked ≤ ended ∧ ended ≤ 100 + 2 * (10 + 5) + 3000 :=
  C154_start_partial (fun _ => ⟨true, 10⟩) sendExchange startReply 10 5 (fun _ => Nat.le_refl _) (fun _ => Nat.le_refl _)
    (fun _ => ⟨rfl, rfl⟩) 100 (fun _ _ => rfl) (fun t ht => by simp [startReply]; omega)

/-- C154 does not hold of waiting for the manifest: here the queue is out of reach for twenty milliseconds, and the runner ends with an
error at its second request. -/
theorem C154_start_fails :
    ShortOutages (fun t => ⟨!(decide (20 ≤ t) && decide (t < 40)), 10⟩) 12000 (3000 + 10) ∧ NoneLost sendExchange ∧
    firstRequests (visit (fun t => ⟨!(decide (20 ≤ t) && decide (t < 40)), 10⟩) sendExchange startReply) 9 =
      ([0, 25], some (35, .ioError)) := by
  refine ⟨?_, fun _ => ⟨rfl, rfl⟩, by decide⟩
  intro t ht
  simp only [Bool.not_eq_false', Bool.and_eq_true, decide_eq_true_eq] at ht
  exact ⟨40, ht.2, by omega, fun u h _ => by simp; omega⟩

example : ∃ ended, (firstRequests (visit (fun t => ⟨!(decide (20 ≤ t) && decide (t < 40)), 10⟩) sendExchange startReply) 9).2 =
    some (ended, .ioError) :=
  C154_start_gives_up _ _ _ 9 25 (by rw [C154_start_fails.2.2]; decide) (.inl (by decide))

end Abq.Props
