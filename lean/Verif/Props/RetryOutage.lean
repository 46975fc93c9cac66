import Verif.Model.RetryOutage
import Verif.Spec.RetryOutage
import Verif.Props.RetryWait
import Verif.Props.SendTime

/-!
# C155: a worker that is run again gets its tests in spite of outages of the queue

`world t` is what comes of an attempt to connect that is begun at `t`, `exchange t` of writing and reading from `t` on, and `reply t` is what
the queue answers over a connection that is there at `t`.
-/

namespace Abq.Props
open Abq.SendTime Abq.Spec.SendTime Abq.TestsConn Abq.RetryOutage
variable {β T : Type} {world : Nat → Try} {exchange : Nat → Exchange} {reply : Nat → Reply β}

theorem connecting_ok (left now : Nat) :
    (connecting world left now).2.2 = true ↔ ∃ t ∈ (connecting world left now).1, (world t).ok = true := by
  induction left generalizing now with
  | zero => simp [connecting]
  | succ left ih =>
    rw [connecting]
    split
    · rename_i h; simp [h]
    split
    · rename_i h _; simp [h]
    · rename_i h _
      simp only [List.mem_cons, exists_eq_or_imp, h, Bool.false_eq_true, false_or]
      exact ih _

theorem connecting_ge (left now : Nat) : now ≤ (connecting world left now).2.1 := by
  induction left generalizing now with
  | zero => exact Nat.le_refl _
  | succ left ih =>
    rw [connecting]
    split
    · simp only; omega
    split
    · simp only; omega
    · have := ih (now + (world now).takes + 3000)
      simp only; omega

theorem send_ge (now : Nat) : (connecting world 5 now).2.1 ≤ (send world exchange now).1 := by
  rw [send]
  dsimp only
  split
  · simp only; omega
  · exact Nat.le_refl _

theorem visit_connects (now : Nat) :
    (visit world exchange reply now).Connects ↔ (connecting world 5 now).2.2 = true := by
  rw [connecting_ok]
  constructor
  · rintro ⟨k, h1, h2, h3⟩
    simp only [visit, Option.any_eq_true] at h3
    obtain ⟨t, ht, hk⟩ := h3
    exact ⟨t, List.mem_of_getElem? ht, hk⟩
  · rintro ⟨t, ht, hk⟩
    obtain ⟨i, hi, rfl⟩ := List.mem_iff_getElem.1 ht
    have := (connecting_times (world := world) 5 now).2.2
    refine ⟨i + 1, by omega, by omega, ?_⟩
    simp only [visit, Nat.add_sub_cancel, List.getElem?_eq_getElem hi, Option.any_some, hk]

theorem visit_survives {a x : Nat} (ha : ∀ t, (world t).takes ≤ a) (hx : ∀ t, (exchange t).takes ≤ x) (hl : NoneLost exchange)
    (ho : ShortOutages world 12000 (3000 + a)) (now : Nat) :
    (send world exchange now).1 ≤ now + 15000 + 2 * a + x ∧ (connecting world 5 now).2.2 = true := by
  obtain ⟨h1, h2⟩ := (C154_survives_partial world exchange a x ha hx hl ho now [0]).2 (now + 0, send world exchange (now + 0))
    (by simp [sends])
  refine ⟨h2, ?_⟩
  dsimp only at h1
  rw [send] at h1
  dsimp only at h1
  split at h1
  · assumption
  · cases h1

/-- C155: let attempts to connect take at most `a`, no connection be lost once it is there, and writing and reading take at most `x`. If the
queue is never out of reach for more than twelve seconds, and then within reach for at least three seconds and an attempt, and from `ready` on,
at most 57 seconds after the worker began to ask, it does not tell the worker to wait any more, the worker has the queue's answer at most 33
seconds and four attempts (and two exchanges) after `ready`. -/
theorem C155_survives (world : Nat → Try) (exchange : Nat → Exchange) (reply : Nat → Reply β) (a x : Nat)
    (ha : ∀ t, (world t).takes ≤ a) (hx : ∀ t, (exchange t).takes ≤ x) (hl : NoneLost exchange)
    (ho : ShortOutages world 12000 (3000 + a)) (ready : Nat) (hready : ready ≤ 57000)
    (hr : ∀ t, ready ≤ t → reply t ≠ .notYetPersisted) :
    ∃ asked n, asked ≤ n ∧ n ≤ ready + 33000 + 4 * a + 2 * x ∧
      ((∃ b, reply asked = .manifest b ∧ (RetryWait.fetch (visit world exchange reply)).2 = (n, .manifest b)) ∨
        (reply asked = .error ∧ (RetryWait.fetch (visit world exchange reply)).2 = (n, .error))) := by
  obtain ⟨one, up⟩ : (∀ now, (send world exchange now).1 ≤ now + 15000 + 2 * a + x) ∧ ∀ now, (connecting world 5 now).2.2 = true :=
    ⟨fun now => (visit_survives ha hx hl ho now).1, fun now => (visit_survives ha hx hl ho now).2⟩
  obtain ⟨t, r, h1, h2, h3⟩ := C152_soon (visit world exchange reply) ready (15000 + 2 * a + x) hready
    (fun t => by have := one t; simp only [visit]; omega)
    (fun t ht hw => hr _ (Nat.le_trans ht (connecting_ge 5 t)) hw.2.2)
  have h4 := connecting_ge (world := world) 5 t
  have h5 := send_ge (world := world) (exchange := exchange) t
  have h6 := one t
  have ht : t + (visit world exchange reply t).takes = (send world exchange t).1 := by simp only [visit]; omega
  rw [ht] at h1
  refine ⟨(connecting world 5 t).2.1, (send world exchange t).1, h5, by omega, ?_⟩
  rcases h2 with ⟨h, -⟩ | ⟨-, h, -⟩ | ⟨-, -, ⟨b, h, rfl⟩ | ⟨h, rfl⟩⟩
  · exact absurd ((visit_connects t).2 (up t)) h
  · simp [visit, (hl _).1, (hl _).2] at h
  · exact .inl ⟨b, h, h1⟩
  · exact .inr ⟨h, h1⟩

/-- C155: at the queue. If the manifest of the run is stored at `ready`, at most 57 seconds after a worker that is run again began to ask,
then with such outages the answer is exactly the tests the worker was given when it ran first (unless the run is from the remote store, of
which the queue does not know who was given what), or an error. -/
theorem C155_queue (history : Nat → List (RunsAct T)) (rid : RunId) (e : Entity) (world : Nat → Try) (exchange : Nat → Exchange)
    (reply : Nat → Reply (List (WorkerTest T))) (hg : Spec.StartWait.Grows history) (hw : Spec.RetryOutage.Answers history rid e reply)
    (hext : e.tag ≠ .externalClient) (a x : Nat) (ha : ∀ t, (world t).takes ≤ a) (hx : ∀ t, (exchange t).takes ≤ x)
    (hl : NoneLost exchange) (ho : ShortOutages world 12000 (3000 + a)) (ready : Nat) (hready : ready ≤ 57000)
    (h0 : Spec.phaseOf ((Runs.init : Runs T).run (history 0)) rid ≠ none)
    (hs : Spec.answer ((Runs.init : Runs T).run (history ready)) rid (.retryManifest e) = [.retry rid e .fetchFromPersistence]) :
    ∃ asked n r, (RetryWait.fetch (visit world exchange reply)).2 = (n, r) ∧ asked ≤ n ∧ n ≤ ready + 33000 + 4 * a + 2 * x ∧
      (r = .error ∨
        r = .manifest (Spec.handedTo rid e.tag ((Runs.init : Runs T).run (history asked)).events) ∨
        (∃ items, r = .manifest items) ∧ ((Runs.init : Runs T).run (history asked)).events.any (Spec.isLoad rid) = true) := by
  have hin : ∀ now, now + ((connecting world 5 now).2.1 - now) = (connecting world 5 now).2.1 := fun now => by
    have := connecting_ge (world := world) 5 now
    omega
  have hq : Spec.RetryWait.FromQueue history rid e (fun now => (connecting world 5 now).2.1 - now) (visit world exchange reply) := by
    intro now
    refine ⟨?_, (visit_connects now).2 (visit_survives ha hx hl ho now).2, by simp [visit, (hl _).1, (hl _).2], ?_⟩
    · have := send_ge (world := world) (exchange := exchange) now
      simp only [visit]; omega
    · rw [hin]
      exact fun s h => hw _ s h
  obtain ⟨t, r, h1, h2, h3⟩ := C152_queue history rid e _ (visit world exchange reply) hg hq hext ready (15000 + 2 * a + x) hready
    (fun t => by have := (visit_survives ha hx hl ho t).1; simp only [visit]; omega) h0 hs
  rw [hin] at h3
  refine ⟨(connecting world 5 t).2.1, _, r, h1, ?_, by omega, h3⟩
  have h4 := connecting_ge (world := world) 5 t
  have := send_ge (world := world) (exchange := exchange) t
  simp only [visit]; omega

theorem fetch_fails (world : Nat → RetryWait.Visit β) (t : Nat) (ht : t ∈ (RetryWait.fetch world).1)
    (h : ¬ ((world t).Connects ∧ (world t).io = true)) : (RetryWait.fetch world).2 = (t + (world t).takes, .panic) := by
  obtain ⟨-, -, h1, u, h2, h3, h4⟩ := C152_attempts world
  obtain ⟨i, hi, rfl⟩ := List.mem_iff_getElem.1 ht
  by_cases hlast : i + 1 < (RetryWait.fetch world).1.length
  · obtain ⟨hw, -⟩ := h1 i _ _ (List.getElem?_eq_getElem hi) (List.getElem?_eq_getElem hlast)
    exact absurd ⟨hw.1, hw.2.1⟩ h
  · rw [List.getLast?_eq_getElem?, show (RetryWait.fetch world).1.length - 1 = i by omega, List.getElem?_eq_getElem hi] at h2
    cases h2
    refine Prod.ext h3 ?_
    rcases h4 with (⟨-, h5⟩ | ⟨-, -, h5⟩ | ⟨h5, h6, -⟩) | ⟨h5, -, -⟩
    · exact h5
    · exact h5
    · exact absurd ⟨h5, h6⟩ h
    · exact absurd ⟨h5.1, h5.2.1⟩ h

/-- C155: more than that it does not survive. If the queue is out of reach for twelve seconds and four attempts from the beginning of a
request on, the worker panics when the fifth has failed. -/
theorem C155_gives_up (world : Nat → Try) (exchange : Nat → Exchange) (reply : Nat → Reply β) (a : Nat) (ha : ∀ t, (world t).takes ≤ a)
    (t : Nat) (ht : t ∈ (RetryWait.fetch (visit world exchange reply)).1) (hd : Down world t (t + 12000 + 4 * a)) :
    ∃ n, (RetryWait.fetch (visit world exchange reply)).2 = (n, .panic) ∧ t + 12000 ≤ n ∧ n ≤ t + 12000 + 5 * a := by
  obtain ⟨h1, h2, h3⟩ : (connecting world 5 t).2.2 = false ∧ t + 3000 * 4 ≤ (connecting world 5 t).2.1 ∧
      (connecting world 5 t).2.1 ≤ t + (3000 + a) * 4 + a :=
    connecting_down ha 4 t fun u h1 h2 => hd u h1 (by omega)
  have := fetch_fails (visit world exchange reply) t ht (fun h => by
    have := (visit_connects t).1 h.1
    rw [h1] at this; cases this)
  refine ⟨_, this, ?_⟩
  have : (send world exchange t).1 = (connecting world 5 t).2.1 := by rw [send]; simp [h1]
  simp only [visit, this]
  omega

/-- C155: nor does it survive that the connection for a request is lost once it is there. -/
theorem C155_lost (world : Nat → Try) (exchange : Nat → Exchange) (reply : Nat → Reply β) (t : Nat)
    (ht : t ∈ (RetryWait.fetch (visit world exchange reply)).1)
    (hl : (exchange (connecting world 5 t).2.1).written = false ∨ (exchange (connecting world 5 t).2.1).acked = false) :
    ∃ n, (RetryWait.fetch (visit world exchange reply)).2 = (n, .panic) :=
  ⟨_, fetch_fails (visit world exchange reply) t ht (fun h => by
    have h := h.2
    simp only [visit, Bool.and_eq_true] at h
    rcases hl with hl | hl
    · rw [hl] at h; exact absurd h.1 (by simp)
    · rw [hl] at h; exact absurd h.2 (by simp))⟩

/-! ## A case -/

/-- The manifest, here a number, is stored after five seconds. -/
def retryReply (t : Nat) : Reply Nat := if t < 5000 then .notYetPersisted else .manifest 7

/-- The worker is told to wait, then the queue is out of reach, then it has its tests. -/
example : ∃ n, n ≤ 5000 + 33000 + 4 * 10 + 2 * 5 ∧
    (RetryWait.fetch (visit sendWorld sendExchange retryReply)).2 = (n, .manifest 7) := by
  obtain ⟨asked, n, -, h1, h2⟩ := C155_survives sendWorld sendExchange retryReply 10 5 (fun _ => Nat.le_refl _) (fun _ => Nat.le_refl _)
    (fun _ => ⟨rfl, rfl⟩) sendWorld_short 5000 (by decide) (fun t ht => by simp [retryReply]; omega)
  refine ⟨n, h1, ?_⟩
  rcases h2 with ⟨b, hb, h⟩ | ⟨hb, -⟩
  · rw [retryReply] at hb
    split at hb
    · cases hb
    · cases hb; exact h
  · rw [retryReply] at hb
    split at hb <;> cases hb

/-- The history of C152's case, in which the manifest is stored after ten seconds: in the middle of the outage. -/
def outageReply (t : Nat) : Reply (List (WorkerTest Nat)) := if t < 10000 then .notYetPersisted else .manifest [⟨11, 1⟩]

theorem outageReply_queue : Spec.RetryOutage.Answers retryHistory "run" (Sample.w 2) outageReply := by
  intro t s hs
  unfold retryHistory at hs ⊢
  unfold outageReply
  by_cases h : t < 10000
  · rw [if_pos h] at hs
    rw [show s = _ from (Option.some.inj hs).symm, if_pos h]
    rfl
  · rw [if_neg h] at hs
    rw [show s = _ from (Option.some.inj hs).symm, if_neg h, if_neg h]
    refine .inl ⟨_, rfl, ?_⟩
    have : ∀ p ∈ ((Runs.init : Runs Nat).run Sample.persisted).store, p.2.getPartitionForEntity (Sample.w 2).tag = some [⟨11, 1⟩] := by decide
    exact fun v hv => this _ hv

example : ∃ n r, (RetryWait.fetch (visit sendWorld sendExchange outageReply)).2 = (n, r) ∧ n ≤ 10000 + 33000 + 4 * 10 + 2 * 5 := by
  obtain ⟨_, n, r, h1, -, h2, -⟩ := C155_queue retryHistory "run" (Sample.w 2) sendWorld sendExchange outageReply retryHistory_grows
    outageReply_queue (by decide) 10 5 (fun _ => Nat.le_refl _) (fun _ => Nat.le_refl _) (fun _ => ⟨rfl, rfl⟩) sendWorld_short 10000
    (by decide) (by decide) rfl
  exact ⟨n, r, h1, h2⟩

/-- An outage of thirteen seconds at the beginning is too long. -/
example : ∃ n, (RetryWait.fetch (visit (fun t => ⟨!decide (t < 13000), 10⟩) sendExchange retryReply)).2 = (n, .panic) := by
  obtain ⟨n, h, -⟩ := C155_gives_up (fun t => ⟨!decide (t < 13000), 10⟩) sendExchange retryReply 10 (fun _ => Nat.le_refl _) 0
    (List.mem_of_getElem? (C152_attempts _).2.1) (fun t _ h => by simp; omega)
  exact ⟨n, h⟩

example : ∃ n, (RetryWait.fetch (visit sendWorld (fun _ => ⟨true, false, 5⟩) retryReply)).2 = (n, .panic) :=
  C155_lost _ _ _ 0 (List.mem_of_getElem? (C152_attempts _).2.1) (.inr rfl)

end Abq.Props
