import Verif.Proof.ResultsLive

/-!
# Recording ends, and results are not put off for ever (C147)

As in `Props/Results.lean`, `run (init noop disk remote) acts` is any life of the results of a run: any reports, requests, offload
jobs and steps of the tasks in progress, in any order, with any failures of storage and connections.
-/

namespace Abq.Props
open Abq.Results Abq.Results.Spec Abq.ResultsLive

/-- C147: a request for the results of a run all whose runners are done is put off exactly when some recording that was begun is not
over. -/
theorem C147_put_off (noop : Bool) (disk : Bytes) (remote : Option Bytes) (acts : List Act) :
    let σ := run (init noop disk remote) acts
    (step σ .request).events =
      σ.events ++ [if ∀ id ∈ begun σ.events, id ∈ over σ.events then .asked (admitted σ.events).length else .pending] := by
  have hb := books_run (books_init noop disk remote) acts
  intro σ
  change Books σ at hb
  have hn : (begun σ.events).Nodup := by rw [hb.begun]; exact List.nodup_range
  have hd := (hb.recs.nodup_iff).mpr hn
  have : (∀ id ∈ begun σ.events, id ∈ over σ.events) ↔ σ.processing = 0 := by
    rw [hb.processing]
    constructor
    · intro h
      rw [List.length_eq_zero_iff]
      refine List.eq_nil_iff_forall_not_mem.mpr fun id hid => ?_
      have h1 := h id (hb.recs.mem_iff.mp (List.mem_append_right _ hid))
      exact (List.nodup_append.mp hd).2.2 id h1 id hid rfl
    · intro h id hid
      have := hb.recs.mem_iff.mpr hid
      rwa [List.length_eq_zero_iff.mp h, List.append_nil] at this
  simp only [this, step]
  have hl : (admitted σ.events).length = σ.nextRead := by rw [hb.admitted, List.length_range]
  split <;> simp [Res.add, hl]

/-- C147: whatever fails and whatever else the queue has to do, a recording that was begun is over in the end, and stays so. -/
theorem C147_recording_ends (noop : Bool) (disk : Bytes) (remote : Option Bytes) (acts : List Act) (f : Nat → Act) (id : Nat)
    (hbegun : id ∈ begun (run (init noop disk remote) acts).events)
    (hgo : GoesOn (run (init noop disk remote) acts) f (.recording id)) :
    ∃ N, ∀ n, N ≤ n → id ∈ over (run (init noop disk remote) (acts ++ first f n)).events := by
  have hb := books_run (books_init noop disk remote) acts
  obtain ⟨N, hN⟩ := ends (j := .recording id) hb hbegun hgo
  refine ⟨N, fun n hn => ?_⟩
  rw [ResultsLive.run_append]
  exact over_of_left (books_run hb _) (ResultsLive.known_run (j := .recording id) hbegun _) (hN n hn)

/-- C147: likewise a request that was not put off is dealt with in the end. -/
theorem C147_request_ends (noop : Bool) (disk : Bytes) (remote : Option Bytes) (acts : List Act) (f : Nat → Act) (r : Nat)
    (hasked : r ∈ admitted (run (init noop disk remote) acts).events)
    (hgo : GoesOn (run (init noop disk remote) acts) f (.request r)) :
    ∃ N, ∀ n, N ≤ n → r ∈ served (run (init noop disk remote) (acts ++ first f n)).events := by
  have hb := books_run (books_init noop disk remote) acts
  obtain ⟨N, hN⟩ := ends (j := .request r) hb hasked hgo
  refine ⟨N, fun n hn => ?_⟩
  rw [ResultsLive.run_append]
  exact served_of_left (books_run hb _) (ResultsLive.known_run (j := .request r) hasked _) (hN n hn)

/-- C147: once no more results come in for a run, there is a time from which on no request for its results is put off. -/
theorem C147_in_the_end (noop : Bool) (disk : Bytes) (remote : Option Bytes) (acts : List Act) (f : Nat → Act)
    (hnew : ∀ n, NothingNew (f n)) (hgo : ∀ id, GoesOn (run (init noop disk remote) acts) f (.recording id)) :
    ∃ N, ∀ n, N ≤ n →
      let σ := run (init noop disk remote) (acts ++ first f n)
      (step σ .request).events = σ.events ++ [.asked (admitted σ.events).length] := by
  have hall : ∀ l : List Nat, (∀ id ∈ l, id ∈ begun (run (init noop disk remote) acts).events) →
      ∃ N, ∀ n, N ≤ n → ∀ id ∈ l, id ∈ over (run (init noop disk remote) (acts ++ first f n)).events := by
    intro l
    induction l with
    | nil => exact fun _ => ⟨0, fun _ _ _ h => by simp at h⟩
    | cons x l ih =>
      intro h
      obtain ⟨N, hN⟩ := ih fun id hid => h id (by simp [hid])
      obtain ⟨M, hM⟩ := C147_recording_ends noop disk remote acts f x (h x (by simp)) (hgo x)
      refine ⟨max N M, fun n hn id hid => ?_⟩
      rcases List.mem_cons.mp hid with rfl | hid
      · exact hM n (by omega)
      · exact hN n (by omega) id hid
  obtain ⟨N, hN⟩ := hall _ fun _ h => h
  refine ⟨N, fun n hn => ?_⟩
  have := C147_put_off noop disk remote (acts ++ first f n)
  have hsame : begun (run (init noop disk remote) (acts ++ first f n)).events = begun (run (init noop disk remote) acts).events := by
    rw [ResultsLive.run_append]
    refine begun_run fun a ha => ?_
    obtain ⟨k, -, rfl⟩ := List.mem_map.mp ha
    exact hnew k
  dsimp only at this ⊢
  rw [this, if_pos]
  rw [hsame]
  exact hN n hn

/-- C147: a client that asks again and again, once no more results come in, is let in and then dealt with in the end: it does not poll for
ever. `r` is the number of its request. -/
theorem C147_polling (noop : Bool) (disk : Bytes) (remote : Option Bytes) (acts : List Act) (f : Nat → Act)
    (hnew : ∀ n, NothingNew (f n)) (hgo : ∀ j, GoesOn (run (init noop disk remote) acts) f j)
    (hask : ∀ n, ∃ m, n ≤ m ∧ f m = .request) :
    ∃ m r, f m = .request ∧ r ∉ admitted (run (init noop disk remote) (acts ++ first f m)).events ∧
      r ∈ admitted (run (init noop disk remote) (acts ++ first f (m + 1))).events ∧
      ∃ N, ∀ n, N ≤ n → r ∈ served (run (init noop disk remote) (acts ++ first f n)).events := by
  obtain ⟨N, hN⟩ := C147_in_the_end noop disk remote acts f hnew fun id => hgo (.recording id)
  obtain ⟨m, hm, hf⟩ := hask N
  have hb := books_run (books_init noop disk remote) (acts ++ first f m)
  have hs := hN m hm
  have hnext : run (init noop disk remote) (acts ++ first f (m + 1)) = step (run (init noop disk remote) (acts ++ first f m)) .request := by
    rw [ResultsLive.first_succ, ← List.append_assoc, ResultsLive.run_append, hf]
    rfl
  have hin : (admitted (run (init noop disk remote) (acts ++ first f m)).events).length ∈
      admitted (run (init noop disk remote) (acts ++ first f (m + 1))).events := by
    rw [hnext, hs, admitted_append]
    exact List.mem_append_right _ (by simp [admitted])
  refine ⟨m, _, hf, ?_, hin, ?_⟩
  · rw [hb.admitted]; simp
  · have hg := goesOn_later (hgo (.request (admitted (run (init noop disk remote) (acts ++ first f m)).events).length)) (m + 1)
    rw [← ResultsLive.run_append] at hg
    obtain ⟨M, hM⟩ := C147_request_ends noop disk remote (acts ++ first f (m + 1)) (fun i => f (m + 1 + i)) _ hin hg
    refine ⟨m + 1 + M, fun n hn => ?_⟩
    obtain ⟨d, rfl⟩ := Nat.exists_eq_add_of_le (Nat.le_trans (Nat.le_add_right _ M) hn)
    have := hM d (by omega)
    rw [List.append_assoc] at this
    rw [first_add]
    exact this

/-- C147: no recording ends twice and no request is dealt with twice, and none that there was not. -/
theorem C147_once (noop : Bool) (disk : Bytes) (remote : Option Bytes) (acts : List Act) :
    let evs := (run (init noop disk remote) acts).events
    (begun evs).Nodup ∧ (over evs).Nodup ∧ (∀ id ∈ over evs, id ∈ begun evs) ∧
    (admitted evs).Nodup ∧ (served evs).Nodup ∧ (∀ r ∈ served evs, r ∈ admitted evs) := by
  have hb := books_run (books_init noop disk remote) acts
  intro evs
  have h1 : (begun evs).Nodup := by rw [hb.begun]; exact List.nodup_range
  have h2 : (admitted evs).Nodup := by rw [hb.admitted]; exact List.nodup_range
  refine ⟨h1, (List.nodup_append.mp (hb.recs.nodup_iff.mpr h1)).1, fun id h => hb.recs.mem_iff.mp (List.mem_append_left _ h),
    h2, (List.nodup_append.mp (hb.reads.nodup_iff.mpr h2)).1, fun r h => hb.reads.mem_iff.mp (List.mem_append_left _ h)⟩

/-- C147: a scheduler that always lets the task go on that waits longest is one as the theorems ask for, whatever reports, requests and
offloads come in between, and whatever fails. -/
theorem C147_first_come (σ : Res) (f : Nat → Act) (h0 : ∀ n i out, f n = .resume i out → i = 0)
    (hgo : ∀ n, ∃ m, n ≤ m ∧ ∃ out, f m = .resume 0 out) (j : Job) : GoesOn σ f j := fifo h0 hgo j

/-- Two batches are being recorded, and nothing can be opened or sent. A request is put off. The schedule that lets the oldest task go on
and then has a client ask, for ever, is one as the theorems ask for; after a few steps of it both recordings are over, though they
failed, and a request is let in and dealt with. -/
example :
    let bad : Out := { openOk := false, io := .cut 0 }
    let acts : List Act := [.results [1] true, .results [2] true, .resume 0 bad, .request]
    let σ := run (init false [] none) acts
    let f : Nat → Act := fun n => if n % 2 = 0 then .resume 0 bad else .request
    (begun σ.events = [0, 1] ∧ over σ.events = [] ∧ Ev.pending ∈ σ.events) ∧
    (∀ n, NothingNew (f n)) ∧ (∀ j, GoesOn σ f j) ∧ (∀ n, ∃ m, n ≤ m ∧ f m = .request) ∧
    over (run σ (first f 18)).events = [0, 1] ∧ 0 ∈ admitted (run σ (first f 18)).events ∧ 0 ∈ served (run σ (first f 40)).events := by
  intro bad acts σ f
  refine ⟨by decide, ?_, ?_, fun n => ⟨2 * n + 1, by omega, ?_⟩, by decide, by decide, by decide⟩
  · intro n
    show NothingNew (if n % 2 = 0 then .resume 0 bad else .request)
    split <;> trivial
  · refine C147_first_come σ f ?_ fun n => ⟨2 * n, by omega, bad, ?_⟩
    · intro n i out h
      change (if n % 2 = 0 then Act.resume 0 bad else .request) = _ at h
      split at h
      · injection h with h1; exact h1.symm
      · cases h
    · show (if 2 * n % 2 = 0 then Act.resume 0 bad else .request) = _
      rw [if_pos (by omega)]
  · show (if (2 * n + 1) % 2 = 0 then Act.resume 0 bad else .request) = _
    rw [if_neg (by omega)]

end Abq.Props
