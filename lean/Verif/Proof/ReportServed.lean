import Verif.Spec.ReportServed
import Verif.Proof.ReportWait
import Verif.Proof.Progress
import Verif.Proof.Replay
/-! # Lemmas about when a report has the results of a run -/

namespace Abq.ResultsLive
open Abq.Results Abq.Results.Spec

/-- What a step adds to the observations of a file: that a request was put off only if there is a recording that is not over. -/
theorem step_pending (σ : Res) (hb : Books σ) (a : Results.Act) :
    ∃ new, (step σ a).events = σ.events ++ new ∧
      (.pending ∈ new → new = [.pending] ∧ ¬ ∀ id ∈ begun σ.events, id ∈ over σ.events) := by
  have add : ∀ (τ : Res) evs ts, τ.events = σ.events → (τ.add evs ts).events = σ.events ++ evs := by
    intro τ evs ts h; simp [Res.add, h]
  cases a with
  | results line e => exact ⟨_, add _ _ _ rfl, by simp⟩
  | summary line e => exact ⟨_, add _ _ _ rfl, by simp⟩
  | request =>
    simp only [step]
    split
    · exact ⟨_, add _ _ _ rfl, by simp⟩
    · rename_i hp
      refine ⟨_, add _ _ _ rfl, fun _ => ⟨rfl, fun hall => hp ?_⟩⟩
      rw [hb.processing, List.length_eq_zero_iff]
      refine List.eq_nil_iff_forall_not_mem.mpr fun id hid => ?_
      have hn : (begun σ.events).Nodup := by rw [hb.begun]; exact List.nodup_range
      have hd := (hb.recs.nodup_iff).mpr hn
      have hk := hall id (hb.recs.mem_iff.mp (List.mem_append_right _ hid))
      exact (List.nodup_append.mp hd).2.2 id hk id hid rfl
  | offload c now accessed o =>
    simp only [step, offload]
    split
    · cases o <;> exact ⟨_, add _ _ _ rfl, by simp⟩
    · exact ⟨_, add _ _ _ rfl, by simp⟩
  | resume i out =>
    simp only [step]
    split
    · exact ⟨[], by simp, by simp⟩
    rename_i t ht
    have hop : ∀ (b : Bool) (x : Bytes) (r : Option Bytes) (o : Op), (runOp b x r out.io o).2.2 ≠ .pending := by
      intro b x r o
      cases o <;> simp only [runOp] <;> split <;> simp
    have hfail : ∀ o, failed o ≠ .pending := by intro o; cases o <;> simp [failed]
    have hfast : ∀ {υ τ : Res} {o : Op} {ev : Ev}, fastPath υ o out = some (τ, ev) → ev ≠ .pending := by
      intro υ τ o ev h
      unfold fastPath at h
      split at h
      · cases h
      · simp only [Option.some.injEq, Prod.mk.injEq] at h
        rw [← h.2]; exact hop _ _ _ _
      · dsimp only at h
        split at h <;> simp only [Option.some.injEq, Prod.mk.injEq] at h
        · rw [← h.2]; exact hop _ _ _ _
        · rw [← h.2]; exact hfail _
    cases t with
    | ack id line e => simp only [stepTask]; split <;> exact ⟨_, add _ _ _ rfl, by simp⟩
    | finish id e => exact ⟨_, add _ _ _ rfl, by simp⟩
    | op o e st =>
      cases st with
      | fast =>
        simp only [stepTask]
        split
        · rename_i h
          exact ⟨_, add _ _ _ (fastPath_frame h).1, fun hm => (hfast h (List.mem_singleton.1 hm).symm).elim⟩
        · exact ⟨_, add _ _ _ rfl, by simp⟩
      | slow =>
        generalize hσ : ({ σ with tasks := σ.tasks.eraseIdx i } : Res) = τ
        have he : τ.events = σ.events := by rw [← hσ]
        simp only [stepTask]
        cases hfd : τ.fd with
        | some f =>
          have e : slowPath τ out = (τ, true) := by simp only [slowPath, hfd]
          rw [e]
          exact ⟨[], by simp [Res.add, he], by simp⟩
        | none =>
          by_cases ho : out.openOk = true
          · refine ⟨[.opened (load τ.remote τ.disk out.load).2], ?_, by simp⟩
            simp [slowPath, hfd, ho, Res.add, he]
          · refine ⟨[failed o], ?_, fun hm => (hfail _ (List.mem_singleton.1 hm).symm).elim⟩
            simp [slowPath, hfd, ho, Res.add, he]
      | second =>
        simp only [stepTask]
        split
        · rename_i h
          exact ⟨_, add _ _ _ (fastPath_frame h).1, fun hm => (hfast h (List.mem_singleton.1 hm).symm).elim⟩
        · exact ⟨_, add _ _ _ rfl, fun hm => (hfail _ (List.mem_singleton.1 hm).symm).elim⟩

/-- A request is put off only while there is a recording that is not over. -/
theorem pending_not_over (noop : Bool) (disk : Bytes) (remote : Option Bytes) (acts : List Results.Act) (x y : List Ev)
    (h : (run (init noop disk remote) acts).events = x ++ .pending :: y) : ¬ ∀ id ∈ begun x, id ∈ over x := by
  induction acts using Replay.snoc_induction generalizing x y with
  | h0 => simp [run, init] at h
  | hs acts a ih =>
    rw [run_append] at h
    have hb := books_run (books_init noop disk remote) acts
    obtain ⟨new, h1, h2⟩ := step_pending _ hb a
    rw [show run (run (init noop disk remote) acts) [a] = step (run (init noop disk remote) acts) a from rfl, h1] at h
    rcases List.append_eq_append_iff.1 h with ⟨z, e1, e2⟩ | ⟨z, e1, e2⟩
    · have hm : Ev.pending ∈ new := by rw [e2]; simp
      obtain ⟨e3, h3⟩ := h2 hm
      rw [e3] at e2
      cases z with
      | nil => rw [List.append_nil] at e1; rw [e1]; exact h3
      | cons w z =>
        rw [List.cons_append, List.cons.injEq] at e2
        cases z <;> simp at e2
    · cases z with
      | nil =>
        have hm : Ev.pending ∈ new := by rw [List.nil_append] at e2; rw [← e2]; simp
        rw [List.append_nil] at e1
        rw [← e1]
        exact (h2 hm).2
      | cons w z =>
        rw [List.cons_append, List.cons.injEq] at e2
        exact ih x z (by rw [e1, ← e2.1])

end Abq.ResultsLive
