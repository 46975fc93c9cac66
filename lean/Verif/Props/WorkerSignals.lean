import Verif.Proof.WorkerSignals

/-!
# C107: a worker that is told to terminate does, and cancels the run
-/

namespace Abq.Props
open Abq.WorkerSignals

/-- **C107**: a worker tells its runners to shut down, or the queue to cancel the run, only if it was told to terminate. -/
theorem C107_cancels_only_if_told (as : List WorkerSignals.Act) (r : RunnerStart.Run) (hr : r ∈ (Worker.run {} as).runners)
    (h : wasTold r ∨ toldQueue r) : .signal ∈ as := by
  have inv := winv_run as
  have ht : wasTold r := h.elim id (told_of_queue (inv.runners r hr))
  have hat := inv.at_
  revert hat
  cases (Worker.run {} as).phase <;> simp only [At] <;> intro hat
  · rw [hat.1] at hr; cases hr
  · exact absurd ht (hat.2.1 r hr)
  · exact absurd ht (hat.1 r hr)
  · exact hat.1
  · exact hat.2.2.elim (fun x => absurd ht (x.2 r hr)) (·.2)
  · exact hat.elim (fun x => absurd ht (x r hr)) id

/-- **C107**: a process that has exited waited for each of its runners, and none panicked. Either none was told to shut down,
and the process exited with the status of the run; or the process was told to terminate, exited with 1, and each runner either
ended by itself or told the queue to cancel the run. -/
theorem C107_exits (as : List WorkerSignals.Act) (c : Int) (h : (Worker.run {} as).phase = .exited c) :
    (∀ r ∈ (Worker.run {} as).runners, ∃ o, o ≠ .panic ∧ r.ended o) ∧
    ((.finish c ∈ as ∧ ∀ r ∈ (Worker.run {} as).runners, ¬ wasTold r) ∨
     (c = 1 ∧ .signal ∈ as ∧ ∀ r ∈ (Worker.run {} as).runners, wasTold r → toldQueue r ∧ r.ended (.exit 1))) := by
  have inv := winv_run as
  have hat := inv.at_
  rw [h] at hat
  have key : ∀ r ∈ (Worker.run {} as).runners, ∃ o, o ≠ .panic ∧ r.ended o ∧ (wasTold r → o = .exit 1 ∧ toldQueue r) := by
    intro r hr
    exact ended_told (inv.runners r hr) (List.all_eq_true.mp hat.1 r hr) (by simpa using List.any_eq_false.mp hat.2.1 r hr)
  refine ⟨fun r hr => ?_, ?_⟩
  · obtain ⟨o, h1, h2, _⟩ := key r hr
    exact ⟨o, h1, h2⟩
  · rcases hat.2.2 with h | h
    · exact .inl ⟨h.1, h.2⟩
    · refine .inr ⟨h.1, h.2, fun r hr ht => ?_⟩
      obtain ⟨o, _, h2, h3⟩ := key r hr
      obtain ⟨rfl, h4⟩ := h3 ht
      exact ⟨h4, h2⟩

/-- **C107** (partial): a process that is told to terminate before or while it runs tests can stop, wherever its runners are:
it notices; each runner that has not ended notices and tells the queue to cancel the run, which it has to reach within five
attempts; and the process exits with 1. Missing: a runner that has panicked takes the process with it; see
`C107_full_statement_fails`. -/
theorem C107_stops_partial (as : List WorkerSignals.Act) (hrun : (Worker.run {} as).phase = .running) (hs : .signal ∈ as)
    (hp : ∀ r ∈ (Worker.run {} as).runners, ¬ r.ended .panic) (ns : List Nat)
    (hlen : ns.length = (Worker.run {} as).runners.length) (hns : ∀ n ∈ ns, n < 5) (code : Int) :
    let w := Worker.run {} (as ++ .caught :: allShutDown 0 ns ++ [.finish code])
    w.phase = .exited 1 ∧
    ∀ (i : Nat) (r : RunnerStart.Run), (Worker.run {} as).runners[i]? = some r → (¬ ∃ o, r.ended o) →
      ∃ r', w.runners[i]? = some r' ∧ toldQueue r' := by
  have inv := winv_run as
  generalize hw : Worker.run {} as = w at *
  intro v
  have hat := inv.at_
  rw [hrun] at hat
  have hpend : 0 < w.pending := hat.2.2 hs
  have hone : ∀ r ∈ w.runners, ∀ n ∈ ns, hasEnded (r.run (sched n)) = true ∧ hasPanicked (r.run (sched n)) = false ∧
      ((¬ ∃ o, r.ended o) → toldQueue (r.run (sched n))) := by
    intro r hr n hn
    rcases live_or_ended (inv.runners r hr) (hat.2.1 r hr) with h | h
    · obtain ⟨h1, h2⟩ := shutdown_one n (hns n hn) r h
      exact ⟨by simp [hasEnded, h1], by simp [hasPanicked, h1], fun _ => h2⟩
    · rw [ended_run h]
      have hnp := hp r hr
      refine ⟨h, ?_, fun hne => absurd ?_ hne⟩
      · unfold RunnerStart.Run.ended at hnp
        unfold hasPanicked
        split
        · rename_i e; exact absurd e hnp
        · rfl
      · unfold hasEnded at h
        unfold RunnerStart.Run.ended
        split at h
        · rename_i o e; exact ⟨o, e⟩
        · cases h
  have hv : v = (Worker.mk .cancelling (w.pending - 1)
      (List.zipWith (fun r n => r.run (sched n)) w.runners ns) true).step (.finish code) := by
    show Worker.run {} (as ++ .caught :: allShutDown 0 ns ++ [.finish code]) = _
    rw [List.append_assoc, run_append, hw]
    show (Worker.run (w.step .caught) (allShutDown 0 ns ++ [.finish code])) = _
    have : w.step .caught = Worker.mk .cancelling (w.pending - 1) ([] ++ w.runners) true := by
      simp [Worker.step, hrun, hpend]
    rw [this, run_append, show (0 : Nat) = ([] : List RunnerStart.Run).length from rfl, all_go _ _ _ _ hlen.symm]
    rfl
  have hmem : ∀ r' ∈ List.zipWith (fun r n => r.run (sched n)) w.runners ns, ∃ r ∈ w.runners, ∃ n ∈ ns, r' = r.run (sched n) := by
    intro r' hr'
    obtain ⟨i, hi, e⟩ := List.mem_iff_getElem.mp hr'
    rw [List.getElem_zipWith] at e
    exact ⟨_, List.getElem_mem _, _, List.getElem_mem _, e.symm⟩
  have hall : (List.zipWith (fun r n => r.run (sched n)) w.runners ns).all hasEnded = true := by
    rw [List.all_eq_true]
    intro r' hr'
    obtain ⟨r, hr, n, hn, rfl⟩ := hmem r' hr'
    exact (hone r hr n hn).1
  have hany : (List.zipWith (fun r n => r.run (sched n)) w.runners ns).any hasPanicked = false := by
    rw [List.any_eq_false]
    intro r' hr'
    obtain ⟨r, hr, n, hn, rfl⟩ := hmem r' hr'
    simp [(hone r hr n hn).2.1]
  have hv' : v = Worker.mk (.exited 1) (w.pending - 1) (List.zipWith (fun r n => r.run (sched n)) w.runners ns) true := by
    rw [hv]
    simp [Worker.step, hall, hany, cancelledExit]
  rw [hv']
  refine ⟨rfl, fun i r hi hne => ?_⟩
  obtain ⟨hlt, e⟩ := List.getElem?_eq_some_iff.mp hi
  have hlt' : i < ns.length := by omega
  refine ⟨r.run (sched ns[i]), ?_, (hone r (e ▸ List.getElem_mem hlt) _ (List.getElem_mem hlt')).2.2 hne⟩
  rw [List.getElem?_eq_getElem (by simp [List.length_zipWith]; omega), List.getElem_zipWith, e]

/-- **C107**: once it has a pool, a process comes to an end by itself: whatever happens, it awaits at most 29 things per runner
and 2 more. -/
theorem C107_bounded (as bs : List WorkerSignals.Act) (h : (Worker.run {} as).phase ≠ .negotiating) :
    WorkerSignals.changes (Worker.run {} as) bs ≤ 29 * (Worker.run {} as).runners.length + 2 :=
  Nat.le_trans (WorkerSignals.changes_rank bs _ h) (rank_le _ h)

/-- **C107**: while it is being cancelled, a process waits only for its runners to notice and for the queue to acknowledge, and
for nothing else: as long as it has not ended, one of these steps, or the last one, can be taken. -/
theorem C107_waits_only_for_queue (as : List WorkerSignals.Act) (h : (Worker.run {} as).phase = .cancelling) :
    ∃ a, (Worker.run {} as).step a ≠ Worker.run {} as ∧
      ((∃ i, a = .notice i) ∨ (∃ i m c k r, a = .runner i .ok ∧ (Worker.run {} as).runners[i]? = some r ∧
        r.stage = .telling m c k) ∨ a = .finish 0) := by
  have inv := winv_run as
  generalize Worker.run {} as = w at *
  have hat := inv.at_
  rw [h] at hat
  by_cases he : w.runners.all hasEnded = true
  · refine ⟨.finish 0, ?_, .inr (.inr rfl)⟩
    intro e
    have := congrArg Worker.phase e
    simp only [Worker.step, h, he, if_true] at this
    split at this <;> cases this
  · simp only [List.all_eq_true, Classical.not_forall] at he
    obtain ⟨r, hr, hne⟩ := he
    obtain ⟨i, hi, hri⟩ := List.mem_iff_getElem.mp hr
    have hget : ∀ b, (w.runners.modify i (·.step b)) = w.runners → r.step b = r := by
      intro b e
      have h1 : (w.runners.modify i (·.step b))[i]'(by simpa using hi) = r.step b := by
        rw [List.getElem_modify]; simp [hri]
      have h2 : (w.runners.modify i (·.step b))[i]'(by simpa using hi) = r := by
        simp only [e, hri]
      exact h1.symm.trans h2
    by_cases hl : r.stage.live = true
    · refine ⟨.notice i, ?_, .inl ⟨i, rfl⟩⟩
      intro e
      have e1 := congrArg Worker.runners e
      simp only [Worker.step, h, hat.2, if_true] at e1
      have := congrArg RunnerStart.Run.stage (hget _ e1)
      rw [show r.step .shutdown = r.to (.telling .cancel (.connecting 1) .cancelled) [.shutdown] by
        simp [RunnerStart.Run.step, hl]] at this
      rw [← this] at hl
      cases hl
    · have hst : ∃ m c, r.stage = .telling m c .cancelled := by
        revert hl hne
        unfold hasEnded
        generalize r.stage = s
        cases s with
        | telling m c k => cases k <;> simp [RunnerStart.Stage.live]
        | _ => simp [RunnerStart.Stage.live]
      obtain ⟨m, c, hst⟩ := hst
      refine ⟨.runner i .ok, ?_, .inr (.inl ⟨i, m, c, .cancelled, r, rfl, ?_, hst⟩)⟩
      · intro e
        have e1 := congrArg Worker.runners e
        simp only [Worker.step, h] at e1
        have e2 := congrArg RunnerStart.Run.stage (hget _ e1)
        obtain ⟨x, s, evs⟩ := r
        simp only at hst
        subst hst
        cases c <;> cases e2
      · rw [List.getElem?_eq_getElem hi, hri]

/-- What a process does when it is told to terminate again, or while it finishes: nothing. -/
theorem C107_further_signals (as bs : List WorkerSignals.Act)
    (h : (Worker.run {} as).phase = .cancelling ∨ (Worker.run {} as).phase = .finishing) :
    (Worker.run {} (as ++ bs)).phase = (Worker.run {} (as ++ bs.filter (· ≠ .signal))).phase ∧
    (Worker.run {} (as ++ bs)).runners = (Worker.run {} (as ++ bs.filter (· ≠ .signal))).runners := by
  rw [run_append, run_append]
  generalize Worker.run {} as = w at *
  have hn : w.phase ≠ .negotiating ∧ w.phase ≠ .running := by rcases h with h | h <;> rw [h] <;> simp
  clear h
  suffices ∀ (bs : List WorkerSignals.Act) (w v : Worker), w.phase ≠ .negotiating ∧ w.phase ≠ .running → w.phase = v.phase →
      w.runners = v.runners → w.told = v.told →
      (w.run bs).phase = (v.run (bs.filter (· ≠ .signal))).phase ∧
      (w.run bs).runners = (v.run (bs.filter (· ≠ .signal))).runners from this bs w w hn rfl rfl rfl
  intro bs
  induction bs with
  | nil => intro w v _ h1 h2 _; exact ⟨h1, h2⟩
  | cons b bs ih =>
    rintro ⟨p, pe, rs, t⟩ ⟨p', pe', rs', t'⟩ hn h1 h2 h3
    simp only at h1 h2 h3 hn
    subst h1 h2 h3
    by_cases hb : b = .signal
    · subst hb
      rw [show (WorkerSignals.Act.signal :: bs).filter (· ≠ .signal) = bs.filter (· ≠ .signal) by simp]
      exact ih _ _ hn rfl rfl rfl
    · rw [show (b :: bs).filter (· ≠ .signal) = b :: bs.filter (· ≠ .signal) by simp [hb]]
      have key : ∀ pe, ((Worker.mk p pe rs t).step b).phase = ((Worker.mk p pe' rs t).step b).phase ∧
          ((Worker.mk p pe rs t).step b).runners = ((Worker.mk p pe' rs t).step b).runners ∧
          ((Worker.mk p pe rs t).step b).told = ((Worker.mk p pe' rs t).step b).told ∧
          (((Worker.mk p pe rs t).step b).phase ≠ .negotiating ∧ ((Worker.mk p pe rs t).step b).phase ≠ .running) := by
        intro pe
        cases b with
        | signal => exact absurd rfl hb
        | runner i b =>
          cases p <;> cases b <;> first | exact absurd rfl hn.1 | exact absurd rfl hn.2 | exact ⟨rfl, rfl, rfl, hn⟩
        | notice i =>
          cases p <;> cases t <;> first | exact absurd rfl hn.1 | exact absurd rfl hn.2 | exact ⟨rfl, rfl, rfl, hn⟩
        | finish c =>
          cases p <;> first | exact absurd rfl hn.1 | exact absurd rfl hn.2 | exact ⟨rfl, rfl, rfl, hn⟩ | skip
          all_goals
            simp only [Worker.step]
            split
            · split <;> exact ⟨rfl, rfl, rfl, by simp⟩
            · exact ⟨rfl, rfl, rfl, by simp⟩
        | _ => cases p <;> first | exact absurd rfl hn.1 | exact absurd rfl hn.2 | exact ⟨rfl, rfl, rfl, hn⟩
      obtain ⟨k1, k2, k3, k4⟩ := key pe
      exact ih _ _ k4 k1 k2 k3

/-- Two runners, the first of which is asked for the manifest. It is retrieving it when the process is told to terminate; the
second is waiting for its tests. -/
def pooled : List WorkerSignals.Act :=
  [.negotiated 2 true, .runner 0 .ok, .runner 1 .ok, .signal]

example :
    let w := Worker.run {} (pooled ++ .caught :: allShutDown 0 [4, 0] ++ [.finish 0])
    w.phase = .exited 1 ∧ ∀ r ∈ w.runners, toldQueue r := by
  unfold toldQueue; decide

/-- The hypotheses of `C107_stops_partial` are met. -/
example : (Worker.run {} pooled).phase = .running ∧ .signal ∈ pooled ∧ ∀ r ∈ (Worker.run {} pooled).runners, ¬ r.ended .panic := by
  unfold RunnerStart.Run.ended; decide

/-- A runner whose tests have run to their end: what it does after it was started. -/
def ranThrough : List WorkerSignals.Act :=
  [.negotiated 1 false, .runner 0 .ok, .runner 0 .ok, .runner 0 .ok, .runner 0 (.exits 0), .runner 0 .ok, .runner 0 .ok,
   .runner 0 .ok, .runner 0 .ok]

/-- **C107**: the full statement, that a process that is told to terminate exits with 1 and that the queue learns of it, fails.
While the process negotiates with the queue, it does not react, however often it is told; once it finishes, it exits with the
status of the run; and if the queue cannot be reached, it panics. -/
theorem C107_full_statement_fails :
    (∀ as : List WorkerSignals.Act, (∀ n b, .negotiated n b ∉ as) → .failed ∉ as →
      (Worker.run {} as).phase = .negotiating) ∧
    (Worker.run {} (ranThrough ++ [.done, .signal, .caught, .finish 0])).phase = .exited 0 ∧
    (Worker.run {} (ranThrough ++ [.signal, .done, .caught, .finish 0])).phase = .exited 0 ∧
    (let w := Worker.run {} (pooled ++ [.caught, .notice 0, .notice 1] ++ List.replicate 5 (.runner 0 .fail) ++
        List.replicate 5 (.runner 1 .fail) ++ [.finish 0])
     w.phase = .panicked ∧ ∀ r ∈ w.runners, ¬ toldQueue r) := by
  refine ⟨?_, by decide, by decide, by unfold toldQueue; decide⟩
  intro as h1 h2
  suffices ∀ w : Worker, w.phase = .negotiating → (w.run as).phase = .negotiating from this {} rfl
  induction as with
  | nil => intro w h; exact h
  | cons a as ih =>
    rintro ⟨p, pe, rs, t⟩ h
    simp only at h
    subst h
    refine ih (fun n b h => h1 n b (List.mem_cons_of_mem _ h)) (fun h => h2 (List.mem_cons_of_mem _ h)) _ ?_
    cases a with
    | negotiated n b => exact absurd (List.mem_cons_self ..) (h1 n b)
    | failed => exact absurd (List.mem_cons_self ..) h2
    | runner i b => cases b <;> rfl
    | notice i => cases t <;> rfl
    | _ => rfl

/-- A worker that is not told to terminate. -/
example : (Worker.run {} (ranThrough ++ [.done, .finish 0])).phase = .exited 0 ∧
    (Worker.run {} (ranThrough ++ [.signal, .caught, .finish 0])).phase = .exited 1 := by decide

end Abq.Props
