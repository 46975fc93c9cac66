import Verif.Proof.RunnerEnd
import Verif.Props.Pipeline

/-!
# How a runner ends (C73, C74, C75)

For every script of the sources, every bound on attempts, every batch size, all results the native runner may yield, its
failing or timing out on any test, failures to restart it, and every interleaving of the three tasks.
-/

namespace Abq.Props
open Abq.Retries Abq.Fetch Abq.Fetch.Spec Abq.Pipe Abq.RunnerEnd

/-! ## C73: the native runner cannot be restarted -/

/-- **C73** (in part): without retries the native runner is never restarted in the course of a run, so this cannot fail.

Missing: with retries a failed restart neither ends the runner nor is announced, see below. -/
theorem C73_no_retries_partial (sources : List (List Resp)) (wf : WellFormed sources) (batchSize : Nat)
    (as : List RunnerEnd.Act) : ((RunnerEnd.init sources 1 batchSize).run as).failed = false := by
  have key : ∀ (as : List RunnerEnd.Act) (l : Life), l.failed = false → l.attempt = 1 → PI 1 sources l.pipe →
      (l.run as).failed = false := by
    intro as
    induction as with
    | nil => intro l h _ _; exact h
    | cons a as ih =>
      intro l hf ha hpi
      have hone : ∀ w, l.pipe.runner = .running w → w.runNumber = 1 := by
        intro w hw
        have hp := (received_prefix hpi.buf).map key
        rw [← hpi.flow, ← given_eq hpi.link, hw] at hp
        have hmem : Fetch.key w ∈ l.pipe.sys.given.map Fetch.key := hp.subset (by simp [inflight])
        obtain ⟨_, f, r, i⟩ := hpi.sys
        rw [i.given] at hmem
        obtain ⟨v, hv, he⟩ := List.mem_map.mp hmem
        have hrun : w.runNumber = v.runNumber := (Prod.mk.inj he).2.symm
        rcases List.mem_append.mp hv with hv | hv
        · rw [hrun]; exact (wf.first v (i.pre.subset hv)).1
        · have := i.numbers v hv
          omega
      have hno : (l.step a).failed = false := by
        cases a with
        | pipe a => exact hf
        | restartFails =>
          simp only [Life.step]
          split
          · rename_i w hw
            rw [if_neg (by rw [hone w hw, ha]; simp)]
            exact hf
          · exact hf
        | notify => simp only [Life.step]; repeat' split
                    all_goals exact hf
      refine ih _ hno ?_ (pi_life_step wf (fun _ => hpi) a hno)
      cases a with
      | pipe a =>
        show l.reconciled a = 1
        unfold Life.reconciled
        repeat' split
        all_goals first | exact ha | (rename_i w hw; exact hone w hw)
      | restartFails => simp only [Life.step]; repeat' split
                        all_goals exact ha
      | notify => simp only [Life.step]; repeat' split
                  all_goals exact ha
  exact key as _ rfl rfl (pi_init 1 (by omega) sources wf batchSize)

/-- **C73 fails**: after a restart failed the queue is never told that the runner is through, whatever happens then. -/
theorem C73_never_told (sources : List (List Resp)) (mx batchSize : Nat) (as bs : List RunnerEnd.Act) :
    let l := (RunnerEnd.init sources mx batchSize).run as
    l.failed = true → (l.run bs).notified = false := by
  intro l hf
  have hmono : ∀ (bs : List RunnerEnd.Act) (l : Life), l.failed = true → (l.run bs).failed = true := by
    intro bs
    induction bs with
    | nil => intro l h; exact h
    | cons b bs ih =>
      intro l h
      refine ih _ ?_
      cases b with
      | pipe a => exact h
      | restartFails => simp only [Life.step]; repeat' split
                        all_goals first | exact h | rfl
      | notify => simp only [Life.step]; repeat' split
                  all_goals exact h
  have ht : Told (l.run bs) := told_run (told_run (told_init sources mx batchSize) as) bs
  exact (ht.failed (hmono bs l hf)).2

/-- One test that fails; it is to be run again, and the native runner cannot be restarted. -/
def restartActs : List RunnerEnd.Act :=
  ([.fetch, .produce, .consume, .produce, .consume, .consume, .result [⟨7, true⟩], .send, .produce, .consume, .send, .take,
    .take, .produce, .fetch, .produce, .consume, .produce, .consume, .consume, .produce, .produce].map Act.pipe) ++
  [.restartFails, .pipe .take]

/-- Where this leads to. -/
def restartEnd : Life :=
  { pipe :=
      { sys :=
          { fetcher := ⟨[], ⟨[⟨⟨1, 1, some [7]⟩, .alwaysFailedOn 1⟩], 3, 2, .hydrated 1 false⟩⟩
            delivered := [⟨[⟨⟨1, 1, none⟩, 1⟩], false⟩, ⟨[⟨⟨1, 1, some [7]⟩, 2⟩], false⟩]
            log := [⟨1, 1, [⟨7, true⟩]⟩], stopped := false, failed := false, panicked := false }
        buf :=
          { cap := 2, chan := [], refill := 0, prod := .fetching, cons := .gone, eligible := false, size := 1
            processed := 1, panicked := false, fetched := [[⟨⟨1, 1, none⟩, 1⟩], [⟨⟨1, 1, some [7]⟩, 2⟩]]
            received := [.item ⟨⟨1, 1, none⟩, 1⟩, .flushProcessed, .item ⟨⟨1, 1, some [7]⟩, 2⟩] }
        runner := .closed true, chan := [], chanCap := 2
        out := { batchSize := 1, buffer := [], sent := [[⟨1, 1, [⟨7, true⟩]⟩]] }, ended := true }
    attempt := 1, failed := true, notified := false }

set_option maxRecDepth 20000 in
theorem restart_end : (RunnerEnd.init pipeOne 3 1).run restartActs = restartEnd := by decide

theorem restart_stuck (a : RunnerEnd.Act) : restartEnd.step a = restartEnd := by
  cases a with
  | pipe a =>
    cases a with
    | result rs => rfl
    | fetch => decide
    | produce => decide
    | consume => decide
    | crash => decide
    | timeout => decide
    | send => decide
    | take => decide
  | restartFails => decide
  | notify => decide

/-- **C73 fails in full**: the native runner cannot be restarted for a retry, and then the runner does not end, whatever the
schedule: `run_tests_task` returned, but fetching waits for the result of the test that was not run. The test that was given is
not reported, and the queue is not told. -/
theorem C73_full_statement_fails :
    ∃ (sources : List (List Resp)) (mx batchSize : Nat) (as : List RunnerEnd.Act), WellFormed sources ∧ 0 < batchSize ∧
      let l := (RunnerEnd.init sources mx batchSize).run as
      l.failed = true ∧
      ∀ bs, (l.run bs).finished = false ∧ (l.run bs).notified = false ∧
        (l.run bs).pipe.given.map keyOfTest = [(1, 1), (1, 2)] ∧ (l.run bs).pipe.reported.map keyOf = [(1, 1)] := by
  refine ⟨pipeOne, 3, 1, restartActs, pipeOne_wellFormed, by decide, ?_⟩
  rw [restart_end]
  refine ⟨rfl, ?_⟩
  intro bs
  have hall : restartEnd.run bs = restartEnd := by
    induction bs with
    | nil => rfl
    | cons b bs ih => rw [run_cons, restart_stuck]; exact ih
  rw [hall]
  refine ⟨by decide, by decide, by decide, by decide⟩

/-! ## C74: the queue is told that all tests were run -/

/-- **C74** (in part): when the queue is told that all tests were run, no more tests will be given, and each test given has
its result for each attempt it was given for, reported or on the way; when the runner has ended they are all reported.

Missing: at the time the queue is told, not all results need to have been reported; see `C74_full_statement_fails`. -/
theorem C74_all_run_partial (mx : Nat) (hmx : 1 ≤ mx) (sources : List (List Resp)) (wf : WellFormed sources)
    (batchSize : Nat) (as : List RunnerEnd.Act) :
    let l := (RunnerEnd.init sources mx batchSize).run as
    l.notified = true →
      (l.pipe.reported ++ l.pipe.underway).map keyOf = l.pipe.given.map keyOfTest ∧
      (∀ bs, (l.run bs).pipe.given = l.pipe.given) ∧
      (l.finished = true → l.pipe.reported.map keyOf = l.pipe.given.map keyOfTest) := by
  intro l hn
  have ht : Told l := told_run (told_init sources mx batchSize) as
  have hf : l.failed = false := by
    cases h : l.failed with
    | false => rfl
    | true => have := (ht.failed h).2; rw [hn] at this; cases this
  have hpi : PI mx sources l.pipe := pi_life hmx wf batchSize as hf
  obtain ⟨f, hr⟩ := ht.notified hn
  obtain ⟨hflow, hdone⟩ := closed_flow hpi f hr
  refine ⟨?_, ?_, ?_⟩
  · rw [List.append_assoc] at hflow
    exact hflow
  · have key : ∀ (bs : List RunnerEnd.Act) (m : Life), m.pipe.runner = .closed f → m.pipe.buf.prod = .done →
        (m.run bs).pipe.given = m.pipe.given := by
      intro bs
      induction bs with
      | nil => intro m _ _; rfl
      | cons b bs ih =>
        intro m hr hd
        rw [run_cons]
        have hsame : ∀ (s : Fetch.Sys) (bs : List (List Results)),
            (bs.foldl (fun s rs => Fetch.step s (.account rs)) s).given = s.given := by
          intro s bs
          induction bs generalizing s with
          | nil => rfl
          | cons x xs ih =>
            rw [List.foldl_cons, ih]
            simp only [Fetch.step]
            repeat' split
            all_goals rfl
        have hstep : (m.step b).pipe.runner = .closed f ∧ (m.step b).pipe.buf.prod = .done ∧
            (m.step b).pipe.given = m.pipe.given := by
          cases b with
          | pipe a =>
            refine ⟨closed_step _ a f hr, ?_, ?_⟩
            · cases a <;> simp only [Life.step, Pipe.step, Pipe.fetch, Pipe.consume, Pipe.result, Pipe.crash, Pipe.timeout, Pipe.send, hr,
                hd, MsgBuf.Buf.produce]
              simp only [Pipe.take]
              repeat' split
              all_goals exact hd
            · cases a <;> simp only [Life.step, Pipe.step, Pipe.fetch, Pipe.consume, Pipe.result, Pipe.crash, Pipe.timeout, Pipe.send, hr,
                hd, Pipe.given]
              simp only [Pipe.take]
              repeat' split
              all_goals first | rfl | (simp only [Pipe.handle]; exact hsame _ _)
          | restartFails => simp only [Life.step, hr]; simp [hd]
          | notify => simp only [Life.step, hr]; split <;> exact ⟨hr, hd, rfl⟩
        rw [ih _ hstep.1 hstep.2.1, hstep.2.2]
    exact fun bs => key bs l hr hdone
  · intro hfin
    simp only [Life.finished, Bool.and_eq_true] at hfin
    exact finished_flow hpi hfin.1

/-- What is on the way is bounded, at any time. -/
structure Narrow (b : Nat) (p : Pipe) : Prop where
  cap : p.chanCap = 2 * b
  chan : p.chan.length ≤ 2 * b
  size : p.out.batchSize = b
  buffer : p.out.buffer.length ≤ b - 1

theorem narrow_step {b : Nat} {p : Pipe} (h : Narrow b p) (a : Pipe.Act) : Narrow b (Pipe.step p a) := by
  obtain ⟨h1, h2, h3, h4⟩ := h
  cases a with
  | fetch =>
    simp only [Pipe.step, Pipe.fetch]
    repeat' split
    all_goals exact ⟨h1, h2, h3, h4⟩
  | produce => exact ⟨h1, h2, h3, h4⟩
  | consume =>
    simp only [Pipe.step, Pipe.consume]
    repeat' split
    all_goals exact ⟨h1, h2, h3, h4⟩
  | result rs =>
    simp only [Pipe.step, Pipe.result]
    split <;> exact ⟨h1, h2, h3, h4⟩
  | crash =>
    simp only [Pipe.step, Pipe.crash]
    split <;> exact ⟨h1, h2, h3, h4⟩
  | timeout =>
    simp only [Pipe.step, Pipe.timeout]
    split <;> exact ⟨h1, h2, h3, h4⟩
  | send =>
    simp only [Pipe.step, Pipe.send]
    repeat' split
    all_goals first
      | exact ⟨h1, h2, h3, h4⟩
      | exact ⟨h1, by simp only [List.length_append, List.length_cons, List.length_nil]; omega, h3, h4⟩
  | take =>
    simp only [Pipe.step, Pipe.take]
    split
    · next r ms hc =>
      rw [hc, List.length_cons] at h2
      refine ⟨h1, by show ms.length ≤ 2 * b; omega, ?_, ?_⟩
      · show (p.out.push r).batchSize = b
        simp only [Buffered.Buffer.push, Buffered.Buffer.send]
        split <;> exact h3
      · show (p.out.push r).buffer.length ≤ b - 1
        simp only [Buffered.Buffer.push, Buffered.Buffer.send]
        split
        · simp
        · next hn => simp only at hn ⊢; omega
    · next ms hc =>
      rw [hc, List.length_cons] at h2
      refine ⟨h1, by show ms.length ≤ 2 * b; omega, ?_, ?_⟩
      · show p.out.flush.batchSize = b
        simp only [Buffered.Buffer.flush, Buffered.Buffer.send]
        split <;> exact h3
      · show p.out.flush.buffer.length ≤ b - 1
        simp only [Buffered.Buffer.flush, Buffered.Buffer.send]
        split
        · exact h4
        · simp
    · split
      · split
        · exact ⟨h1, h2, h3, h4⟩
        · refine ⟨h1, h2, ?_, ?_⟩
          · show p.out.flush.batchSize = b
            simp only [Buffered.Buffer.flush, Buffered.Buffer.send]
            split <;> exact h3
          · show p.out.flush.buffer.length ≤ b - 1
            simp only [Buffered.Buffer.flush, Buffered.Buffer.send]
            split
            · exact h4
            · simp
      · exact ⟨h1, h2, h3, h4⟩

theorem narrow_run {b : Nat} (as : List RunnerEnd.Act) (l : Life) (h : Narrow b l.pipe) : Narrow b (l.run as).pipe := by
  induction as generalizing l with
  | nil => exact h
  | cons a as ih =>
    rw [run_cons]
    apply ih
    cases a with
    | pipe a => exact narrow_step h a
    | restartFails =>
      simp only [Life.step]
      repeat' split
      all_goals first | exact h | exact ⟨h.1, h.2, h.3, h.4⟩
    | notify =>
      simp only [Life.step]
      repeat' split
      all_goals exact h

/-- **C74**, how much may be missing: when the queue is told, all attempts but the last `3 * batchSize - 1` at most have been
reported. What was reported are the first of the attempts, in order. -/
theorem C74_missing (mx : Nat) (hmx : 1 ≤ mx) (sources : List (List Resp)) (wf : WellFormed sources)
    (batchSize : Nat) (as : List RunnerEnd.Act) :
    let l := (RunnerEnd.init sources mx batchSize).run as
    l.notified = true →
      ∃ missing, l.pipe.given.map keyOfTest = l.pipe.reported.map keyOf ++ missing ∧ missing.length ≤ 3 * batchSize - 1 := by
  intro l hn
  have h1 := (C74_all_run_partial mx hmx sources wf batchSize as hn).1
  have h2 : Narrow batchSize l.pipe := narrow_run as _ ⟨Nat.mul_comm .., Nat.zero_le _, rfl, Nat.zero_le _⟩
  refine ⟨l.pipe.underway.map keyOf, by rw [← h1, List.map_append], ?_⟩
  have h3 : l.pipe.underway.length ≤ l.pipe.out.buffer.length + l.pipe.chan.length := by
    rw [Pipe.underway, List.length_append]
    exact Nat.add_le_add_left (List.length_filterMap_le ..) _
  have h4 := h2.chan
  have h5 := h2.buffer
  rw [List.length_map]
  omega

set_option maxRecDepth 20000 in
/-- With batches of one: the first test has a result, the native runner crashes on the second, and neither is reported when the
queue is told: as many as may be missing. -/
example :
    let turn : List Pipe.Act := [.fetch, .produce, .consume]
    let acts : List Pipe.Act := (List.replicate 4 turn).flatten ++ [.result [⟨7, true⟩], .send] ++ (List.replicate 2 turn).flatten ++
      [.crash] ++ (List.replicate 5 turn).flatten ++ [.send]
    let l := (RunnerEnd.init [[.bundle ⟨[⟨⟨1, 1, none⟩, 1⟩, ⟨⟨2, 1, none⟩, 1⟩], true⟩]] 1 1).run (acts.map .pipe ++ [.notify])
    l.notified = true ∧ l.pipe.given.map keyOfTest = [(1, 1), (2, 1)] ∧ l.pipe.reported = [] ∧ 2 = 3 * 1 - 1 := by
  decide

/-- **C74**: a runner that has ended without an error of its own has told the queue, and has reported every attempt at every
test it was given. -/
theorem C74_told_at_the_end (mx : Nat) (hmx : 1 ≤ mx) (sources : List (List Resp)) (wf : WellFormed sources)
    (batchSize : Nat) (as : List RunnerEnd.Act) :
    let l := (RunnerEnd.init sources mx batchSize).run as
    l.finished = true → l.failed = false →
      l.notified = true ∧ l.pipe.reported.map keyOf = l.pipe.given.map keyOfTest := by
  intro l hfin hf
  have hn : l.notified = true := by
    simp only [Life.finished, hf, Bool.and_eq_true, Bool.or_false] at hfin
    exact hfin.2
  exact ⟨hn, (C74_all_run_partial mx hmx sources wf batchSize as hn).2.2 hfin⟩

set_option maxRecDepth 20000 in
/-- **C74 fails in full**: the queue is told that all tests were run before the result of the only test is reported. -/
theorem C74_full_statement_fails :
    ∃ (sources : List (List Resp)) (batchSize : Nat) (as : List RunnerEnd.Act), WellFormed sources ∧ 0 < batchSize ∧
      let l := (RunnerEnd.init sources 1 batchSize).run as
      l.notified = true ∧ l.pipe.given.map keyOfTest = [(1, 1)] ∧ l.pipe.reported = [] := by
  refine ⟨pipeOne, 2, ([.fetch, .produce, .produce, .produce, .consume, .consume, .consume, .result [⟨7, true⟩], .send,
    .consume, .send, .produce, .fetch, .consume].map Act.pipe) ++ [.notify], pipeOne_wellFormed, by decide, ?_⟩
  decide

/-! ## C75: the results of the native runner are reported -/

/-- **C75** (in part): if no test times out while its results are being sent, all results the native runner yields are
reported as they are and in order, followed only by failures.

Missing: the time limit, see `C75_full_statement_fails`. -/
theorem C75_results_reported_partial (mx : Nat) (hmx : 1 ≤ mx) (sources : List (List Resp)) (wf : WellFormed sources)
    (batchSize : Nat) (as : List RunnerEnd.Act) (ht : .pipe .timeout ∉ as) :
    let l := (RunnerEnd.init sources mx batchSize).run as
    l.failed = false → l.finished = true →
    ∃ failures, l.pipe.reported = answers (RunnerEnd.init sources mx batchSize) as ++ failures ∧ ∀ r ∈ failures, Failure r := by
  intro l hf hfin
  have hpi : PI mx sources l.pipe := pi_life hmx wf batchSize as hf
  simp only [Life.finished, Bool.and_eq_true] at hfin
  obtain ⟨⟨f, hr⟩, hc, hb⟩ := finished_all hpi hfin.1
  have h0 : Kept [] (RunnerEnd.init sources mx batchSize).pipe := rfl
  rcases kept_run h0 as with h | ⟨_, _, h, _⟩
  · have h : Kept ([] ++ answers _ as) l.pipe := h
    unfold Kept at h
    rw [hr] at h
    obtain ⟨F, hF, hfail⟩ := h
    refine ⟨F, ?_, hfail⟩
    rw [List.nil_append] at hF
    rw [← hF]
    simp [allResults, Pipe.reported, hb, hc, chanResults]
  · exact absurd h ht

/-- **C75**: with the time limit at most one result of the native runner is lost, the last one, and is replaced by a failure of
the same test. -/
theorem C75_all_but_the_last (mx : Nat) (hmx : 1 ≤ mx) (sources : List (List Resp)) (wf : WellFormed sources)
    (batchSize : Nat) (as : List RunnerEnd.Act) :
    let l := (RunnerEnd.init sources mx batchSize).run as
    let yielded := answers (RunnerEnd.init sources mx batchSize) as
    l.failed = false → l.finished = true →
    ∃ kept failures, l.pipe.reported = kept ++ failures ∧ (∀ r ∈ failures, Failure r) ∧
      (kept = yielded ∨ kept = yielded.dropLast) := by
  intro l yielded hf hfin
  have hpi : PI mx sources l.pipe := pi_life hmx wf batchSize as hf
  simp only [Life.finished, Bool.and_eq_true] at hfin
  obtain ⟨⟨f, hr⟩, hc, hb⟩ := finished_all hpi hfin.1
  have hall : allResults l.pipe = l.pipe.reported := by simp [allResults, Pipe.reported, hb, hc, chanResults]
  have h0 : Kept [] (RunnerEnd.init sources mx batchSize).pipe := rfl
  rcases kept_run h0 as with h | ⟨K, r, -, hK, h⟩
  · have h : Kept ([] ++ answers _ as) l.pipe := h
    unfold Kept at h
    rw [hr] at h
    obtain ⟨F, hF, hfail⟩ := h
    exact ⟨_, F, by rw [← hall, hF]; rfl, hfail, .inl rfl⟩
  · have h : Kept K l.pipe := h
    unfold Kept at h
    rw [hr] at h
    obtain ⟨F, hF, hfail⟩ := h
    refine ⟨K, F, by rw [← hall, hF], hfail, .inr ?_⟩
    show K = yielded.dropLast
    rw [show yielded = K ++ [r] from hK, List.dropLast_concat]

/-- Three tests; the results of the first two fill the channel. -/
def timeoutActs : List RunnerEnd.Act :=
  ([.fetch, .produce, .produce, .consume, .consume, .consume, .result [⟨1, false⟩], .send, .produce, .consume,
    .result [⟨2, false⟩], .send, .produce, .consume, .result [⟨3, false⟩]].map Act.pipe) ++
  [.pipe .timeout] ++
  ([.produce, .produce, .fetch, .produce, .consume, .consume, .consume, .consume, .take, .take, .send, .take, .fetch, .produce,
    .consume, .consume, .send, .take, .take].map Act.pipe) ++ [.notify]

set_option maxRecDepth 20000 in
/-- **C75 fails in full**: the native runner yields that the third test passed; while this waits for room in the channel, because
the queue is slow to take results, the time limit passes, and the test is reported as failed. -/
theorem C75_full_statement_fails :
    ∃ (sources : List (List Resp)) (batchSize : Nat) (as : List RunnerEnd.Act), WellFormed sources ∧ 0 < batchSize ∧
      let l := (RunnerEnd.init sources 1 batchSize).run as
      l.finished = true ∧ (∀ r ∈ answers (RunnerEnd.init sources 1 batchSize) as, ∀ x ∈ r.results, x.failed = false) ∧
      (answers (RunnerEnd.init sources 1 batchSize) as).map keyOf = [(1, 1), (2, 1), (3, 1)] ∧
      l.pipe.reported = [⟨1, 1, [⟨1, false⟩]⟩, ⟨2, 1, [⟨2, false⟩]⟩, ⟨3, 1, [⟨0, true⟩]⟩] := by
  refine ⟨pipeTests, 1, timeoutActs, pipeTests_wellFormed, by decide, ?_⟩
  decide

set_option maxRecDepth 20000 in
/-- A run in which the queue is told and all is reported: the first test is retried. -/
example :
    let as := (pipeRound [⟨10, false⟩] ++ pipeRound [⟨20, true⟩] ++
      (List.replicate 12 (pipeRound [⟨30, false⟩])).flatten).map Act.pipe ++ [.notify]
    let l := (RunnerEnd.init pipeTests 2 4).run as
    l.failed = false ∧ l.notified = true ∧ l.finished = true ∧ l.attempt = 2 ∧
    l.pipe.reported.map keyOf = [(1, 1), (2, 1), (3, 1), (1, 2)] ∧
    l.pipe.reported = answers (RunnerEnd.init pipeTests 2 4) as := by decide

end Abq.Props
