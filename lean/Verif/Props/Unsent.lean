import Verif.Proof.Unsent
import Verif.Props.RunnerEnd

/-! # C156: few results are lost with a worker -/

namespace Abq.Props
open Abq.Retries Abq.Pipe

theorem held_few {n : Nat} {p : Pipe} {as : List Results} (h : Held n p as) :
    ∃ kept lost, as = kept ++ lost ∧ lost.length ≤ 3 * n ∧ kept <+: p.reported := by
  obtain ⟨h1, h2, h3, h4, kept, more, dropped, h5, h6, -, h8⟩ := h
  have hund : p.underway.length ≤ (n - 1) + 2 * n := by
    simp only [Pipe.underway, List.length_append]
    exact Nat.add_le_add (by omega) (Nat.le_trans (List.length_filterMap_le _ _) (by omega))
  have hlen := congrArg List.length h6
  simp only [List.length_append] at hlen
  have hpre : kept.take p.reported.length <+: p.reported := by
    have : p.reported = (kept ++ more).take p.reported.length := by
      rw [← h6, List.append_assoc, List.take_left]
    rw [this, List.take_append, List.length_append, List.length_take]
    simp only [List.length_take]
    have e : min p.reported.length kept.length + min (p.reported.length - kept.length) more.length = p.reported.length := by omega
    rw [e]
    exact List.prefix_append _ _
  refine ⟨kept.take p.reported.length, kept.drop p.reported.length ++ dropped, ?_, ?_, hpre⟩
  · rw [h5, ← List.append_assoc, List.take_append_drop]
  · simp only [List.length_append, List.length_drop]
    omega

/-- C156: whatever the schedule of a runner's tasks, at any time all answers of the native runner but the last `3 n`, where `n` is the
number of results in a batch, have been handed over to be sent to the queue, as they were given, in order, and before anything else. -/
theorem C156_few_unsent (sources : List (List Fetch.Resp)) (maxRun n : Nat) (hn : 1 ≤ n) (as : List Pipe.Act) :
    ∃ kept lost, Pipe.answers (Pipe.init sources maxRun n) as = kept ++ lost ∧ lost.length ≤ 3 * n ∧
      kept <+: (Pipe.run (Pipe.init sources maxRun n) as).reported :=
  held_few (by simpa using held_run as (held_init sources maxRun n hn))

theorem left_init (sources : List (List Fetch.Resp)) (maxRun n : Nat) (hn : 1 ≤ n) (as : List RunnerEnd.Act) :
    RunnerEnd.Left n ((RunnerEnd.init sources maxRun n).run as) ([] ++ RunnerEnd.answers (RunnerEnd.init sources maxRun n) as) :=
  RunnerEnd.left_run as ⟨held_init sources maxRun n hn, (fun h => by cases h), (fun h => by cases h)⟩

/-- C156: so it is if the native runner may also fail to start again for another attempt. -/
theorem C156_restarts (sources : List (List Fetch.Resp)) (maxRun n : Nat) (hn : 1 ≤ n) (as : List RunnerEnd.Act) :
    ∃ kept lost, RunnerEnd.answers (RunnerEnd.init sources maxRun n) as = kept ++ lost ∧ lost.length ≤ 3 * n ∧
      kept <+: ((RunnerEnd.init sources maxRun n).run as).pipe.reported :=
  held_few (by simpa using (left_init sources maxRun n hn as).held)

/-- C75: if the native runner cannot be started again for another attempt, all it answered before was or will be reported as answered and in
order, and nothing else; when the task that sends results has ended, it was. -/
theorem C75_restart_fails (sources : List (List Fetch.Resp)) (maxRun n : Nat) (hn : 1 ≤ n) (as : List RunnerEnd.Act)
    (hf : ((RunnerEnd.init sources maxRun n).run as).failed = true) :
    let p := ((RunnerEnd.init sources maxRun n).run as).pipe
    p.reported ++ p.underway = RunnerEnd.answers (RunnerEnd.init sources maxRun n) as ∧
    (p.ended = true → p.reported = RunnerEnd.answers (RunnerEnd.init sources maxRun n) as) := by
  intro p
  have h := left_init sources maxRun n hn as
  have hall := (h.all hf).2
  rw [List.nil_append] at hall
  refine ⟨hall, fun he => ?_⟩
  obtain ⟨-, hc, hb⟩ := h.endOk he
  rw [← hall]
  simp [Pipe.underway, hc, hb, p]

/-- C73: when the runner does not end. If the native runner could not be started again, all results were sent, and the task that fetches
tests has asked the queue for all of them and waits for results to know which tests to try again, then nothing ever happens any more. -/
theorem C73_hangs (sources : List (List Fetch.Resp)) (maxRun n : Nat) (hn : 1 ≤ n) (as : List RunnerEnd.Act) :
    let l := (RunnerEnd.init sources maxRun n).run as
    l.failed = true → l.pipe.ended = true → l.pipe.buf.prod = .fetching → l.pipe.sys.fetcher.sources = [] →
    l.pipe.sys.fetcher.fetch.2 = .waiting → ∀ bs, l.run bs = l ∧ (l.run bs).finished = false := by
  intro l hf he hp hs hw bs
  have h := left_init sources maxRun n hn as
  obtain ⟨hc, -⟩ := h.all hf
  obtain ⟨-, hch, -⟩ := h.endOk he
  have hfetch : (l.pipe.sys.fetcher.fetch).1 = l.pipe.sys.fetcher := by
    generalize l.pipe.sys.fetcher = f at hs hw ⊢
    obtain ⟨src, t⟩ := f
    cases hs
    simp only [Fetch.Fetcher.fetch, Fetch.fetchFrom, Fetch.fetchRetries, Tracker.assemble] at hw ⊢
    split at hw
    · cases hw
    · rename_i e
      repeat' split at e
      all_goals first | (cases e; done) | skip
      all_goals simp_all
  have hstep : ∀ a, l.step a = l := by
    intro a
    cases a with
    | restartFails => simp [RunnerEnd.Life.step, show l.pipe.runner = _ from hc]
    | notify => simp [RunnerEnd.Life.step, show l.pipe.runner = _ from hc, hf]
    | pipe a =>
      have hr : l.reconciled a = l.attempt := by
        cases a <;> simp [RunnerEnd.Life.reconciled, show l.pipe.runner = _ from hc]
      have hpipe : Pipe.step l.pipe a = l.pipe := by
        cases a with
        | fetch =>
          have hsys : Fetch.step l.pipe.sys .fetch = l.pipe.sys := by
            simp only [Fetch.step]
            split
            · rfl
            · generalize hx : l.pipe.sys.fetcher.fetch = x at hw hfetch
              obtain ⟨f, o⟩ := x
              cases hw
              cases hfetch
              rfl
          simp only [Pipe.step, Pipe.fetch, hp, hw, hsys]
        | produce => simp [Pipe.step, MsgBuf.Buf.produce, hp]
        | consume => simp [Pipe.step, Pipe.consume, show l.pipe.runner = _ from hc]
        | result rs => simp [Pipe.step, Pipe.result, show l.pipe.runner = _ from hc]
        | crash => simp [Pipe.step, Pipe.crash, show l.pipe.runner = _ from hc]
        | timeout => simp [Pipe.step, Pipe.timeout, show l.pipe.runner = _ from hc]
        | send => simp [Pipe.step, Pipe.send, show l.pipe.runner = _ from hc]
        | take => simp [Pipe.step, Pipe.take, show l.pipe.chan = _ from hch, show l.pipe.runner = _ from hc, he]
      simp only [RunnerEnd.Life.step, hr, hpipe]
  have hrun : l.run bs = l := by
    induction bs with
    | nil => rfl
    | cons b bs ih => rw [RunnerEnd.Life.run, List.foldl_cons, hstep b]; exact ih
  refine ⟨hrun, ?_⟩
  rw [hrun]
  simp [RunnerEnd.Life.finished, Pipe.finished, show l.pipe.runner = _ from hc, hp, MsgBuf.Prod.alive]

/-- C156: no answer is dropped, though, unless the worker dies or the time limit for a test passes: when the runner is through, and it saw no
failure, all answers have been handed over. -/
theorem C156_all_sent (sources : List (List Fetch.Resp)) (maxRun n : Nat) (hn : 1 ≤ n) (as : List Pipe.Act)
    (hok : ∀ a ∈ as, a ≠ .crash ∧ a ≠ .timeout) (hf : (Pipe.run (Pipe.init sources maxRun n) as).finished = true) :
    (Pipe.run (Pipe.init sources maxRun n) as).reported = Pipe.answers (Pipe.init sources maxRun n) as := by
  have ht := through_run as (p := Pipe.init sources maxRun n) ⟨trivial, fun h => by cases h⟩ hok
  have h := held_run as (held_init sources maxRun n hn)
  rw [List.nil_append] at h
  obtain ⟨-, -, -, -, kept, more, dropped, h5, h6, h7, -⟩ := h
  generalize hp : Pipe.run (Pipe.init sources maxRun n) as = p at *
  obtain ⟨rfl, rfl⟩ := h7 ht.live
  have he : p.ended = true := by
    unfold Pipe.finished at hf
    split at hf
    · exact (Bool.and_eq_true _ _ ▸ hf).1
    · cases hf
  obtain ⟨⟨b, hb⟩, hc, ho⟩ := ht.ended he
  rw [h5, ← h6]
  simp [Pipe.underway, hc, ho, hb, inHand]

/-! ## A case -/

set_option maxRecDepth 20000 in
/-- With batches of one result: three tests were answered, and nothing was handed over yet. -/
example :
    let as : List Pipe.Act := [.fetch, .produce, .produce, .consume, .consume, .consume, .result [⟨10, false⟩], .send, .produce, .consume,
      .result [⟨20, false⟩], .send, .produce, .consume, .result [⟨30, false⟩], .send]
    (Pipe.answers (Pipe.init pipeTests 1 1) as).length = 3 * 1 ∧ (Pipe.run (Pipe.init pipeTests 1 1) as).reported = [] := by decide

set_option maxRecDepth 20000 in
/-- A runner that comes to its end without a failure of the native runner. -/
example :
    let as := pipeRound [⟨10, false⟩] ++ pipeRound [⟨20, true⟩] ++ (List.replicate 12 (pipeRound [⟨30, false⟩])).flatten
    (∀ a ∈ as, a ≠ .crash ∧ a ≠ .timeout) ∧ (Pipe.run (Pipe.init pipeTests 2 4) as).finished = true ∧
    (Pipe.answers (Pipe.init pipeTests 2 4) as).length = 4 := by decide

set_option maxRecDepth 20000 in
/-- A test that fails and whose native runner cannot be started again, with batches of one result: its first answer was handed over. -/
example :
    (RunnerEnd.answers (RunnerEnd.init pipeOne 3 1) restartActs).length = 1 ∧
    ((RunnerEnd.init pipeOne 3 1).run restartActs).failed = true ∧ ((RunnerEnd.init pipeOne 3 1).run restartActs).pipe.ended = true ∧
    ((RunnerEnd.init pipeOne 3 1).run restartActs).pipe.reported.length = 1 := by decide

set_option maxRecDepth 20000 in
/-- There its runner hangs. -/
example :
    let p := ((RunnerEnd.init pipeOne 3 1).run restartActs).pipe
    p.ended = true ∧ p.buf.prod = .fetching ∧ p.sys.fetcher.sources = [] ∧ p.sys.fetcher.fetch.2 = .waiting := by decide

end Abq.Props
