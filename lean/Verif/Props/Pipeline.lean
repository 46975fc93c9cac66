import Verif.Proof.PipelineProgress

/-!
# A runner reports every test it was given, and finishes (C45, C60)

The theorems are about every script of the sources, every bound on attempts, every batch size, all results
the native runner may yield, its failing on any test, and every interleaving of the three tasks.
-/

namespace Abq.Props
open Abq.Retries Abq.Fetch Abq.Fetch.Spec Abq.Pipe

/-- **C45.** Results are reported in the order in which the tests were given, one per test and attempt; each
batch has reached the retry tracker, and nothing panicked. -/
theorem C45_reported_in_order (mx : Nat) (hmx : 1 ≤ mx) (sources : List (List Resp))
    (wf : WellFormed sources) (batchSize : Nat) (as : List Pipe.Act) :
    let p := Pipe.run (Pipe.init sources mx batchSize) as
    p.reported.map keyOf <+: p.given.map keyOfTest ∧ p.sys.log = p.reported ∧
    p.sys.panicked = false ∧ p.buf.panicked = false := by
  intro p
  have h : PI mx sources p := pi_of_run hmx wf batchSize as
  refine ⟨?_, h.log, ?_, ?_⟩
  · have hp := (received_prefix h.buf).map key
    rw [← h.flow, ← given_eq h.link] at hp
    refine List.IsPrefix.trans ?_ hp
    simp only [List.map_append, List.append_assoc]
    exact List.prefix_append _ _
  · obtain ⟨_, _, _, i⟩ := h.sys
    exact i.fine
  · cases h.buf with
    | live cur frames old B l => exact l.fine
    | flush acc f => exact f.fine
    | gone g => exact g.fine

/-- **C45.** When the runner is through, also if the native runner failed on the way, each test it was given
has exactly one result for each attempt it was given for. -/
theorem C45_every_test_reported (mx : Nat) (hmx : 1 ≤ mx) (sources : List (List Resp))
    (wf : WellFormed sources) (batchSize : Nat) (as : List Pipe.Act) :
    let p := Pipe.run (Pipe.init sources mx batchSize) as
    p.finished = true → p.reported.map keyOf = p.given.map keyOfTest := by
  intro p hf
  exact finished_flow (pi_of_run hmx wf batchSize as) hf

/-- **C45.** If the native runner fails on a test, what is reported in the end is what it had yielded before,
then one failure for that test, then one for each test it was not run on, all of the same attempt. -/
theorem C45_failures_of_a_crash (mx : Nat) (hmx : 1 ≤ mx) (sources : List (List Resp))
    (wf : WellFormed sources) (batchSize : Nat) (as bs : List Pipe.Act) (w : WorkerTest) :
    let p := Pipe.run (Pipe.init sources mx batchSize) as
    let q := Pipe.run p (.crash :: bs)
    p.runner = .running w → q.finished = true →
    ∃ failures rest, q.reported = p.reported ++ p.underway ++ failures ∧
      failures.map keyOf = keyOfTest w :: rest ∧
      (p.reported ++ p.underway).map keyOf ++ keyOfTest w :: rest = q.given.map keyOfTest ∧
      ∀ r ∈ failures, r.runNumber = w.runNumber ∧ ∃ id, r.results = [⟨id, true⟩] := by
  intro p q hr hf
  have hp : PI mx sources p := pi_of_run hmx wf batchSize as
  refine failed_reported (pi_run wf _ hp) hf (failed_run bs (p := Pipe.step p .crash) ?_)
  simp only [Pipe.step, Pipe.crash, hr]
  exact ⟨rfl, allResults_eq p⟩

/-- **C45.** The time limit of a test also passes if the native runner yielded its results and these wait to be taken. They are
dropped then; the test, and each test after it, is reported as failed. -/
theorem C45_failures_of_a_timeout (mx : Nat) (hmx : 1 ≤ mx) (sources : List (List Resp))
    (wf : WellFormed sources) (batchSize : Nat) (as bs : List Pipe.Act) (r : Results) :
    let p := Pipe.run (Pipe.init sources mx batchSize) as
    let q := Pipe.run p (.timeout :: bs)
    p.runner = .sending (.results r) → q.finished = true →
    ∃ failures rest, q.reported = p.reported ++ p.underway ++ failures ∧
      failures.map keyOf = keyOf r :: rest ∧
      (p.reported ++ p.underway).map keyOf ++ keyOf r :: rest = q.given.map keyOfTest ∧
      ∀ x ∈ failures, x.runNumber = r.runNumber ∧ ∃ id, x.results = [⟨id, true⟩] := by
  intro p q hr hf
  have hp : PI mx sources p := pi_of_run hmx wf batchSize as
  refine failed_reported (w := ⟨⟨r.workId, 0, none⟩, r.runNumber⟩) (pi_run wf _ hp) hf
    (failed_run bs (p := Pipe.step p .timeout) ?_)
  simp only [Pipe.step, Pipe.timeout, hr]
  exact ⟨rfl, allResults_eq p⟩

/-- **C60.** Under every schedule the runner comes to rest. -/
theorem C60_comes_to_rest (mx : Nat) (hmx : 1 ≤ mx) (sources : List (List Resp))
    (wf : WellFormed sources) (batchSize : Nat) (f : Nat → Pipe.Act) :
    ∃ N, ∀ n, N ≤ n → after (Pipe.init sources mx batchSize) f n = after (Pipe.init sources mx batchSize) f N :=
  pi_rest wf _ _ rfl (pi_init mx hmx sources wf batchSize) f

/-- **C60, partial.** Under every fair schedule the runner finishes, or ends up in the one state from which nothing
can go on: retries are allowed and the native runner failed on a test, or a test timed out; the runner waits for the fetch in progress to
end before it reports that test; and the fetch, having got all tests of the sources, waits for that result. The
results of the tests before it have been reported or wait for their batch to be full. -/
theorem C60_finishes_or_hangs_partial (mx : Nat) (hmx : 1 ≤ mx) (sources : List (List Resp))
    (wf : WellFormed sources) (batchSize : Nat) (hbs : 0 < batchSize) (f : Nat → Pipe.Act) (fair : Fair f) :
    (∃ n, (after (Pipe.init sources mx batchSize) f n).finished = true) ∨
    ∃ N w, (∀ n, N ≤ n → after (Pipe.init sources mx batchSize) f n = after (Pipe.init sources mx batchSize) f N) ∧
      let p := after (Pipe.init sources mx batchSize) f N
      1 < mx ∧ (∃ n, f n = .crash ∨ f n = .timeout) ∧
      p.runner = .flushing w ∧ p.buf.prod = .fetching ∧ p.sys.fetcher.fetch.2 = .waiting ∧
      supplied sources <+: p.given ∧
      (p.reported ++ p.out.buffer).map keyOf ++ [keyOfTest w] <+: p.given.map keyOfTest ∧
      p.chan = [] ∧ ∀ a, Pipe.step p a = p := by
  obtain ⟨N, hN⟩ := C60_comes_to_rest mx hmx sources wf batchSize f
  have h : PI mx sources (after (Pipe.init sources mx batchSize) f N) :=
    pi_after wf (pi_init mx hmx sources wf batchSize) f N
  obtain ⟨hc1, hc2⟩ := caps_after (Pipe.init sources mx batchSize) f N
  have hnoeff : ∀ m, N ≤ m →
      Pipe.step (after (Pipe.init sources mx batchSize) f N) (f m) =
        after (Pipe.init sources mx batchSize) f N := by
    intro m hm
    have h1 := hN (m + 1) (by omega)
    rw [after, hN m hm] at h1
    exact h1
  have hcrash : (∃ w, (after (Pipe.init sources mx batchSize) f N).runner = .flushing w) →
      ∃ n, f n = .crash ∨ f n = .timeout := by
    rintro ⟨w, hw⟩
    apply Classical.byContradiction
    intro hno
    exact absurd hw (no_flush_after _ f (fun n => ⟨fun hn => hno ⟨n, .inl hn⟩, fun hn => hno ⟨n, .inr hn⟩⟩) (by simp [Pipe.init]) N w)
  have hfetch : (after (Pipe.init sources mx batchSize) f N).fetch = after (Pipe.init sources mx batchSize) f N := by
    obtain ⟨m, hm, he⟩ := fair.fetch N
    have := hnoeff m hm
    rwa [he] at this
  have hproduce : { after (Pipe.init sources mx batchSize) f N with
      buf := (after (Pipe.init sources mx batchSize) f N).buf.produce } =
      after (Pipe.init sources mx batchSize) f N := by
    obtain ⟨m, hm, he⟩ := fair.produce N
    have := hnoeff m hm
    rwa [he] at this
  have hconsume : (after (Pipe.init sources mx batchSize) f N).consume =
      after (Pipe.init sources mx batchSize) f N := by
    obtain ⟨m, hm, he⟩ := fair.consume N
    have := hnoeff m hm
    rwa [he] at this
  have hresult : ∃ rs, (after (Pipe.init sources mx batchSize) f N).result rs =
      after (Pipe.init sources mx batchSize) f N := by
    obtain ⟨m, rs, hm, he⟩ := fair.result N
    have := hnoeff m hm
    rw [he] at this
    exact ⟨rs, this⟩
  have hsend : (after (Pipe.init sources mx batchSize) f N).send = after (Pipe.init sources mx batchSize) f N := by
    obtain ⟨m, hm, he⟩ := fair.send N
    have := hnoeff m hm
    rwa [he] at this
  have htake : (after (Pipe.init sources mx batchSize) f N).take = after (Pipe.init sources mx batchSize) f N := by
    obtain ⟨m, hm, he⟩ := fair.take N
    have := hnoeff m hm
    rwa [he] at this
  cases hf : (after (Pipe.init sources mx batchSize) f N).finished with
  | true => exact .inl ⟨N, hf⟩
  | false =>
    right
    suffices hw : ∃ w, (after (Pipe.init sources mx batchSize) f N).runner = .flushing w ∧
        (after (Pipe.init sources mx batchSize) f N).buf.prod = .fetching ∧
        (after (Pipe.init sources mx batchSize) f N).sys.fetcher.fetch.2 = .waiting by
      obtain ⟨w, hw⟩ := hw
      refine ⟨N, w, hN, ?_⟩
      have hcr := hcrash ⟨w, hw.1⟩
      generalize after (Pipe.init sources mx batchSize) f N = p at *
      dsimp only
      have hchan : p.chan = [] := by
        cases hc : p.chan with
        | nil => rfl
        | cons m ms => exact absurd htake (take_moves (by simp [hc]))
      have hstop : p.sys.stopped = false := by
        have := h.prod
        rw [hw.2.1] at this
        exact this
      obtain ⟨_, _, _, i⟩ := h.sys
      obtain ⟨h1, h2, -⟩ := inv_waiting wf i hstop hw.2.2
      refine ⟨h1, hcr, hw.1, hw.2.1, hw.2.2, h2, ?_, hchan, ?_⟩
      · have hcons : flushedOf p.buf.cons = [] := by
          have := h.place
          rw [hw.1] at this
          obtain ⟨acc, e⟩ := this
          rw [e]; rfl
        have hfl := h.flow
        rw [hchan, hcons, hw.1] at hfl
        have hp := (received_prefix h.buf).map key
        rw [hcons, ← given_eq h.link] at hp
        rw [← hfl] at hp
        simp only [chanResults, List.filterMap_nil, List.append_nil, inflight] at hp
        exact hp
      · intro a
        cases a with
        | fetch => exact hfetch
        | produce => exact hproduce
        | consume => exact hconsume
        | send => exact hsend
        | take => exact htake
        | result rs => simp only [Pipe.step, Pipe.result, hw.1]
        | crash => simp only [Pipe.step, Pipe.crash, hw.1]
        | timeout => simp only [Pipe.step, Pipe.timeout, hw.1]
    generalize after (Pipe.init sources mx batchSize) f N = p at *
    have hcap : 0 < p.chanCap := by rw [hc1]; simp only [Pipe.init]; omega
    have hbcap : 0 < p.buf.cap := by rw [hc2]; simp only [Pipe.init, MsgBuf.Buf.new]; omega
    rcases pi_progress wf h hcap hbcap hf with (h1 | h1 | h1 | h1 | h1 | h1) | ⟨⟨w, h1⟩, h0, h2, -⟩
    · exact absurd hfetch h1
    · exact absurd (congrArg Pipe.buf hproduce) h1
    · exact absurd hconsume h1
    · obtain ⟨rs, e⟩ := hresult
      exact absurd e (h1 rs)
    · exact absurd hsend h1
    · exact absurd htake h1
    · exact ⟨w, h1, h0, h2⟩

/-- **C60, partial.** Under every fair schedule the runner finishes, if the native runner does not fail and no test times
out, or there are no retries. -/
theorem C60_runner_finishes_partial (mx : Nat) (hmx : 1 ≤ mx) (sources : List (List Resp))
    (wf : WellFormed sources) (batchSize : Nat) (hbs : 0 < batchSize) (f : Nat → Pipe.Act)
    (fair : Fair f) (hcrash : mx = 1 ∨ ∀ n, f n ≠ .crash ∧ f n ≠ .timeout) :
    ∃ n, (after (Pipe.init sources mx batchSize) f n).finished = true := by
  rcases C60_finishes_or_hangs_partial mx hmx sources wf batchSize hbs f fair with h | ⟨_, _, -, h1, ⟨n, h2⟩, -⟩
  · exact h
  · rcases hcrash with h | h
    · omega
    · exact (h2.elim (h n).1 (h n).2).elim

/-! ## The native runner fails on the last test while retries are allowed -/

def pipeOne : List (List Resp) := [[.bundle ⟨[⟨⟨1, 1, none⟩, 1⟩], true⟩]]

theorem pipeOne_wellFormed : WellFormed pipeOne where
  some := by decide
  ends := by simp [pipeOne, Ends]
  once := by decide
  first := by decide

/-- The test is fetched; the consumer asks for more before it runs it; the producer, having been asked,
waits for the test's result to know what to retry; then the native runner fails on it. -/
def crashActs : List Pipe.Act :=
  [.fetch, .produce, .consume, .produce, .consume, .consume, .produce, .produce, .crash, .consume]

def turns : Nat → Pipe.Act
  | 0 => .fetch
  | 1 => .produce
  | 2 => .consume
  | 3 => .result []
  | 4 => .send
  | _ => .take

def crashSchedule (n : Nat) : Pipe.Act := (crashActs[n]?).getD (turns (n % 6))

theorem crashSchedule_fair : Fair crashSchedule := by
  have key : ∀ k, k < 6 → ∀ n, ∃ m, n ≤ m ∧ crashSchedule m = turns k := by
    intro k hk n
    refine ⟨6 * (n + 2) + k, by omega, ?_⟩
    have h1 : crashActs[6 * (n + 2) + k]? = none := by
      apply List.getElem?_eq_none
      simp only [crashActs, List.length_cons, List.length_nil]
      omega
    have h2 : (6 * (n + 2) + k) % 6 = k := by omega
    simp only [crashSchedule, h1, h2, Option.getD_none]
  refine ⟨key 0 (by omega), key 1 (by omega), key 2 (by omega), ?_, key 4 (by omega), key 5 (by omega)⟩
  intro n
  obtain ⟨m, h1, h2⟩ := key 3 (by omega) n
  exact ⟨m, [], h1, h2⟩

theorem crash_stuck (a : Pipe.Act) :
    Pipe.step (Pipe.run (Pipe.init pipeOne 2 1) crashActs) a =
      Pipe.run (Pipe.init pipeOne 2 1) crashActs := by
  cases a with
  | result rs => rfl
  | fetch => decide
  | produce => decide
  | consume => decide
  | crash => decide
  | timeout => decide
  | send => decide
  | take => decide

/-- **C60 fails in full.** The runner can hang for ever: when the native runner fails on a test while the next
tests are being fetched and all sources are exhausted, the runner waits for the fetch to end, and the fetch
waits for the result of that test. -/
theorem C60_full_statement_fails :
    ¬ ∀ (mx : Nat) (sources : List (List Resp)) (batchSize : Nat) (f : Nat → Pipe.Act),
      1 ≤ mx → WellFormed sources → 0 < batchSize → Fair f →
      ∃ n, (after (Pipe.init sources mx batchSize) f n).finished = true := by
  intro hall
  obtain ⟨n, hn⟩ := hall 2 pipeOne 1 crashSchedule (by decide) pipeOne_wellFormed (by decide)
    crashSchedule_fair
  have h10 : after (Pipe.init pipeOne 2 1) crashSchedule 10 =
      Pipe.run (Pipe.init pipeOne 2 1) crashActs := by decide
  have hlate : ∀ k, after (Pipe.init pipeOne 2 1) crashSchedule (10 + k) =
      Pipe.run (Pipe.init pipeOne 2 1) crashActs := by
    intro k
    induction k with
    | zero => exact h10
    | succ k ih =>
      have : after (Pipe.init pipeOne 2 1) crashSchedule (10 + (k + 1)) =
          Pipe.step (after (Pipe.init pipeOne 2 1) crashSchedule (10 + k)) (crashSchedule (10 + k)) := rfl
      rw [this, ih]
      exact crash_stuck _
  by_cases hlt : n < 10
  · have hearly : ∀ k : Fin 10, (after (Pipe.init pipeOne 2 1) crashSchedule k.val).finished = false := by
      decide
    have := hearly ⟨n, hlt⟩
    simp only at this
    rw [hn] at this
    cases this
  · obtain ⟨k, rfl⟩ : ∃ k, n = 10 + k := ⟨n - 10, by omega⟩
    rw [hlate k] at hn
    revert hn
    decide

/-! ## A runner with three tests that crashes on the second, and one that does not crash -/

def pipeTests : List (List Resp) :=
  [[.bundle ⟨[⟨⟨1, 1, none⟩, 1⟩, ⟨⟨2, 2, none⟩, 1⟩, ⟨⟨3, 3, none⟩, 1⟩], false⟩, .bundle ⟨[], true⟩]]

theorem pipeTests_wellFormed : WellFormed pipeTests where
  some := by decide
  ends := by simp [pipeTests, Ends]
  once := by decide
  first := by decide

def pipeRound (r : List Result) : List Pipe.Act :=
  [.fetch, .produce, .produce, .consume, .consume, .result r, .send, .take]

set_option maxRecDepth 20000 in
/-- The first test fails and is retried. -/
example :
    let p := Pipe.run (Pipe.init pipeTests 2 4)
      (pipeRound [⟨10, false⟩] ++ pipeRound [⟨20, true⟩] ++ (List.replicate 12 (pipeRound [⟨30, false⟩])).flatten)
    p.finished = true ∧ p.reported.map keyOf = [(1, 1), (2, 1), (3, 1), (1, 2)] := by decide

set_option maxRecDepth 20000 in
/-- The native runner fails on the second test. -/
example :
    let p := Pipe.run (Pipe.init pipeTests 1 4)
      (pipeRound [] ++ [.produce, .consume, .consume, .result [⟨10, false⟩], .send, .produce, .consume])
    p.runner = .running ⟨⟨2, 2, none⟩, 1⟩ ∧
    let q := Pipe.run p (.crash :: (List.replicate 12 (pipeRound [])).flatten)
    q.finished = true ∧
    q.reported = [⟨1, 1, [⟨10, false⟩]⟩, ⟨2, 1, [⟨0, true⟩]⟩, ⟨3, 1, [⟨0, true⟩]⟩] := by decide

set_option maxRecDepth 20000 in
/-- The third test passed, but its results find no room, and its time limit passes. -/
example :
    let p := Pipe.run (Pipe.init pipeTests 1 1)
      [.fetch, .produce, .produce, .consume, .consume, .consume, .result [⟨10, false⟩], .send, .produce, .consume,
        .result [⟨20, false⟩], .send, .produce, .consume, .result [⟨30, false⟩], .send]
    p.runner = .sending (.results ⟨3, 1, [⟨30, false⟩]⟩) ∧ p.chan.length = p.chanCap ∧
    let q := Pipe.run p (.timeout :: (List.replicate 12 (pipeRound [])).flatten)
    q.finished = true ∧
    q.reported = [⟨1, 1, [⟨10, false⟩]⟩, ⟨2, 1, [⟨20, false⟩]⟩, ⟨3, 1, [⟨0, true⟩]⟩] := by decide

example : Fair (fun n => turns (n % 6)) := by
  have key : ∀ k, k < 6 → ∀ n, ∃ m, n ≤ m ∧ turns (m % 6) = turns k := by
    intro k hk n
    exact ⟨6 * n + k, by omega, by congr 1; omega⟩
  refine ⟨key 0 (by omega), key 1 (by omega), key 2 (by omega), ?_, key 4 (by omega), key 5 (by omega)⟩
  intro n
  obtain ⟨m, h1, h2⟩ := key 3 (by omega) n
  exact ⟨m, [], h1, h2⟩

end Abq.Props
