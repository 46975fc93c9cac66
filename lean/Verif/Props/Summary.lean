import Verif.Proof.Summary
/-!
# The summary of a test suite (C41, C42, C64)
-/

namespace Abq.Props
open Abq Summary

/-! ## Example data -/

/-- A result by runner 1 of worker 0, in file `a.rb`, taking 5. -/
def res (run work : Nat) (id : String) (status : Status) : Result := ⟨run, work, id, status, 5, some "a.rb", (0, 1)⟩

/-- `t1` passes, `t2` fails twice, `t3` fails and then passes, the native runner crashes for works 4 and 5, and only
work 4 is run again. -/
def exampleSuite : List Result :=
  [res 1 1 "t1" .success, res 1 2 "t2" .failure, res 1 3 "t3" .error, res 2 2 "t2" .timedOut, res 2 3 "t3" .success,
   res 1 4 "?" .nativeRunnerError, res 1 5 "?" .nativeRunnerError, res 1 4 "t4" .success]

example : TestsOf exampleSuite ["t1", "t2", "t3", "t4"] := by
  refine ⟨by decide, ?_⟩
  intro id
  constructor
  · intro h
    simp only [List.mem_cons, List.not_mem_nil, or_false] at h
    rcases h with rfl | rfl | rfl | rfl <;> decide
  · intro h
    refine Classical.byContradiction fun hn => h ?_
    simp only [List.mem_cons, List.not_mem_nil, or_false, not_or] at hn
    obtain ⟨h1, h2, h3, h4⟩ := hn
    simp [resultsOf, exampleSuite, res, Result.material, Ne.symm h1, Ne.symm h2, Ne.symm h3, Ne.symm h4]

example : summarise exampleSuite
    = ⟨101, 5, 2, 2, 30, [⟨(0, 1), [("a.rb", 1)], [("a.rb", 2)]⟩]⟩ := by decide

/-! ## C41 -/

/-- **C41**, the numbers. With the tests that have results listed once each, the summary counts these tests and the
placeholders of crashed runs that were not run again; as failed the tests that failed and these placeholders; as
retried the tests with at least two results. The test time is the sum of the times of the results, if that is below 2^64 ns, and
the sum modulo 2^64 otherwise. -/
theorem C41_numbers (h : List Result) (ids : List String) (hi : TestsOf h ids) :
    (summarise h).count = ids.length + (unresolved h).length ∧
    (summarise h).countFailed = ids.countP (fun id => failedTest (resultsOf h id)) + (unresolved h).length ∧
    (summarise h).testsRetried = ids.countP (fun id => 2 ≤ (resultsOf h id).length) ∧
    (summarise h).testTime = ((h.filter (·.material)).map (·.runtime)).sum % 18446744073709551616 := by
  have hp := statuses_perm h ids hi
  rw [summarise_eq]
  dsimp only
  rw [aggregate_eq]
  refine ⟨?_, ?_, ?_, (tinv h).time⟩
  · rw [hp.length_eq]; simp
  · dsimp only
    rw [hp.countP_eq, List.countP_append, unresolved_newStatus h isAF true (fun _ => rfl), List.countP_map]
    simp only [Function.comp_def, isAF_statusOf, if_true]
  · dsimp only
    rw [hp.countP_eq, List.countP_append, unresolved_newStatus h (·.retried) false (fun _ => rfl), List.countP_map]
    simp only [Function.comp_def, statusOf_retried]
    rfl

/-- **C41**, the time spent in test code, for suites that took less than 2^64 ns (584 years) of it. -/
theorem C41_test_time_partial (h : List Result) (hb : ((h.filter (·.material)).map (·.runtime)).sum < 2 ^ 64) :
    (summarise h).testTime = ((h.filter (·.material)).map (·.runtime)).sum := by
  obtain ⟨ids, hi⟩ := exists_testsOf h
  rw [(C41_numbers h ids hi).2.2.2]
  exact Nat.mod_eq_of_lt hb

/-- A native runner that says its tests took longer makes the total wrap around (and a debug build panic). -/
theorem C41_test_time_fails : ¬ ∀ h : List Result, (∀ r ∈ h, r.runtime < 2 ^ 64) →
    (summarise h).testTime = ((h.filter (·.material)).map (·.runtime)).sum := by
  intro h
  have := h [⟨1, 1, "a", .success, 9223372036854775808, none, (0, 1)⟩, ⟨1, 2, "b", .success, 9223372036854775808, none, (0, 1)⟩]
    (by decide)
  revert this
  decide

/-- There always is such a list of tests, unique up to its order. -/
theorem C41_tests_listed (h : List Result) :
    (∃ ids, TestsOf h ids) ∧ ∀ ids ids', TestsOf h ids → TestsOf h ids' → ids.Perm ids' :=
  ⟨exists_testsOf h, fun _ _ hi hi' => (List.perm_ext_iff_of_nodup hi.1 hi'.1).2 fun a => by rw [hi.2, hi'.2]⟩

/-- **C41**, the exit code. It is 101 iff a placeholder of a crashed run remains, else 1 iff a test failed, else 0. -/
theorem C41_exit_code (h : List Result) :
    ((summarise h).exitCode = 101 ↔ unresolved h ≠ []) ∧
    ((summarise h).exitCode = 1 ↔ unresolved h = [] ∧ ∃ id, failedTest (resultsOf h id) = true) ∧
    ((summarise h).exitCode = 0 ↔ unresolved h = [] ∧ ∀ id, failedTest (resultsOf h id) = false) := exit_codes h

/-- What the documentation says: a test counts as failed if it failed in all its attempts. This holds if the attempts
are numbered as in one run of the suite. -/
theorem C41_failed_partial (h : List Result) (hn : NumberedAttempts h) (id : String) :
    failedTest (resultsOf h id) = failedAlways (resultsOf h id) := by
  have hn := hn id
  revert hn
  generalize resultsOf h id = rs
  intro hn
  cases rs with
  | nil => rfl
  | cons r rest => exact failed_numbered r rest (hn r rest rfl).1 (hn r rest rfl).2

example : NumberedAttempts exampleSuite := by
  intro id r rest h
  simp only [resultsOf, exampleSuite, res, Result.material] at h
  by_cases h1 : "t1" = id
  · subst h1; obtain ⟨rfl, rfl⟩ := List.cons.inj h.symm; decide
  · by_cases h2 : "t2" = id
    · subst h2; obtain ⟨rfl, rfl⟩ := List.cons.inj h.symm; decide
    · by_cases h3 : "t3" = id
      · subst h3; obtain ⟨rfl, rfl⟩ := List.cons.inj h.symm; decide
      · by_cases h4 : "t4" = id
        · subst h4; obtain ⟨rfl, rfl⟩ := List.cons.inj h.symm; decide
        · simp [h1, h2, h3, h4] at h

/-- Without the condition on attempt numbers it is false both ways. When a worker is run again, its results are again
of attempt 1: a test that passed and then fails is counted as failed. A test whose first result is of a later attempt
(its first attempt having crashed the native runner) is not counted as failed although it only ever failed. -/
theorem C41_full_statement_fails :
    (∃ h, unresolved h = [] ∧ (∀ id, failedAlways (resultsOf h id) = false) ∧ (summarise h).exitCode = 1) ∧
    (∃ h, unresolved h = [] ∧ (∃ id, failedAlways (resultsOf h id) = true) ∧ (summarise h).exitCode = 0) := by
  refine ⟨⟨[res 1 1 "t" .success, res 1 1 "t" .failure], by decide, ?_, by decide⟩,
    ⟨[res 1 1 "?" .nativeRunnerError, res 2 1 "t" .failure], by decide, ⟨"t", by decide⟩, by decide⟩⟩
  intro id
  by_cases h : "t" = id
  · subst h; decide
  · simp [resultsOf, res, h, failedAlways]

/-- A test whose native runner crashes in each of two attempts is counted twice. -/
theorem C41_crashes_counted_each :
    (summarise [res 1 1 "?" .nativeRunnerError, res 1 1 "?" .nativeRunnerError]).count = 2 := by decide

/-- The order in which the hash maps are traversed does not matter to the metrics. -/
theorem C41_any_order (l l' : List TestStatus) (h : l.Perm l') : aggregate l = aggregate l' := aggregate_perm h

example : [newStatus (res 1 1 "a" .failure) (.alwaysFailed false), newStatus (res 1 1 "b" .failure) (.alwaysFailed true)].Perm
    [newStatus (res 1 1 "b" .failure) (.alwaysFailed true), newStatus (res 1 1 "a" .failure) (.alwaysFailed false)] :=
  List.Perm.swap _ _ _

/-! ## C42 -/

/-- **C42**. Whatever was called before, a summary is the one computed from scratch from the results accounted so
far. -/
theorem C42_never_stale (cs : List Call) :
    (calls (cs ++ [.suiteResult])).2 = (calls cs).2 ++ [summarise (accounted cs)] := by
  obtain ⟨c, hc, hv⟩ := cinv cs
  have : calls (cs ++ [.suiteResult]) = call (calls cs) .suiteResult := by simp [calls]
  rw [this]
  show (calls cs).2 ++ [(calls cs).1.suiteResult.1] = _
  rw [hc, (suiteResult_cached _ c (tinv _).cached hv).1]
  rfl

/-- Summaries asked for between results; one of them between two results of the same number of tests. -/
example :
    (calls [.suiteResult, .account (res 1 1 "t" .failure), .suiteResult, .account (res 2 1 "t" .success), .suiteResult]).2.map
      (fun s => (s.exitCode, s.count, s.testsRetried)) = [(0, 0, 0), (1, 1, 0), (0, 1, 1)] := by decide

/-! ## C64 -/

/-- **C64**, the numbers. For each runner and file, the summary gives the number of tests that failed (were retried)
among those first run by that runner and in that file. -/
theorem C64_per_file (h : List Result) (ids : List String) (hi : TestsOf h ids) (runner : Runner) (file : String)
    (s : RunnerSummary) (hs : s ∈ (summarise h).runnerSummaries) (hr : s.runner = runner) :
    numberOf file s.failuresPerFile
      = ids.countP (fun id => failedTest (resultsOf h id) && firstAt runner file (resultsOf h id)) ∧
    numberOf file s.retriesPerFile
      = ids.countP (fun id => decide (2 ≤ (resultsOf h id).length) && firstAt runner file (resultsOf h id)) := by
  have hp := statuses_perm h ids hi
  obtain ⟨ho, -, hat⟩ := foldl_countRunner (h.foldl Tracker.account .new).statuses [] List.Pairwise.nil
  rw [summarise_eq] at hs
  dsimp only at hs
  have hsum : summaryOf runner ((h.foldl Tracker.account .new).statuses.foldl (fun ss s => countRunner s ss) [])
      = some s := by
    revert hs ho
    generalize (h.foldl Tracker.account .new).statuses.foldl (fun ss s => countRunner s ss) [] = l
    intro hs ho
    unfold summaryOf
    clear hat
    induction l with
    | nil => simp at hs
    | cons a l ih =>
      unfold Ordered at ho
      rw [List.pairwise_cons] at ho
      rcases List.mem_cons.1 hs with rfl | hs
      · rw [List.find?_cons_of_pos (by simpa using hr)]
      · have hlt := ho.1 s hs
        have : a.runner ≠ runner := by
          intro e; rw [hr, e, lt_irrefl] at hlt; simp at hlt
        rw [List.find?_cons_of_neg (by simpa using this)]
        exact ih hs ho.2
  have hfirst : ∀ id ∈ ids, ((statusOf (resultsOf h id)).runner == runner && (statusOf (resultsOf h id)).file == some file)
      = firstAt runner file (resultsOf h id) := by
    intro id hid
    have hne := (hi.2 id).1 hid
    revert hne
    cases resultsOf h id with
    | nil => intro hne; exact absurd rfl hne
    | cons r rest => intro _; rw [statusOf_cons]; rfl
  have hf := hat (fun s => numberOf file s.failuresPerFile) (failsAt file) (fun s t => count_failures s t file)
    (fun _ => rfl) runner
  have hrt := hat (fun s => numberOf file s.retriesPerFile) (retriesAt file) (fun s t => count_retries s t file)
    (fun _ => rfl) runner
  simp only [at', hsum] at hf hrt
  constructor
  · rw [hf, hp.countP_eq, List.countP_append,
      unresolved_newStatus h (fun t => t.runner == runner && failsAt file t) false
        (fun _ => by simp [failsAt, newStatus]), List.countP_map]
    have : summaryOf runner [] = none := rfl
    simp only [this, Nat.zero_add, Bool.false_eq_true, if_false, Nat.add_zero]
    apply List.countP_congr
    intro id hid
    rw [← hfirst id hid, ← isAF_statusOf]
    have hni : (statusOf (resultsOf h id)).tag ≠ .alwaysFailed true := by
      rw [statusOf_tag]; exact tagOf_not_internal _
    unfold failsAt isAF
    dsimp only [Function.comp]
    revert hni
    cases (statusOf (resultsOf h id)).tag with
    | alwaysFailed b => cases b <;> simp
    | _ => simp
  · rw [hrt, hp.countP_eq, List.countP_append,
      unresolved_newStatus h (fun t => t.runner == runner && retriesAt file t) false
        (fun _ => by simp [retriesAt, newStatus]), List.countP_map]
    have : summaryOf runner [] = none := rfl
    simp only [this, Nat.zero_add, Bool.false_eq_true, if_false, Nat.add_zero]
    apply List.countP_congr
    intro id hid
    rw [← hfirst id hid, ← statusOf_retried]
    unfold retriesAt
    dsimp only [Function.comp]
    simp only [Bool.and_eq_true]
    grind

/-- **C64**, the runners. The summaries are ordered by runner, one for each runner that was the first to run some test
or had a crash that was not run again. -/
theorem C64_runners (h : List Result) :
    (summarise h).runnerSummaries.Pairwise (fun a b => a.runner.1 < b.runner.1 ∨ (a.runner.1 = b.runner.1 ∧ a.runner.2 < b.runner.2)) ∧
    ∀ runner, (∃ s ∈ (summarise h).runnerSummaries, s.runner = runner) ↔
      (∃ id r, (resultsOf h id).head? = some r ∧ r.runner = runner) ∨ ∃ r ∈ unresolved h, r.runner = runner := by
  obtain ⟨ids, hi⟩ := exists_testsOf h
  have hp := statuses_perm h ids hi
  obtain ⟨ho, hm, -⟩ := foldl_countRunner (h.foldl Tracker.account .new).statuses [] List.Pairwise.nil
  rw [summarise_eq]
  dsimp only
  constructor
  · refine List.Pairwise.imp ?_ ho
    intro a b hab
    simpa [Runner.lt] using hab
  · intro runner
    rw [← List.mem_map, hm, (hp.map (·.runner)).mem_iff]
    simp only [List.map_append, List.mem_append, List.map_map, List.mem_map, List.map_nil, List.not_mem_nil, or_false]
    apply or_congr
    · constructor
      · rintro ⟨id, hid, e⟩
        have hne := (hi.2 id).1 hid
        refine ⟨id, ?_⟩
        revert hne e
        dsimp only [Function.comp]
        cases resultsOf h id with
        | nil => intro _ hne; exact absurd rfl hne
        | cons r rest => intro e _; rw [statusOf_cons] at e; exact ⟨r, rfl, e⟩
      · rintro ⟨id, r, hr, e⟩
        refine ⟨id, (hi.2 id).2 (by intro h0; rw [h0] at hr; simp at hr), ?_⟩
        dsimp only [Function.comp]
        revert hr
        cases resultsOf h id with
        | nil => intro hr; simp at hr
        | cons r' rest =>
          intro hr
          have : r' = r := by simpa using hr
          rw [statusOf_cons, this]; exact e
    · constructor
      · rintro ⟨r, hr, e⟩; exact ⟨r, hr, e⟩
      · rintro ⟨r, hr, e⟩; exact ⟨r, hr, e⟩

example : (summarise [⟨1, 1, "a", .failure, 0, some "x", (1, 1)⟩, ⟨1, 2, "b", .failure, 0, some "y", (0, 2)⟩,
    ⟨2, 1, "a", .failure, 0, some "x", (0, 2)⟩, ⟨1, 3, "c", .failure, 0, some "y", (0, 2)⟩]).runnerSummaries
    = [⟨(0, 2), [("y", 2)], []⟩, ⟨(1, 1), [("x", 1)], [("x", 1)]⟩] := by decide

end Abq.Props
