import Verif.Proof.Retries

/-!
# Retries in the worker (C25, C26, C58)

`Legals max start cs` are the call sequences of a worker: any slicing of the manifest, any batching of the
results, any moment at which retries are asked for, any outcomes.
-/

namespace Abq.Props
open Abq.Retries Abq.Retries.Spec

/-- **C25.** Whatever came before, the tracker does not panic; asking it for retries gives nothing while
results are outstanding, and else the tests that failed on all attempts so far, in the order of the
manifest, numbered as the next attempt. -/
theorem C25_retries_are_the_tests_that_always_failed (max : Nat) (hmax : 1 ≤ max) (cs : List Call)
    (h : Legals max start (cs ++ [.assemble])) :
    ∃ t, runCalls (Tracker.new max) cs = some t ∧
      t.assemble.2.map (fun b => (b.work.map (·.spec.workId), b.eow)) = answer max (after max cs) ∧
      ∀ b, t.assemble.2 = some b → b.eow = false →
        b.work.map (fun w => (w.spec.workId, w.spec.case, w.runNumber)) =
          (toRetry (after max cs)).map (fun s => (s.workId, s.case, (after max cs).attempt + 1)) := by
  have hsplit : ∀ (cs : List Call) (h0 : Hist), Legals max h0 (cs ++ [.assemble]) →
      Legals max h0 cs ∧ Legal (cs.foldl (next max) h0) .assemble := by
    intro cs
    induction cs with
    | nil => intro h0 hl; exact ⟨trivial, hl.1⟩
    | cons c cs ih =>
      intro h0 hl
      obtain ⟨h1, h2⟩ := ih _ hl.2
      exact ⟨⟨hl.1, h1⟩, h2⟩
  obtain ⟨h1, h2⟩ := hsplit cs start h
  obtain ⟨t, ht, s⟩ := sim_run cs (sim_start max hmax) h1
  exact ⟨t, ht, (sim_assemble s h2).2⟩

/-- A test without a failure on some attempt is in no later batch of retries. -/
theorem C25_passed_tests_are_not_retried (max : Nat) (hmax : 1 ≤ max) (cs : List Call)
    (h : Legals max start (cs ++ [.assemble])) (t : Tracker)
    (ht : runCalls (Tracker.new max) cs = some t) (b : Bundle) (hb : t.assemble.2 = some b)
    (w : WorkerTest) (hw : w ∈ b.work) (j : Nat) (hj : 1 ≤ j) (hjw : j < w.runNumber) :
    ∃ r ∈ (after max cs).log, r.workId = w.spec.workId ∧ r.runNumber = j ∧
      ∃ x ∈ r.results, x.failed = true := by
  obtain ⟨t', ht', hans, hwork⟩ := C25_retries_are_the_tests_that_always_failed max hmax cs h
  obtain rfl : t' = t := Option.some.inj (ht'.symm.trans ht)
  cases heow : b.eow with
  | true =>
    rw [hb] at hans
    have h2 := hans.symm
    unfold answer at h2
    split at h2
    · simp at h2; rw [h2.1] at hw; simp at hw
    · split at h2
      · simp only [Option.map_some, Option.some.injEq, Prod.mk.injEq, heow] at h2
        have hr : toRetry (after max cs) = [] := by simpa using h2.2
        rw [hr] at h2
        have hnil : b.work = [] := by simpa using h2.1.symm
        simp [hnil] at hw
      · simp at h2
  | false =>
    have hm : (w.spec.workId, w.spec.case, w.runNumber) ∈
        b.work.map (fun w => (w.spec.workId, w.spec.case, w.runNumber)) := List.mem_map.mpr ⟨w, hw, rfl⟩
    rw [hwork b hb heow, List.mem_map] at hm
    obtain ⟨sp, hsp, heq⟩ := hm
    simp only [Prod.mk.injEq] at heq
    simp only [toRetry, List.mem_filter, alwaysFailed, List.all_eq_true, List.mem_range] at hsp
    have hf := hsp.2 (j - 1) (by omega)
    simp only [failedOn, List.any_eq_true, Bool.and_eq_true, beq_iff_eq] at hf
    obtain ⟨r, hr, ⟨h1, h2⟩, h3⟩ := hf
    exact ⟨r, hr, by rw [h1, heq.1], by omega, h3⟩

/-- **C26.** The `i`-th batch of retries consists of different tests, all at attempt `i + 2`, and that is
at most the maximum: a test is attempted at most `max` times. -/
theorem C26_attempts_are_bounded (max : Nat) (hmax : 1 ≤ max) (cs : List Call)
    (h : Legals max start cs) (i : Nat) (hi : i < (given (Tracker.new max) cs).length) :
    i + 2 ≤ max ∧ ((given (Tracker.new max) cs)[i].map (·.spec.workId)).Nodup ∧
      ∀ w ∈ (given (Tracker.new max) cs)[i], w.runNumber = i + 2 := by
  have := goodFrom_get _ (given_good cs (sim_start max hmax) h) i hi
  have e : start.attempt + 1 + i = i + 2 := by simp [start]; omega
  rw [e] at this
  exact this

/-- **C26.** Once the results of the tests handed out are known, asking for retries gives retries or, when
the attempts are used up or some attempt of each test did not fail, the end of work. -/
theorem C26_end_of_work_comes (max : Nat) (hmax : 1 ≤ max) (cs : List Call)
    (h : Legals max start (cs ++ [.assemble])) (hdone : (after max cs).todo = []) :
    ∃ t b, runCalls (Tracker.new max) cs = some t ∧ t.assemble.2 = some b ∧
      (b.eow = true ↔ b.work = []) ∧
      (b.eow = true ↔ (after max cs).attempt = max ∨
        ∀ s ∈ (after max cs).manifest, ∃ j, 1 ≤ j ∧ j ≤ (after max cs).attempt ∧
          failedOn (after max cs).log s.workId j = false) := by
  obtain ⟨t, ht, hans, hwork⟩ := C25_retries_are_the_tests_that_always_failed max hmax cs h
  have hret : toRetry (after max cs) = [] ↔ ∀ s ∈ (after max cs).manifest, ∃ j, 1 ≤ j ∧
      j ≤ (after max cs).attempt ∧ failedOn (after max cs).log s.workId j = false := by
    simp only [toRetry, List.filter_eq_nil_iff]
    constructor
    · intro hh s hs
      have := hh s hs
      simp only [alwaysFailed, List.all_eq_true, List.mem_range] at this
      refine Classical.byContradiction fun hc => this ?_
      intro j hj
      cases hf : failedOn (after max cs).log s.workId (j + 1) with
      | true => rfl
      | false => exact absurd ⟨j + 1, by omega, by omega, hf⟩ hc
    · intro hh s hs hall
      obtain ⟨j, h1, h2, h3⟩ := hh s hs
      simp only [alwaysFailed, List.all_eq_true, List.mem_range] at hall
      have := hall (j - 1) (by omega)
      rw [show j - 1 + 1 = j by omega, h3] at this
      cases this
  unfold answer at hans
  by_cases hm : (after max cs).attempt = max
  · rw [if_pos hm] at hans
    cases hb : t.assemble.2 with
    | none => simp [hb] at hans
    | some b =>
      simp only [hb, Option.map_some, Option.some.injEq, Prod.mk.injEq, List.map_eq_nil_iff] at hans
      exact ⟨t, b, ht, hb, by simp [hans.1, hans.2], by simp [hans.2, hm]⟩
  · rw [if_neg hm, if_pos hdone] at hans
    cases hb : t.assemble.2 with
    | none => simp [hb] at hans
    | some b =>
      simp only [hb, Option.map_some, Option.some.injEq, Prod.mk.injEq] at hans
      refine ⟨t, b, ht, hb, ?_, ?_⟩
      · rw [hans.2]
        constructor
        · intro he
          have : toRetry (after max cs) = [] := by simpa using he
          simpa [this] using hans.1
        · intro he
          have := hans.1
          simp only [he, List.map_nil] at this
          simpa using this.symm
      · rw [hans.2, List.isEmpty_iff, hret]
        simp [hm]

/-- **C58, partial.** Each test that is retried is narrowed, and precisely to the first failure reported by each of its
attempts. Missing: the other failures of an attempt. -/
theorem C58_retries_focus_on_failures_partial (max : Nat) (hmax : 1 ≤ max) (cs : List Call)
    (h : Legals max start (cs ++ [.assemble])) (t : Tracker)
    (ht : runCalls (Tracker.new max) cs = some t) (b : Bundle) (hb : t.assemble.2 = some b)
    (w : WorkerTest) (hw : w ∈ b.work) :
    (∃ x, focused w.spec x) ∧
    ∀ x, focused w.spec x ↔ ∃ r ∈ (after max cs).log, r.workId = w.spec.workId ∧
      ∃ pre y post, r.results = pre ++ y :: post ∧ (∀ z ∈ pre, z.failed = false) ∧ y.failed = true ∧ y.id = x := by
  have hsplit : ∀ (cs : List Call) (h0 : Hist), Legals max h0 (cs ++ [.assemble]) → Legals max h0 cs := by
    intro cs
    induction cs with
    | nil => intro h0 _; trivial
    | cons c cs ih => intro h0 hl; exact ⟨hl.1, ih _ hl.2⟩
  have hl := hsplit cs start h
  obtain ⟨t', ht', s⟩ := sim_run cs (sim_start max hmax) hl
  obtain rfl : t' = t := Option.some.inj (ht'.symm.trans ht)
  have f := foc_run cs (sim_start max hmax) (by intro e he; simp [Tracker.new] at he) hl ht
  obtain ⟨e, he, hes, hst⟩ := assemble_work_mem hb w hw
  obtain ⟨f1, f2⟩ := f e he
  have hfoc : ∀ x, focused w.spec x ↔ x ∈ focusIds e.spec := by
    intro x
    rw [hes]
    unfold focused focusIds
    cases w.spec.focus <;> simp
  have hpos := s.pos
  have hstreak : streak (after max cs).log e.spec.workId (after max cs).attempt = (after max cs).attempt := by
    have h1 := s.status e he
    rw [hst, s.cur] at h1
    change Status.alwaysFailedOn (after max cs).attempt =
      statusOf (streak (after max cs).log e.spec.workId (after max cs).attempt) at h1
    cases hk : streak (after max cs).log e.spec.workId (after max cs).attempt with
    | zero => rw [hk] at h1; cases h1
    | succ k => rw [hk] at h1; simp only [statusOf, Status.alwaysFailedOn.injEq] at h1; exact h1.symm
  have f2' : ∀ r ∈ (after max cs).log, r.workId = e.spec.workId →
      ∀ y, r.results.find? (fun x => x.failed) = some y → y.id ∈ focusIds e.spec := by
    intro r hr hri
    have hrr := s.logRun r hr
    change r.runNumber ≤ (after max cs).attempt at hrr
    exact f2 r hr hri (by change _ ≤ streak (after max cs).log _ (after max cs).attempt; omega)
  rw [← hes]
  refine ⟨?_, ?_⟩
  · have haf := (streak_eq_iff _ _ _).mp hstreak
    simp only [alwaysFailed, List.all_eq_true, List.mem_range] at haf
    have h0 := haf 0 (by change 1 ≤ (after max cs).attempt at hpos; omega)
    simp only [failedOn, List.any_eq_true, Bool.and_eq_true, beq_iff_eq] at h0
    obtain ⟨r, hr, ⟨h1, -⟩, x, hx, hxf⟩ := h0
    cases hfind : r.results.find? (fun x => x.failed) with
    | none => exact absurd hxf (by simpa using List.find?_eq_none.mp hfind x hx)
    | some y => exact ⟨y.id, by rw [hes, hfoc]; exact f2' r hr h1 y hfind⟩
  · intro x
    rw [hes, hfoc, ← hes]
    constructor
    · intro hx
      obtain ⟨r, hr, hri, y, hy, hyx⟩ := f1 x hx
      obtain ⟨hyf, pre, post, hsp, hpre⟩ := List.find?_eq_some_iff_append.1 hy
      exact ⟨r, hr, hri, pre, y, post, hsp, fun z hz => by simpa using hpre z hz, hyf, hyx⟩
    · rintro ⟨r, hr, hri, pre, y, post, hsp, hpre, hyf, rfl⟩
      exact f2' r hr hri y (List.find?_eq_some_iff_append.2 ⟨hyf, pre, post, hsp, fun z hz => by simpa using hpre z hz⟩)

/-! ## A run of three attempts -/

def threeTests : List WorkerTest := [⟨⟨10, 1, none⟩, 1⟩, ⟨⟨11, 2, none⟩, 1⟩, ⟨⟨12, 3, none⟩, 1⟩]

def threeAttempts : List Call :=
  [.hydrate (threeTests.take 2) false, .account [⟨10, 1, [⟨100, true⟩, ⟨101, true⟩]⟩],
    .hydrate (threeTests.drop 2) true, .assemble, .account [⟨11, 1, [⟨110, false⟩]⟩, ⟨12, 1, [⟨120, true⟩]⟩],
    .assemble, .account [⟨10, 2, [⟨100, true⟩]⟩], .account [⟨12, 2, [⟨120, false⟩]⟩]]

theorem threeAttempts_legal : Legals 4 start (threeAttempts ++ [.assemble]) := by
  simp [threeAttempts, threeTests, Legals, Legal, next, start, answer, toRetry, alwaysFailed, failedOn,
    List.range_succ]

example : (after 4 threeAttempts).todo = [] ∧ (after 4 threeAttempts).attempt = 2 ∧
    answer 4 (after 4 threeAttempts) = some ([10], false) := by decide

example : given (Tracker.new 4) (threeAttempts ++ [.assemble]) =
    [[⟨⟨10, 1, some [100]⟩, 2⟩, ⟨⟨12, 3, some [120]⟩, 2⟩], [⟨⟨10, 1, some [100]⟩, 3⟩]] := by decide

/-- **C58 as stated fails**: the first piece of work failed on the tests 100 and 101 in its first attempt,
and the second attempt is narrowed to 100. -/
theorem C58_full_statement_fails :
    ∃ max cs t b w r y, 1 ≤ max ∧ Legals max start (cs ++ [.assemble]) ∧
      runCalls (Tracker.new max) cs = some t ∧ t.assemble.2 = some b ∧ w ∈ b.work ∧
      r ∈ (after max cs).log ∧ r.workId = w.spec.workId ∧ r.runNumber + 1 = w.runNumber ∧
      y ∈ r.results ∧ y.failed = true ∧ ¬ focused w.spec y.id := by
  refine ⟨2, [.hydrate [⟨⟨10, 1, none⟩, 1⟩] true, .account [⟨10, 1, [⟨100, true⟩, ⟨101, true⟩]⟩]], _, _,
    ⟨⟨10, 1, some [100]⟩, 2⟩, ⟨10, 1, [⟨100, true⟩, ⟨101, true⟩]⟩, ⟨101, true⟩, by decide, ?_, rfl, rfl,
    by decide, by decide, by decide, by decide, by decide, by decide, ?_⟩
  · simp [Legals, Legal, next, start]
  · rintro ⟨l, hl, hm⟩
    cases hl
    simp at hm

end Abq.Props
