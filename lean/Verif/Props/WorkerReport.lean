import Verif.Proof.WorkerReport
import Verif.Props.Summary

/-!
# C80, C81: the reports and the exit code of a worker
-/

namespace Abq.Props
open Abq Abq.WorkerReport
open Abq.Report (Group TestResult Reporter Event pushes history)

/-! ## C80 -/

/-- **C80**, if every test has a result. When the reporting task has finished, each reporter was told every result its
runners sent, once and in the order sent, with the output before and after its test, whatever the reporters answered; and
then that there are no more. -/
theorem C80_told_everything_partial (rs : List Reporter) (n : Nat) (acts : List Act)
    (suite : Summary.SuiteResult) (reporters : List Reporter)
    (h : ((Sys.init rs n).run acts).state = .finished suite reporters) :
    Told rs reporters (pushes (sentBy n acts) ++ [.afterAll]) := by
  rw [← sent_eq rs]
  have hi := inv_run rs n acts
  unfold WorkerReport.Inv at hi
  rw [h] at hi
  rw [Told, hi.2.2.1]
  simp [Reporter.gotAll]

/-- **C80**. The numbers and the exit code are those of all results sent. -/
theorem C80_summary_partial (rs : List Reporter) (n : Nat) (acts : List Act)
    (suite : Summary.SuiteResult) (reporters : List Reporter)
    (h : ((Sys.init rs n).run acts).state = .finished suite reporters) :
    suite = Summary.summarise (history (sentBy n acts)) := by
  rw [← sent_eq rs]
  have hi := inv_run rs n acts
  unfold WorkerReport.Inv at hi
  rw [h] at hi
  exact hi.2.2.2

/-- **C80**. Nothing is sent after the task finished: all runners had ended. -/
theorem C80_finished_last_partial (rs : List Reporter) (n : Nat) (acts : List Act)
    (suite : Summary.SuiteResult) (reporters : List Reporter)
    (h : ((Sys.init rs n).run acts).state = .finished suite reporters) : AllQuit n acts := by
  rw [← live_eq rs]
  have hi := inv_run rs n acts
  unfold WorkerReport.Inv at hi
  rw [h] at hi
  exact hi.1

/-- **C80**. If every test sent has a result, the task does not panic. -/
theorem C80_no_panic_partial (rs : List Reporter) (n : Nat) (acts : List Act)
    (h : ∀ g ∈ sentBy n acts, g.results ≠ []) : ((Sys.init rs n).run acts).state ≠ .panicked := by
  rw [← sent_eq rs] at h
  intro e
  have hi := inv_run rs n acts
  unfold WorkerReport.Inv at hi
  rw [e] at hi
  obtain ⟨g, hg, he⟩ := hi
  exact h g hg he

/-- **C80**. If every test sent has a result, the task finishes once all runners have ended. -/
theorem C80_finishes_partial (rs : List Reporter) (n : Nat) (acts : List Act)
    (h : ∀ g ∈ sentBy n acts, g.results ≠ []) (hl : AllQuit n acts) :
    ∃ k suite reporters, ((Sys.init rs n).run (acts ++ List.replicate k .task)).state = .finished suite reporters := by
  have hp := C80_no_panic_partial rs n acts h
  rw [← sent_eq rs] at h
  rw [← live_eq rs] at hl
  have hrun : ∀ k, (Sys.init rs n).run (acts ++ List.replicate k .task) =
      ((Sys.init rs n).run acts).run (List.replicate k .task) := fun k => by simp [Sys.run, List.foldl_append]
  have hi := inv_run rs n acts
  unfold WorkerReport.Inv at hi
  cases hst : ((Sys.init rs n).run acts).state with
  | panicked => exact (hp hst).elim
  | finished suite reporters => exact ⟨0, suite, reporters, by rw [hrun]; exact hst⟩
  | working t =>
    rw [hst] at hi
    obtain ⟨done, h1, -⟩ := hi
    obtain ⟨suite, reporters, e1, -⟩ := task_turns _ hl _ (Nat.lt_succ_self _) t hst fun g hg =>
      h g (by rw [h1]; exact List.mem_append_right _ hg)
    exact ⟨_, suite, reporters, by rw [hrun]; exact e1⟩

/-- A test with a passing result. -/
def workerGroup (w : Nat) : Group := ⟨w, 1, [⟨"t", .success, 1, none, (0, 1), 0⟩], "before", none⟩

/-- Two runners, one test each; the second is sent while the first is worked on. -/
def workerActs : List Act :=
  [.send 1 [workerGroup 1], .task, .send 2 [workerGroup 2], .quit 1, .quit 2]

example : (∀ g ∈ sentBy 2 workerActs, g.results ≠ []) ∧ AllQuit 2 workerActs ∧
    sentBy 2 workerActs = [workerGroup 1, workerGroup 2] := by
  refine ⟨?_, ?_, rfl⟩
  · intro g hg
    have : sentBy 2 workerActs = [workerGroup 1, workerGroup 2] := rfl
    rw [this] at hg
    simp only [List.mem_cons, List.not_mem_nil, or_false] at hg
    rcases hg with rfl | rfl <;> simp [workerGroup]
  · intro r h1 h2
    rcases (by omega : r = 1 ∨ r = 2) with rfl | rfl <;> simp [workerActs]

/-- A native runner may answer a test with no results. The reporting task then panics: no reporter is told of that test or of any
result sent later, and `abq test` exits with 101 whatever the results. -/
theorem C80_full_statement_fails (rs : List Reporter) (n : Nat) (w : Nat) (later : List Act) (pool : Pool.Status) :
    ((Sys.init rs (n + 1)).run (.send 1 [⟨w, 1, [], "", none⟩] :: .task :: later)).state = .panicked ∧
    ((Sys.init rs (n + 1)).run (.send 1 [⟨w, 1, [], "", none⟩] :: .task :: later)).exitCode pool = some 101 := by
  have h : ∀ acts (s : Sys), s.state = .panicked → (s.run acts).state = .panicked := by
    intro acts
    induction acts with
    | nil => exact fun s hs => hs
    | cons a acts ih =>
      intro s hs
      refine ih _ ?_
      cases a with
      | send r gs => simp only [Sys.step]; split <;> exact hs
      | quit r => exact hs
      | task => simp only [Sys.step, hs]
  have key : ((Sys.init rs (n + 1)).run (.send 1 [⟨w, 1, [], "", none⟩] :: .task :: later)).state = .panicked := by
    refine h later ((Sys.init rs (n + 1)).run [.send 1 [⟨w, 1, [], "", none⟩], .task]) ?_
    have hm : ((List.range (n + 1)).map (· + 1)).contains 1 = true := by
      simp only [List.contains_iff_mem, List.mem_map, List.mem_range]
      exact ⟨0, by omega, rfl⟩
    simp [Sys.run, Sys.init, Sys.step, hm, State.turn, Task.handleAll, Task.handle]
  exact ⟨key, by simp only [Sys.exitCode, key]⟩

/-- **C80**. At the end each reporter is told so, even if another one answers with an error. -/
theorem C80_all_finished (rs : List Reporter) :
    Told rs (finishAll rs).1 [.finish] ∧ ((finishAll rs).2 = 0 ↔ ∀ r ∈ rs, r.refuses r.log .finish = false) := by
  refine ⟨?_, ?_⟩
  · simp [Told, finishAll, tellAll, Reporter.got]
  · simp [finishAll, List.countP_eq_zero]

/-! ## C81 -/

/-- **C81**. `abq test` exits with 0 exactly if no runner ended with an error or (in the runner whose code counts, see C43) with
a positive code, no test failed and no crash of a native runner was left without a result. -/
theorem C81_exit_zero (rs : List Reporter) (n : Nat) (acts : List Act) (pool : Pool.Status) :
    ((Sys.init rs n).run acts).exitCode pool = some 0 ↔
      (∃ suite reporters, ((Sys.init rs n).run acts).state = .finished suite reporters) ∧
      (∃ c, pool = .completed c ∧ c ≤ 0) ∧
      Summary.unresolved (history (sentBy n acts)) = [] ∧
      ∀ id, Summary.failedTest (Summary.resultsOf (history (sentBy n acts)) id) = false := by
  rw [← (C41_exit_code _).2.2]
  unfold Sys.exitCode
  cases hs : ((Sys.init rs n).run acts).state with
  | working t => simp
  | panicked => simp
  | finished suite reporters =>
    have hsu := C80_summary_partial rs n acts suite reporters hs
    rw [hsu]
    cases pool with
    | error es => simp [Pool.processExitCode]
    | completed c =>
      simp only [Pool.processExitCode, Option.some.injEq, State.finished.injEq, exists_and_left]
      constructor
      · intro h
        exact ⟨⟨_, rfl, _, rfl⟩, ⟨c, rfl, by omega⟩, by omega⟩
      · rintro ⟨-, ⟨c', e, hc⟩, h0⟩
        cases e
        rw [h0]; omega

/-- **C81**. An error of a runner gives 101, whatever the results. -/
theorem C81_error_code (s : Sys) (es : List String) (c : Int) (h : s.exitCode (.error es) = some c) : c = 101 := by
  unfold Sys.exitCode at h
  cases hs : s.state with
  | working t => simp [hs] at h
  | panicked => simp [hs] at h; omega
  | finished suite reporters => simp [hs, Pool.processExitCode] at h; omega

example : ((Sys.init [] 2).run (workerActs ++ [.task, .task])).exitCode (.completed 0) = some 0 ∧
    ((Sys.init [] 2).run (workerActs ++ [.task, .task])).exitCode (.error ["crash"]) = some 101 := by
  constructor <;> decide

end Abq.Props
