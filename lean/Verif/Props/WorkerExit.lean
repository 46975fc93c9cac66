import Verif.Proof.WorkerExit
import Verif.Props.Pool

/-!
# C109: the end of `abq test`
-/

namespace Abq.Props
open Abq.WorkerExit Abq.Spec.WorkerExit Abq.Pool
open Abq.Summary (SuiteResult)

section
variable (push : String → String → Option String) (specs : Nat → WorkerExit.Spec) (blank : Nat → Bool) (a : Args)
  (joined : List Joined) (reporting : WorkerReport.State) (ok : Nat → Bool) (replies : List Hosted.Reply)

/-- **C109.** However the hosted API answers and whatever becomes of what is printed: if `abq test` comes to its regular end, it is
with the code the tests and runners gave it, 101 if a runner ended with an error. -/
theorem C109_exit_code (c : Int)
    (h : (doShutdown push specs blank a joined reporting ok replies).2 = .exited c) :
    ∃ suite reporters, reporting = .finished suite reporters ∧ Joined.panicked ∉ joined ∧
      c = (if messages joined = [] then max (suite.exitCode : Int) ((codes joined).getLastD 0) else 101) := by
  unfold doShutdown at h
  have hp : Joined.panicked ∉ joined := by
    intro hp; rw [C62_panic joined hp] at h; cases h
  cases reporting with
  | working t => split at h <;> cases h
  | panicked => split at h <;> cases h
  | finished suite reporters =>
    obtain ⟨x, h1, h2, h3⟩ := C62_process_exit_code joined hp suite.exitCode
    rw [h1] at h
    dsimp only at h
    refine ⟨suite, reporters, rfl, hp, ?_⟩
    split at h
    · cases h
    split at h
    · cases h
    dsimp only at h
    split at h
    · cases h
      split
      · next he => exact (h3 he).2
      · next he => exact h2 he
    · cases h

/-- **C109.** It does come to its end if the runners and the reporting task did, what it prints is taken, and two requests of the
hosted API do not hang: an error, whatever it is, will do. -/
theorem C109_ends_partial (suite : SuiteResult) (reporters : List Report.Reporter) (hp : Joined.panicked ∉ joined)
    (hr : reporting = .finished suite reporters) (hw : ∀ n, ok n = true) (ha : 2 ≤ replies.length) :
    (doShutdown push specs blank a joined reporting ok replies).2 =
      .exited (if messages joined = [] then max (suite.exitCode : Int) ((codes joined).getLastD 0) else 101) := by
  subst hr
  obtain ⟨x, h1, h2, h3⟩ := C62_process_exit_code joined hp suite.exitCode
  unfold doShutdown
  rw [h1]
  simp only [writes_ok ok hw, Bool.not_true, Bool.false_eq_true, if_false]
  have ht : (record push specs a x.nativeRunnerInfo replies).2 = true := by
    rcases record_cases push specs a x.nativeRunnerInfo replies with h | ⟨_, _, _, _, _, _, _, h⟩
    · rw [h]
    · rw [h]; exact (try_count replies).2.2 ha
  rw [ht, if_pos rfl]
  split
  · next he => rw [(h3 he).2]
  · next he => rw [h2 he]

/-- **C109.** Without an access token, for a queue of one's own, or if no native runner came up, it ends whatever the API does: it
is not asked. -/
theorem C109_ends_without_api (suite : SuiteResult) (reporters : List Report.Reporter) (hp : Joined.panicked ∉ joined)
    (hr : reporting = .finished suite reporters) (hw : ∀ n, ok n = true)
    (ha : a.record = false ∨ a.accessToken = none ∨ ∀ j ∈ joined, infoOf j = none) :
    (doShutdown push specs blank a joined reporting ok replies).2 =
      .exited (if messages joined = [] then max (suite.exitCode : Int) ((codes joined).getLastD 0) else 101) ∧
    requests (doShutdown push specs blank a joined reporting ok replies).1 = [] := by
  subst hr
  obtain ⟨x, h1, h2, h3⟩ := C62_process_exit_code joined hp suite.exitCode
  obtain ⟨x', h1', -, -, hi⟩ := C62_outputs joined hp
  cases h1.symm.trans h1'
  have ht : record push specs a x.nativeRunnerInfo replies = ([], true) := by
    rcases record_cases push specs a x.nativeRunnerInfo replies with h | ⟨_, _, _, r1, r2, r3, _, h⟩
    · exact h
    · rcases ha with ha | ha | ha
      · rw [ha] at r1; cases r1
      · rw [ha] at r2; cases r2
      · rw [hi, List.findSome?_eq_none_iff.2 ha] at r3; cases r3
  unfold doShutdown
  rw [h1]
  simp only [writes_ok ok hw, Bool.not_true, Bool.false_eq_true, if_false, ht, if_true]
  refine ⟨?_, ?_⟩
  · split
    · next he => rw [(h3 he).2]
    · next he => rw [h2 he]
  · rw [requests_append]
    show requests _ ++ requests (_ ++ []) = []
    rw [requests_append]
    have := requests_writes ok
    simp only [writes_ok ok hw] at this
    simp only [Prod.forall, List.append_eq_nil_iff]
    exact ⟨this _ 0, this _ 0, rfl⟩

/-- **C109.** Requests are made only for a queue that is remote to it, with an access token, when a native runner is known; all are
the same, with the run's id and what is known of the first such runner. They come last. There are at most two, the second if and
only if the first was answered with a status that does not mean success. -/
theorem C109_requests :
    ∃ before n, (doShutdown push specs blank a joined reporting ok replies).1 = before ++ n ∧ requests before = [] ∧
      (n = [] ∨ ∃ token i url,
        a.record = true ∧ a.accessToken = some token ∧ joined.findSome? infoOf = some i ∧
        push a.apiUrl "record_test_run" = some url ∧
        timesFinished before = 1 ∧
        ∃ k, n = List.replicate k (.request ⟨url, token, a.runId, specs i⟩) ∧ (k = 1 ∨ k = 2) ∧
          (k = 2 ↔ ∃ code rest, replies = .status code :: rest ∧ ¬ Success code)) := by
  have nothing : ∀ evs : List Ev, requests evs = [] → ∃ before n, evs = before ++ n ∧ requests before = [] ∧
      (n = [] ∨ ∃ token i url,
        a.record = true ∧ a.accessToken = some token ∧ joined.findSome? infoOf = some i ∧
        push a.apiUrl "record_test_run" = some url ∧
        timesFinished before = 1 ∧
        ∃ k, n = List.replicate k (.request ⟨url, token, a.runId, specs i⟩) ∧ (k = 1 ∨ k = 2) ∧
          (k = 2 ↔ ∃ code rest, replies = .status code :: rest ∧ ¬ Success code)) :=
    fun evs h => ⟨evs, [], (List.append_nil _).symm, h, .inl rfl⟩
  unfold doShutdown
  by_cases hp : Joined.panicked ∈ joined
  · rw [C62_panic joined hp]; exact nothing [] rfl
  obtain ⟨x, h1, -, -, hi⟩ := C62_outputs joined hp
  rw [h1]
  dsimp only
  cases reporting with
  | working t => exact nothing [] rfl
  | panicked => exact nothing [] rfl
  | finished suite reporters =>
    dsimp only
    split
    · exact nothing _ (requests_writes ok _ _)
    split
    · refine nothing _ ?_
      rw [requests_append, requests_finished, requests_writes, requests_writes]; rfl
    dsimp only
    rcases record_cases push specs a x.nativeRunnerInfo replies with h | ⟨token, i, url, r1, r2, r3, r4, h⟩
    · refine nothing _ ?_
      rw [h, List.append_nil, requests_append, requests_finished, requests_writes, requests_writes]; rfl
    · rw [← List.cons_append, ← List.append_assoc]
      refine ⟨_, _, rfl, ?_, .inr ⟨token, i, url, r1, r2, by rw [← hi, r3], r4, ?_, _, by rw [h], (try_count replies).1,
        (try_count replies).2.1⟩⟩
      · rw [requests_append, requests_finished, requests_writes, requests_writes]; rfl
      · rw [timesFinished_append, timesFinished_finished, timesFinished_writes, timesFinished_writes]

/-- **C109.** When what is printed is taken: the reporters are finished once; the output of each runner that wrote any is printed
under its header, in the order of the runners, unless the runner wrote it to the terminal itself; the summary is printed if no
runner ended with an error or some test was run, then also how to run it again, if a replay is possible; every error of a runner is
printed, every failure of a reporter, and the output of generating the manifest that the pool kept, unless blank. This holds
whatever the API does. -/
theorem C109_printed (suite : SuiteResult) (reporters : List Report.Reporter) (hp : Joined.panicked ∉ joined)
    (hr : reporting = .finished suite reporters) (hw : ∀ n, ok n = true) :
    ∃ evs, (doShutdown push specs blank a joined reporting ok replies).1 = evs ∧
      timesFinished evs = 1 ∧
      outputs (pieces evs) =
        (if a.pipes then [] else (joined.mapIdx fun i j => (i + 1, outputOf j)).filter fun o => !o.2.isEmpty) ∧
      (∀ s, .summary s ∈ pieces evs ↔ s = suite ∧ (messages joined = [] ∨ 0 < suite.count)) ∧
      (∀ r w n, .replayHint r w n ∈ pieces evs ↔ (messages joined = [] ∨ 0 < suite.count) ∧ a.mode = .writeNormal ∧
        a.remote = true ∧ r = a.runId ∧ w = a.worker ∧ n = a.runners) ∧
      workerErrors (pieces evs) = messages joined ∧
      (∀ i, .reporterError i ∈ pieces evs ↔ ∃ r, reporters[i]? = some r ∧ r.refuses r.log .finish = true) ∧
      (∀ o, .manifestOutput o ∈ pieces evs ↔
        ∃ x k, shutdown joined = some x ∧ x.manifestOutput = some (k, o) ∧ ∃ b ∈ o, blank b = false) := by
  subst hr
  refine ⟨_, rfl, ?_⟩
  obtain ⟨x, h1, he, hc⟩ := C62_errors joined hp
  obtain ⟨x', h1', ho, -, -⟩ := C62_outputs joined hp
  cases h1.symm.trans h1'
  unfold doShutdown
  rw [h1]
  simp only [writes_ok ok hw, Bool.not_true, Bool.false_eq_true, if_false]
  obtain ⟨hr1, hr2⟩ := pieces_record push specs a x.nativeRunnerInfo replies
  have hP : pieces ((manifestWrites blank x.manifestOutput ++ outputWrites a.pipes x.processOutputs).map
        (fun w => Ev.printed w.piece) ++
      .finished (WorkerReport.finishAll reporters).1 ::
        ((errorWrites reporters ++ summaryWrites a x.status suite ++ workerErrorWrites x.status).map
          (fun w => Ev.printed w.piece) ++ (record push specs a x.nativeRunnerInfo replies).1)) =
      (manifestWrites blank x.manifestOutput).map (·.piece) ++ ((outputWrites a.pipes x.processOutputs).map (·.piece) ++
      ((errorWrites reporters).map (·.piece) ++ ((summaryWrites a x.status suite).map (·.piece) ++
        (workerErrorWrites x.status).map (·.piece)))) := by
    rw [pieces_append, pieces_finished, pieces_append, pieces_printed, pieces_printed, hr1]
    simp only [List.map_append, List.append_assoc, List.append_nil]
  have hF : timesFinished ((manifestWrites blank x.manifestOutput ++ outputWrites a.pipes x.processOutputs).map
        (fun w => Ev.printed w.piece) ++
      .finished (WorkerReport.finishAll reporters).1 ::
        ((errorWrites reporters ++ summaryWrites a x.status suite ++ workerErrorWrites x.status).map
          (fun w => Ev.printed w.piece) ++ (record push specs a x.nativeRunnerInfo replies).1)) = 1 := by
    have hz := fun ws => timesFinished_writes ok ws 0
    simp only [writes_ok ok hw] at hz
    rw [timesFinished_append, timesFinished_finished, timesFinished_append, hz, hz, hr2]
  rw [hP]
  refine ⟨hF, ?_⟩
  have hM : ∀ p, p ∈ (manifestWrites blank x.manifestOutput).map (·.piece) ↔
      ∃ k o, x.manifestOutput = some (k, o) ∧ o.all blank = false ∧ p = .manifestOutput o := by
    intro p
    simp only [List.mem_map, manifestWrites_piece]
    constructor
    · rintro ⟨w, ⟨k, o, a1, a2, rfl⟩, rfl⟩; exact ⟨k, o, a1, a2, rfl⟩
    · rintro ⟨k, o, a1, a2, rfl⟩; exact ⟨_, ⟨k, o, a1, a2, rfl⟩, rfl⟩
  have hO : ∀ p, p ∈ (outputWrites a.pipes x.processOutputs).map (·.piece) → (∃ k, p = .header k) ∨ ∃ o, p = .output o := by
    intro p hp
    obtain ⟨w, hw, rfl⟩ := List.mem_map.1 hp
    exact outputWrites_piece _ _ w hw
  have hE : ∀ p, p ∈ (errorWrites reporters).map (·.piece) ↔
      ∃ i r, reporters[i]? = some r ∧ r.refuses r.log .finish = true ∧ p = .reporterError i := by
    intro p
    simp only [List.mem_map, errorWrites_piece]
    constructor
    · rintro ⟨w, ⟨k, o, a1, a2, rfl⟩, rfl⟩; exact ⟨k, o, a1, a2, rfl⟩
    · rintro ⟨k, o, a1, a2, rfl⟩; exact ⟨_, ⟨k, o, a1, a2, rfl⟩, rfl⟩
  have hW : (workerErrorWrites x.status).map (·.piece) = (messages joined).map Piece.workerError := by
    by_cases hm : messages joined = []
    · obtain ⟨c, hc⟩ := hc hm
      rw [hc, hm]; rfl
    · rw [he hm]
      simp only [workerErrorWrites, List.map_map]; rfl
  have hS : (summaryWrites a x.status suite).map (·.piece) =
      (if messages joined = [] ∨ 0 < suite.count then
        Piece.summary suite :: (if a.mode = .writeNormal ∧ a.remote = true then [.replayHint a.runId a.worker a.runners] else [])
      else []) := by
    by_cases hm : messages joined = []
    · obtain ⟨c, hc⟩ := hc hm
      rw [hc, summaryWrites, if_pos (show (messages joined = [] ∨ 0 < suite.count) from .inl hm)]
      simp only [Bool.true_or, if_true, List.map_cons, List.cons.injEq, true_and]
      by_cases hn : a.mode = .writeNormal ∧ a.remote = true
      · rw [if_pos hn, if_pos (by simp [hn.1, hn.2])]; rfl
      · rw [if_neg hn, if_neg (by simpa using hn)]; rfl
    · rw [he hm, summaryWrites]
      simp only [hm, Bool.false_or, decide_eq_true_eq, false_or, gt_iff_lt]
      by_cases hs : 0 < suite.count
      · rw [if_pos hs, if_pos hs]
        simp only [List.map_cons, List.cons.injEq, true_and]
        by_cases hn : a.mode = .writeNormal ∧ a.remote = true
        · rw [if_pos hn, if_pos (by simp [hn.1, hn.2])]; rfl
        · rw [if_neg hn, if_neg (by simpa using hn)]; rfl
      · rw [if_neg hs, if_neg hs]; rfl
  rw [hW, hS]
  refine ⟨?_, ?_, ?_, ?_, ?_, ?_⟩
  · rw [outputs_skip_all _ _ (by intro p hp; obtain ⟨_, _, _, _, rfl⟩ := (hM p).1 hp; trivial)]
    have hrest : outputs ((errorWrites reporters).map (·.piece) ++ ((if messages joined = [] ∨ 0 < suite.count then
        Piece.summary suite :: (if a.mode = .writeNormal ∧ a.remote = true then [.replayHint a.runId a.worker a.runners] else [])
      else []) ++ (messages joined).map Piece.workerError)) = [] := by
      rw [outputs_skip_all _ _ (by intro p hp; obtain ⟨_, _, _, _, rfl⟩ := (hE p).1 hp; trivial)]
      rw [outputs_skip_all _ _ (by
        intro p hp
        split at hp
        · rcases List.mem_cons.1 hp with rfl | hp
          · trivial
          · split at hp
            · rw [List.mem_singleton] at hp; rw [hp]; trivial
            · cases hp
        · cases hp)]
      have := outputs_skip_all ((messages joined).map Piece.workerError) [] (by
        intro p hp; obtain ⟨_, _, rfl⟩ := List.mem_map.1 hp; trivial)
      rw [List.append_nil] at this
      rw [this]; rfl
    cases hpi : a.pipes
    · rw [outputs_writes, hrest, ho, List.append_nil]; rfl
    · rw [outputs_writes_pipes, List.map_nil, List.nil_append, hrest]; rfl
  · intro s
    simp only [List.mem_append, hM, hE, List.mem_map]
    constructor
    · rintro (⟨_, _, _, _, h⟩ | h | ⟨_, _, _, _, h⟩ | h | ⟨_, _, h⟩)
      · cases h
      · obtain ⟨_, h⟩ | ⟨_, h⟩ := hO _ (List.mem_map.2 h) <;> cases h
      · cases h
      · split at h
        · next hc =>
          rcases List.mem_cons.1 h with h | h
          · cases h; exact ⟨rfl, hc⟩
          · split at h
            · rw [List.mem_singleton] at h; cases h
            · cases h
        · cases h
      · cases h
    · rintro ⟨rfl, hc⟩
      rw [if_pos hc]
      exact .inr (.inr (.inr (.inl List.mem_cons_self)))
  · intro r w n
    simp only [List.mem_append, hM, hE, List.mem_map]
    constructor
    · rintro (⟨_, _, _, _, h⟩ | h | ⟨_, _, _, _, h⟩ | h | ⟨_, _, h⟩)
      · cases h
      · obtain ⟨_, h⟩ | ⟨_, h⟩ := hO _ (List.mem_map.2 h) <;> cases h
      · cases h
      · split at h
        · next hc =>
          rcases List.mem_cons.1 h with h | h
          · cases h
          · split at h
            · next hn => rw [List.mem_singleton] at h; cases h; exact ⟨hc, hn.1, hn.2, rfl, rfl, rfl⟩
            · cases h
        · cases h
      · cases h
    · rintro ⟨hc, h1, h2, rfl, rfl, rfl⟩
      rw [if_pos hc, if_pos ⟨h1, h2⟩]
      exact .inr (.inr (.inr (.inl (List.mem_cons_of_mem _ List.mem_cons_self))))
  · unfold workerErrors
    rw [List.filterMap_append, List.filterMap_append, List.filterMap_append, List.filterMap_append]
    rw [List.filterMap_eq_nil_iff.2 (by intro p hp; obtain ⟨_, _, _, _, rfl⟩ := (hM p).1 hp; rfl)]
    rw [List.filterMap_eq_nil_iff.2 (by intro p hp; obtain ⟨_, rfl⟩ | ⟨_, rfl⟩ := hO p hp <;> rfl)]
    rw [List.filterMap_eq_nil_iff.2 (by intro p hp; obtain ⟨_, _, _, _, rfl⟩ := (hE p).1 hp; rfl)]
    rw [List.filterMap_eq_nil_iff.2 (by
        intro p hp
        split at hp
        · rcases List.mem_cons.1 hp with rfl | hp
          · rfl
          · split at hp
            · rw [List.mem_singleton] at hp; rw [hp]
            · cases hp
        · cases hp)]
    rw [List.filterMap_map]
    exact List.filterMap_some
  · intro i
    simp only [List.mem_append, hM, hE, List.mem_map]
    constructor
    · rintro (⟨_, _, _, _, h⟩ | h | ⟨_, r, h1, h2, h⟩ | h | ⟨_, _, h⟩)
      · cases h
      · obtain ⟨_, h⟩ | ⟨_, h⟩ := hO _ (List.mem_map.2 h) <;> cases h
      · cases h; exact ⟨r, h1, h2⟩
      · split at h
        · rcases List.mem_cons.1 h with h | h
          · cases h
          · split at h
            · rw [List.mem_singleton] at h; cases h
            · cases h
        · cases h
      · cases h
    · rintro ⟨r, h1, h2⟩
      exact .inr (.inr (.inl ⟨i, r, h1, h2, rfl⟩))
  · intro o
    simp only [List.mem_append, hM, hE, List.mem_map]
    constructor
    · rintro (⟨k, o', h1', h2, h⟩ | h | ⟨_, r, _, _, h⟩ | h | ⟨_, _, h⟩)
      · cases h
        refine ⟨x, k, rfl, h1', ?_⟩
        rw [List.all_eq_false] at h2
        obtain ⟨b, hb, hn⟩ := h2
        exact ⟨b, hb, by simpa using hn⟩
      · obtain ⟨_, h⟩ | ⟨_, h⟩ := hO _ (List.mem_map.2 h) <;> cases h
      · cases h
      · split at h
        · rcases List.mem_cons.1 h with h | h
          · cases h
          · split at h
            · rw [List.mem_singleton] at h; cases h
            · cases h
        · cases h
      · cases h
    · rintro ⟨x', k, hx, hk, b, hb, hn⟩
      cases hx
      exact .inl ⟨k, o, hk, List.all_eq_false.2 ⟨b, hb, by simp [hn]⟩, rfl⟩

/-- **C109** fails otherwise: if nothing can be printed and a runner has output to print, `abq test` panics, and the reporters, also
those that write files, are not finished. -/
theorem C109_closed_output (suite : SuiteResult) (reporters : List Report.Reporter)
    (hr : reporting = .finished suite reporters) (hw : ∀ n, ok n = false) (hn : a.pipes = false)
    (ho : ∃ j ∈ joined, outputOf j ≠ []) :
    (doShutdown push specs blank a joined reporting ok replies).2 = .panicked ∧
    timesFinished (doShutdown push specs blank a joined reporting ok replies).1 = 0 := by
  subst hr
  unfold doShutdown
  by_cases hp : Joined.panicked ∈ joined
  · rw [C62_panic joined hp]; exact ⟨rfl, rfl⟩
  obtain ⟨x, h1, hx, -, -⟩ := C62_outputs joined hp
  rw [h1]
  dsimp only
  rw [writes_fail ok hw]
  · exact ⟨rfl, timesFinished_writes ok _ _⟩
  · obtain ⟨j, hj, hne⟩ := ho
    obtain ⟨i, hi, rfl⟩ := List.getElem_of_mem hj
    refine ⟨⟨.header (i + 1), true⟩, List.mem_append_right _ (List.mem_flatMap.2 ⟨(i + 1, outputOf joined[i]), ?_, ?_⟩), rfl⟩
    · rw [hx, List.mem_mapIdx]; exact ⟨i, hi, rfl⟩
    · simp [hn, hne]

end

/-- A run of two runners that passed, for a remote queue, recorded. -/
def exitArgs : Args := ⟨"https://api", some "token", "run", true, true, .writeNormal, 0, 2, false⟩

def exitRunners : List Joined :=
  [.ok ⟨0, some [104], ([], []), [104, 105], some 3⟩, .ok ⟨0, some [32, 104], ([], []), [], some 3⟩]

def exitSuite : SuiteResult := ⟨0, 2, 0, 0, 10, []⟩

def exitSpec : Nat → WorkerExit.Spec := fun _ => ⟨"rspec", "1", "ruby"⟩

/-- **C109** in full is false: with an API that never answers `abq test` does not end, though every test was run, reported and
passed. -/
theorem C109_full_statement_fails :
    ¬ ∀ (a : Args) (joined : List Joined) (suite : SuiteResult) (reporters : List Report.Reporter) (replies : List Hosted.Reply),
      Joined.panicked ∉ joined →
      ∃ c, (doShutdown (fun b s => some (b ++ "/" ++ s)) exitSpec (· == 32) a joined (.finished suite reporters) (fun _ => true)
        replies).2 = .exited c := by
  intro h
  obtain ⟨c, h⟩ := h exitArgs exitRunners exitSuite [] [] (by decide)
  have : (doShutdown (fun b s => some (b ++ "/" ++ s)) exitSpec (· == 32) exitArgs exitRunners (.finished exitSuite [])
      (fun _ => true) []).2 = .waiting := by rfl
  rw [this] at h
  cases h

example : (doShutdown (fun b s => some (b ++ "/" ++ s)) exitSpec (· == 32) exitArgs exitRunners (.finished exitSuite [])
    (fun _ => true) [.status 500, .transport]).2 = .exited 0 := by rfl
example : pieces (doShutdown (fun b s => some (b ++ "/" ++ s)) exitSpec (· == 32) exitArgs exitRunners (.finished exitSuite [])
    (fun _ => true) [.status 500, .transport]).1 =
    [.manifestOutput [32, 104], .header 1, .output [104, 105], .summary exitSuite, .replayHint "run" 0 2] := by rfl
example : (requests (doShutdown (fun b s => some (b ++ "/" ++ s)) exitSpec (· == 32) exitArgs exitRunners
    (.finished exitSuite []) (fun _ => true) [.status 500, .transport]).1).length = 2 := by rfl
example : (requests (doShutdown (fun b s => some (b ++ "/" ++ s)) exitSpec (· == 32) exitArgs exitRunners
    (.finished exitSuite []) (fun _ => true) [.status 204]).1).length = 1 := by rfl
example : (doShutdown (fun b s => some (b ++ "/" ++ s)) exitSpec (· == 32) exitArgs exitRunners (.finished exitSuite [])
    (fun _ => false) []).2 = .panicked := by rfl
example : (doShutdown (fun b s => some (b ++ "/" ++ s)) exitSpec (· == 32) exitArgs
    [.err ⟨"boom", ([], []), none⟩] (.finished { exitSuite with count := 0 } []) (fun _ => true) []).2 = .exited 101 := by rfl

end Abq.Props
