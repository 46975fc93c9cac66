import Verif.Proof.Replay
import Verif.Props.AllRuns

/-!
# C84: replaying a run

With a personal access token `abq test` replays a run: it runs the tests again but must not change the run.
-/

namespace Abq.Props
open Abq Abq.Runs Abq.Spec Abq.Replay
variable {T : Type}

/-- C84: with a personal access token, and only with one, a worker sends everything but results. -/
theorem C84_sends_no_results (k : Option TokenKind) (m : Msg T) :
    (modeOf k).sends m = true ↔ (k = some .personal → ∀ e, m ≠ .results e) := by
  cases k with
  | none => cases m <;> simp [modeOf, Mode.sends]
  | some k => cases k <;> cases m <;> simp [modeOf, Mode.sends]

/-- If the report of a run is available, the run is over and nobody works on it. -/
theorem report_available (past : List (RunsAct T)) (rid : RunId)
    (hread : ((init : Runs T).run (past ++ [.request rid .readCell])).events =
      ((init : Runs T).run past).events ++ [.read rid .readFromCell]) :
    ∃ x md seen m h, ((init : Runs T).run past).get rid = some (.done x md seen m h) ∧ (∀ p ∈ flags seen, p.2 = false) ∧
      ((init : Runs T).run past).readLocked rid = false := by
  have hb := base_run past rid
  simp only [run_append] at *
  generalize (init : Runs T).run past = σ at *
  obtain ⟨x, md, seen, m, h, hσ, hoff⟩ : ∃ x md seen m h, σ.get rid = some (.done x md seen m h) ∧
      ∀ p ∈ flags seen, p.2 = false := by
    have e0 : σ.step (.request rid .readCell) = σ.apply rid (reqEff rid (σ.get rid) .readCell) := by
      simp [step, Req.writes]
    have e1 : (reqEff rid (σ.get rid) .readCell).evs = [Event.read rid .readFromCell] := by
      have e2 : (σ.step (.request rid .readCell)).events = σ.events ++ [.read rid .readFromCell] := hread
      rw [e0] at e2
      exact List.append_cancel_left e2
    cases hg : σ.get rid with
    | none => rw [hg] at e1; simp [reqEff] at e1
    | some s =>
      rw [hg] at e1
      have e3 : s.readCell = .readFromCell := by
        have : [Event.read (T := T) rid s.readCell] = [Event.read rid .readFromCell] := e1
        injection this with h1
        injection h1
      cases s with
      | waiting => cases e3
      | hasWork => cases e3
      | cancelled r => cases r <;> cases e3
      | done x md seen m h =>
        refine ⟨x, md, seen, m, h, rfl, ?_⟩
        have e4 : (if (((flags seen).filter (·.2)).map (·.1)).isEmpty then ReadAns.readFromCell
          else .inProgress (((flags seen).filter (·.2)).map (·.1))) = .readFromCell := by
          rw [← active_flags]; exact e3
        split at e4
        · rename_i h1
          rw [List.isEmpty_iff, List.map_eq_nil_iff, List.filter_eq_nil_iff] at h1
          intro p hp
          simpa using h1 p hp
        · cases e4
  have hl : σ.readLocked rid = false := by
    rw [readLocked, List.any_eq_false]
    intro p hp hh
    rw [Bool.and_eq_true, beq_iff_eq] at hh
    have h1 : p ∈ (proj σ rid).ps := by
      simp only [proj, List.mem_filter]
      exact ⟨hp, by simpa using hh.1⟩
    have h2 := hb.ps p h1
    have h3 : (proj σ rid).s = some (.done x md seen m h) := hσ
    rw [h3] at h2
    cases p <;> simp [Pending.reads] at hh
    exact h2
  exact ⟨x, md, seen, m, h, hσ, hoff, hl⟩

/-- C84 (partial): let the report of a run be available. Then a replay of the run by runners that took part in it, with any
number of workers and requests in any order, leaves no trace once its runners have ended, by running all the tests or by
cancellation, and its requests have been answered: whatever happens later gives the same answers, the same counts and the same
stored data as if the replay had not taken place. Missing: a run still in progress, a replay that is killed, runners that took no
part in the run but do not leave (`C84_full_statement_fails`). -/
theorem C84_unchanged_partial (past : List (RunsAct T)) (rid : RunId)
    (hread : ((init : Runs T).run (past ++ [.request rid .readCell])).events =
      ((init : Runs T).run past).events ++ [.read rid .readFromCell])
    (replay : List (RunsAct T)) (hr : ∀ a ∈ replay, Replay.Act ((init : Runs T).run past) rid a)
    (hend : ∀ t, lastWord rid t replay ≠ some true)
    (hans : ((init : Runs T).run (past ++ replay)).pending.length = ((init : Runs T).run past).pending.length)
    (later : List (RunsAct T)) :
    (∃ evs, ((init : Runs T).run (past ++ later)).events = ((init : Runs T).run past).events ++ evs ∧
      ((init : Runs T).run (past ++ replay ++ later)).events = ((init : Runs T).run (past ++ replay)).events ++ evs) ∧
    ((init : Runs T).run (past ++ replay ++ later)).estimateNumActiveRuns =
      ((init : Runs T).run (past ++ later)).estimateNumActiveRuns ∧
    ((init : Runs T).run (past ++ replay ++ later)).store = ((init : Runs T).run (past ++ later)).store ∧
    ((init : Runs T).run (past ++ replay ++ later)).remote = ((init : Runs T).run (past ++ later)).remote := by
  have hn := numActive_lt past
  obtain ⟨x, md, seen, m, h, hσ, hoff, hl⟩ := report_available past rid hread
  simp only [run_append] at *
  generalize (init : Runs T).run past = σ at *
  have hd := during_run hσ hl hn replay hr
  obtain ⟨seen', hg', hc⟩ := hd.state
  obtain ⟨extra, he, -⟩ := hd.pending
  have hx : extra = [] := by
    rw [he, List.length_append] at hans
    exact List.length_eq_zero_iff.1 (by omega)
  have ht : Twins σ (σ.run replay) := by
    refine ⟨by rw [he, hx, List.append_nil], hd.numActive.symm, hd.store.symm, hd.remote.symm, fun r => ?_⟩
    by_cases hrr : r = rid
    · rw [hrr, hg', hσ]
      exact .done _ _ _ _ _ _ (changed_ended hc hend hoff).symm
    · rw [hd.others r hrr]
      exact .refl _
  obtain ⟨h1, evs, h2, h3⟩ := twins_run ht later
  exact ⟨⟨evs, h2, h3⟩, h1.numActive.symm, h1.store.symm, h1.remote.symm⟩

/-- C84: also while a replay of a run whose report was available is going on, every other request, for this or any run, is
answered as if there were no replay, except those for the report and the status of the run. -/
theorem C84_during (past : List (RunsAct T)) (rid : RunId)
    (hread : ((init : Runs T).run (past ++ [.request rid .readCell])).events =
      ((init : Runs T).run past).events ++ [.read rid .readFromCell])
    (replay : List (RunsAct T)) (hr : ∀ a ∈ replay, Replay.Act ((init : Runs T).run past) rid a)
    (r : RunId) (q : Req T) (hq : r = rid → q ≠ .readCell ∧ q ≠ .status) :
    Spec.answer ((init : Runs T).run (past ++ replay)) r q = Spec.answer ((init : Runs T).run past) r q := by
  have hn := numActive_lt past
  obtain ⟨x, md, seen, m, h, hσ, hoff, hl⟩ := report_available past rid hread
  simp only [run_append] at *
  generalize (init : Runs T).run past = σ at *
  have hd := during_run hσ hl hn replay hr
  obtain ⟨seen', hg', hc⟩ := hd.state
  obtain ⟨extra, he, hi⟩ := hd.pending
  have hlock : (σ.run replay).readLocked r = σ.readLocked r := by
    have hx : extra.any (fun p => p.rid == r && p.reads) = false := by
      rw [List.any_eq_false]
      intro p hp
      have := hi p hp
      cases p <;> simp_all [Inert, Pending.reads]
    rw [readLocked, he, List.any_append, hx, Bool.or_false]
    rfl
  have hev : ∀ τ : Runs T, Spec.answer τ r q =
      if q.writes && τ.readLocked r then [] else (reqEff r (τ.get r) q).evs := by
    intro τ
    simp only [Spec.answer, step]
    split <;> simp [apply]
  rw [hev, hev, hlock]
  split
  · rfl
  · by_cases hrr : r = rid
    · obtain ⟨h1, h2⟩ := hq hrr
      rw [hrr, hg', hσ]
      cases q with
      | readCell => exact (h1 rfl).elim
      | status => exact (h2 rfl).elim
      | initMetadata e =>
        have hce : seen'.containsByTag e = seen.containsByTag e := by
          have e1 : ∀ l : List (Tag × Bool), l.any (fun p => p.1 == e.tag) = (l.map (·.1)).any (· == e.tag) := fun l => by
            simp [List.any_map, Function.comp_def]
          rw [contains_flags, contains_flags, e1, e1, hc.tags]
        have e1 : ∀ w : WorkerSet Bool, RunState.initMetadata (T := T) (.done x md w m h) e =
          if w.containsByTag e then (.done x md (w.insertByTag e true).1 m h, .metadata md)
          else (.done x md w m h, .alreadyCompleted false) := fun w => rfl
        show [Event.initMeta rid e (RunState.initMetadata _ e).2] = [Event.initMeta rid e (RunState.initMetadata _ e).2]
        rw [e1, e1, hce]
        split <;> rfl
      | retryManifest e =>
        cases m with
        | emptyManifest => rfl
        | cell v => cases v <;> rfl
      | _ => rfl
    · rw [hd.others r hrr]

/-! ## An example -/

/-- The sample run, all of whose runners have finished. -/
def replayed : List (RunsAct Nat) :=
  Sample.persisted ++ [.request "run" (.complete (Sample.w 1) 1), .request "run" (.complete (Sample.w 2) 1)]

/-- Worker 1 on another machine. -/
def replayer : Entity := ⟨100, .runner ⟨1, 1⟩⟩

/-- It replays what worker 1 ran. -/
def replayMsgs : List (Msg Nat) :=
  [.attach ⟨"run", replayer, ⟨1, by decide⟩, .byTest, "cmd"⟩, .initContext replayer, .retryManifest replayer, .nextTests replayer,
   .ranAllTests replayer 7]

/-- And its requests are answered. -/
def replaySchedule : List (RunsAct Nat) :=
  replayMsgs.map (Msg.act "run") ++ [.resume 1 .notFound true, .resume 1 .notFound true]

theorem replayer_tookPart : TookPart ((init : Runs Nat).run replayed) "run" replayer :=
  ⟨_, _, _, _, _, rfl, _, List.mem_cons_self, rfl⟩

/-- It meets the hypotheses of `C84_unchanged_partial`, and it is answered: it learns from the manifest in storage what to run. -/
example : ((init : Runs Nat).run (replayed ++ [.request "run" .readCell])).events =
      ((init : Runs Nat).run replayed).events ++ [.read "run" .readFromCell] ∧
    (∀ a ∈ replaySchedule, Replay.Act ((init : Runs Nat).run replayed) "run" a) ∧
    (∀ t, lastWord "run" t replaySchedule ≠ some true) ∧
    ((init : Runs Nat).run (replayed ++ replaySchedule)).pending.length = ((init : Runs Nat).run replayed).pending.length ∧
    ((init : Runs Nat).run (replayed ++ replaySchedule)).events = ((init : Runs Nat).run replayed).events ++
      [.initMeta "run" replayer (.metadata "md"), .retry "run" replayer .fetchFromPersistence, .work "run" replayer [] true,
       .complete "run" replayer, .joined ⟨"run", replayer, ⟨1, by decide⟩, .byTest, "cmd"⟩ (.retry false),
       .delivered "run" replayer [] true] := by
  refine ⟨rfl, ?_, ?_, rfl, rfl⟩
  · intro a ha
    rcases List.mem_append.1 ha with ha | ha
    · obtain ⟨ms, hms, rfl⟩ := List.mem_map.1 ha
      refine .msg ms ?_ ?_
      · exact (by decide : ∀ ms ∈ replayMsgs, Mode.readonly.sends ms = true) ms hms
      · simp only [replayMsgs, List.mem_cons, List.not_mem_nil, or_false] at hms
        rcases hms with rfl | rfl | rfl | rfl | rfl
        · rfl
        · trivial
        · exact replayer_tookPart
        · exact replayer_tookPart
        · exact replayer_tookPart
    · simp only [List.mem_cons, List.not_mem_nil, or_false, or_self] at ha
      subst ha
      exact .resume 1 .notFound true (by decide)
  · intro t
    simp only [replaySchedule, replayMsgs, List.map, Msg.act, List.cons_append, List.nil_append, lastWord, word]
    by_cases h : replayer.tag = t <;> simp [h]

/-! ## Where it changes the run -/

/-- C84, the full statement is false of the code, in four ways, in each of which the replaying worker sends no results:
a replay of a run in progress takes tests from the queue, and the worker that would have run them gets none; a replay of a
finished run that is killed leaves its report unavailable; cancelling a replay cancels a run in progress; a replay of a run that
does not exist creates it, and other workers wait for its manifest. -/
theorem C84_full_statement_fails :
    (handedTo "run" (Sample.w 1).tag ((init : Runs Nat).run (Sample.serving ++ [.request "run" (.nextWork (Sample.w 1))])).events =
        [⟨10, 1⟩] ∧
      ((init : Runs Nat).run (Sample.serving ++ [Msg.act "run" (.nextTests replayer), .resume 1 .notFound true,
          Msg.act "run" (.nextTests replayer), .resume 2 .notFound true, .resume 2 .notFound true,
          .request "run" (.nextWork (Sample.w 1))])).events.getLast? = some (.work "run" (Sample.w 1) [] true)) ∧
    (((init : Runs Nat).run (replayed ++ [.request "run" .readCell])).events.getLast? = some (.read "run" .readFromCell) ∧
      ((init : Runs Nat).run (replayed ++ [Msg.act "run" (.initContext replayer), .request "run" .readCell])).events.getLast? =
        some (.read "run" (.inProgress [(Sample.w 1).tag]))) ∧
    (phaseOf ((init : Runs Nat).run Sample.serving) "run" = some .serving ∧
      phaseOf ((init : Runs Nat).run (Sample.serving ++ [Msg.act "run" (.cancel replayer)])) "run" = some .cancelled) ∧
    (((init : Runs Nat).run [.join (Sample.jp 1), .resume 0 .notFound true]).events =
        [.joined (Sample.jp 1) (.fresh true false)] ∧
      ((init : Runs Nat).run [Msg.act "run" (.attach ⟨"run", replayer, ⟨1, by decide⟩, .byTest, "cmd"⟩), .resume 0 .notFound true,
          .join (Sample.jp 1), .resume 1 .notFound true]).events.getLast? = some (.joined (Sample.jp 1) (.fresh false false))) := by
  refine ⟨⟨rfl, rfl⟩, ⟨rfl, rfl⟩, ⟨rfl, rfl⟩, rfl, rfl⟩

end Abq.Props
