import Verif.Props.AllRunsJoin

/-!
# C14, C15, C54, C56: the count of active runs, progress timers, no panics
-/

namespace Abq.Props
open Abq Runs Spec WorkerSet
variable {T : Type}

/-! ## C14 -/

/-- C14: for every history, the estimate differs from the number of active runs by the
decrements still to be executed (upwards) and by the number of cancellations of runs that were
cancelled already (downwards), modulo 2^64. -/
theorem C14_count_exact (acts : List (RunsAct T)) :
    (((init : Runs T).run acts).estimateNumActiveRuns + repeatedCancellations (init : Runs T) acts) % 2 ^ 64 =
      (activeRuns ((init : Runs T).run acts) + pendingSubs ((init : Runs T).run acts)) % 2 ^ 64 :=
  (counter_run acts).eq

/-- C14 (partial): the estimate is the number of active runs plus the number of transitions out
of activity whose decrement is still to be executed. Missing: histories in which a run that is
cancelled already is cancelled again, for which the statement is false
(`C14_full_statement_fails`). -/
theorem C14_count_of_active_runs_partial (acts : List (RunsAct T))
    (hrep : repeatedCancellations (init : Runs T) acts = 0)
    (hfew : activeRuns ((init : Runs T).run acts) + pendingSubs ((init : Runs T).run acts) < 2 ^ 64) :
    ((init : Runs T).run acts).estimateNumActiveRuns =
      activeRuns ((init : Runs T).run acts) + pendingSubs ((init : Runs T).run acts) := by
  have h := C14_count_exact acts (T := T)
  have hb : ((init : Runs T).run acts).estimateNumActiveRuns < 2 ^ 64 := (counter_run acts).bound
  rw [hrep, Nat.add_zero, Nat.mod_eq_of_lt hfew, Nat.mod_eq_of_lt hb] at h
  exact h

theorem lookup_of_mem {l : List (RunId × RunState T)} (h : (l.map Prod.fst).Nodup)
    {p : RunId × RunState T} (hp : p ∈ l) : List.lookup p.1 l = some p.2 := by
  induction l with
  | nil => cases hp
  | cons q l ih =>
    obtain ⟨k, v⟩ := q
    rw [List.map_cons, List.nodup_cons] at h
    rw [List.lookup_cons]
    rcases List.mem_cons.1 hp with rfl | hp
    · simp
    · have : p.1 ≠ k := by
        intro hk
        exact h.1 (List.mem_map.2 ⟨p, hp, hk⟩)
      have : (p.1 == k) = false := by simpa using this
      rw [this]
      exact ih h.2 hp

theorem mem_of_lookup {l : List (RunId × RunState T)} {rid : RunId} {s : RunState T}
    (h : List.lookup rid l = some s) : (rid, s) ∈ l := by
  induction l with
  | nil => cases h
  | cons q l ih =>
    obtain ⟨k, v⟩ := q
    rw [List.lookup_cons] at h
    split at h
    · rename_i hk
      have : rid = k := by simpa using hk
      cases h
      rw [this]
      exact List.mem_cons_self
    · exact List.mem_cons_of_mem _ (ih h)

/-- C14 (partial): when nobody cancels a cancelled run, and no decrement is outstanding, the queue
reports itself drained exactly when no run is waiting for its manifest or serving tests. -/
theorem C14_drained_partial (acts : List (RunsAct T))
    (hrep : repeatedCancellations (init : Runs T) acts = 0)
    (hsub : pendingSubs ((init : Runs T).run acts) = 0)
    (hfew : activeRuns ((init : Runs T).run acts) < 2 ^ 64) :
    ((init : Runs T).run acts).isDrained = true ↔
      ∀ rid p, phaseOf ((init : Runs T).run acts) rid = some p → p = .exhausted ∨ p = .cancelled := by
  have h := C14_count_of_active_runs_partial acts hrep (by omega)
  rw [hsub, Nat.add_zero] at h
  have hk := (counter_run acts (T := T)).keys
  unfold isDrained
  rw [h, beq_iff_eq]
  unfold activeRuns
  rw [List.countP_eq_zero]
  constructor
  · intro hall rid p hp
    obtain ⟨s, hs, hph⟩ := phaseOf_some hp
    have := hall _ (mem_of_lookup hs)
    simp only [activeRun, hph] at this
    cases p <;> simp_all
  · intro hall q hq hact
    have hl : ((init : Runs T).run acts).get q.1 = some q.2 := lookup_of_mem hk hq
    have := hall q.1 (phase q.2) (by unfold phaseOf; rw [hl]; rfl)
    unfold activeRun at hact
    rcases this with h1 | h1 <;> rw [h1] at hact <;> cases hact

/-- C14, the full statement is false of the code: cancelling a cancelled run decrements the
counter again, so that the queue reports itself drained while another run is waiting for its
manifest. -/
theorem C14_full_statement_fails :
    ∃ acts : List (RunsAct Nat), ((init : Runs Nat).run acts).isDrained = true ∧
      pendingSubs ((init : Runs Nat).run acts) = 0 ∧
      phaseOf ((init : Runs Nat).run acts) "other" = some .waiting := by
  refine ⟨[.join (Sample.jp 1), .resume 0 .notFound true,
    .join { Sample.jp 2 with rid := "other" }, .resume 1 .notFound true,
    .request "run" (.cancel (Sample.w 1) .user), .request "run" (.cancel (Sample.w 1) .user),
    .resume 2 .notFound true, .resume 2 .notFound true], ?_⟩
  decide

example : repeatedCancellations (init : Runs Nat) Sample.persisted = 0 ∧
    pendingSubs ((init : Runs Nat).run Sample.persisted) = 0 ∧
    activeRuns ((init : Runs Nat).run Sample.persisted) < 2 ^ 64 ∧
    ((init : Runs Nat).run Sample.persisted).isDrained = true ∧
    ((init : Runs Nat).run Sample.serving).isDrained = false := by decide

/-! ## C15 -/

theorem progress_history (rid : RunId) (last : Nat) (acts : List (RunsAct T)) :
    Always (fun a ev =>
      (ev = .progress rid last .cancelledNotReceived → manifests rid a = []) ∧
      (ev = .progress rid last .cancelledNoProgress →
        manifests rid a ≠ [] ∧ (handedOut rid a).length = last) ∧
      (∀ i, ev = .progress rid last (.newProgress i) → i = (handedOut rid a).length ∧ last < i))
      (proj ((init : Runs T).run acts) rid).evs := by
  refine always_run (I := fun L => Hist rid L ∧ Timers rid L)
    (fun acts => ⟨hist_run acts rid, timers_run acts rid⟩) ?_ acts
  intro L L' ev hb ⟨hh, ht⟩ hs he
  have key : ∀ s : RunState T, L.s = some s → last ≤ (handedOut rid L.evs).length →
      ((s.progress last).1 = .cancelledNotReceived → manifests rid L.evs = []) ∧
      ((s.progress last).1 = .cancelledNoProgress →
        manifests rid L.evs ≠ [] ∧ (handedOut rid L.evs).length = last) ∧
      ∀ i, (s.progress last).1 = .newProgress i → i = (handedOut rid L.evs).length ∧ last < i := by
    intro s hL hle
    have hst := hh.st
    have hwf := hb.st
    rw [hL] at hst hwf
    cases s with
    | waiting => exact ⟨fun _ => hst.1, by simp [RunState.progress], by simp [RunState.progress]⟩
    | hasWork q b md act h =>
      obtain ⟨flat, hf⟩ := hst
      have hlen := hf.handed_length hwf.2
      simp only [RunState.progress]
      split
      · rename_i hgt
        refine ⟨by simp, by simp, ?_⟩
        intro i hi
        simp only [Progress.newProgress.injEq] at hi
        rw [← hi, hlen]
        exact ⟨rfl, hgt⟩
      · rename_i hgt
        refine ⟨by simp, fun _ => ⟨by rw [hf.one]; simp, ?_⟩, by simp⟩
        simp only [JobQueue.readIndex] at hgt
        omega
    | _ => simp [RunState.progress]
  have fin : ∀ (s : RunState T) (l : Nat), L.s = some s → l ≤ (handedOut rid L.evs).length →
      ev = .progress rid l (s.progress l).1 →
      (ev = .progress rid last .cancelledNotReceived → manifests rid L.evs = []) ∧
      (ev = .progress rid last .cancelledNoProgress →
        manifests rid L.evs ≠ [] ∧ (handedOut rid L.evs).length = last) ∧
      (∀ i, ev = .progress rid last (.newProgress i) →
        i = (handedOut rid L.evs).length ∧ last < i) := by
    intro s l hL hle hev
    have hk := key s hL
    refine ⟨?_, ?_, ?_⟩
    · intro h
      rw [hev] at h
      simp only [Event.progress.injEq, true_and] at h
      exact (hk (h.1 ▸ hle)).1 (h.1 ▸ h.2)
    · intro h
      rw [hev] at h
      simp only [Event.progress.injEq, true_and] at h
      exact (hk (h.1 ▸ hle)).2.1 (h.1 ▸ h.2)
    · intro i h
      rw [hev] at h
      simp only [Event.progress.injEq, true_and] at h
      exact (hk (h.1 ▸ hle)).2.2 i (h.1 ▸ h.2)
  have none' : (∀ l a, ev ≠ .progress rid l a) →
      (ev = .progress rid last .cancelledNotReceived → manifests rid L.evs = []) ∧
      (ev = .progress rid last .cancelledNoProgress →
        manifests rid L.evs ≠ [] ∧ (handedOut rid L.evs).length = last) ∧
      (∀ i, ev = .progress rid last (.newProgress i) →
        i = (handedOut rid L.evs).length ∧ last < i) := by
    intro h
    exact ⟨fun h' => absurd h' (h _ _), fun h' => absurd h' (h _ _), fun i h' => absurd h' (h _ _)⟩
  cases hs with
  | join p hp => cases h : L.s <;> simp [Loc.app, joinEff, h] at he
  | req r hr =>
    simp only [Loc.app, List.append_cancel_left_eq] at he
    refine none' ?_
    intro l a hev
    subst hev
    cases h : L.s with
    | none => simp [h, reqEff] at he
    | some s =>
      rw [h] at he
      cases r <;> simp only [reqEff, exec] at he
      case nextWork => split at he <;> simp at he
      all_goals simp at he
  | cont p a b ans ok hp hm hr =>
    simp only [Loc.app, List.append_cancel_left_eq] at he
    have hpo := hb.ps p (by rw [hm]; simp)
    have hle := ht.le p (by rw [hm]; simp)
    cases p <;> simp only [Pending.rid] at hp
    case timer r l =>
      subst hp
      cases h : L.s with
      | none => exact absurd h hpo
      | some s =>
        rw [h] at he
        simp only [contEff, timerEff] at he
        split at he
        · simp at he
        · exact fin s l h (hle l rfl) (by simpa using he.symm)
    case timeoutWrite r l =>
      subst hp
      cases h : L.s with
      | none => exact absurd h hpo
      | some s =>
        rw [h] at he
        simp only [contEff] at he
        have : (s.timeoutWrite l).2.1 = (s.progress l).1 := by
          unfold RunState.timeoutWrite; split <;> rfl
        rw [this] at he
        exact fin s l h (hle l rfl) (by simpa using he.symm)
    all_goals
      refine none' ?_
      intro l a hev
      subst hev
      revert he
    case joinRemote p =>
      cases ans <;> cases L.s <;> simp [contEff, loadRemote, createFresh]
    case joinRead p => cases L.s <;> simp [contEff]
    case pulled => simp only [contEff]; split <;> simp
    case markEnd => cases L.s <;> simp [contEff]
    case respond => simp only [contEff]; split <;> simp
    case dumpManifest => simp only [contEff]; split <;> simp
    case dumpState => simp only [contEff]; split <;> simp
    all_goals simp [contEff]

/-- C15: a run is reported to be cancelled for lack of progress only when it has a manifest and
no test was handed out since the position recorded with the timer. -/
theorem C15_cancelled_only_without_progress (acts : List (RunsAct T)) (rid : RunId) (last : Nat)
    (a b : List (Event T))
    (h : ((init : Runs T).run acts).events = a ++ .progress rid last .cancelledNoProgress :: b) :
    manifests rid a ≠ [] ∧ (handedOut rid a).length = last := by
  have := (always_global (progress_history rid last acts) h rfl).2.1 rfl
  rwa [manifests_filter, handedOut_filter] at this

example : ((init : Runs Nat).run (Sample.serving ++ [.resume 0 .notFound true, .resume 0 .notFound true])).events =
    ((init : Runs Nat).run Sample.serving).events ++ .progress "run" 0 .cancelledNoProgress :: [] := rfl


/-- C15: a run is reported to be cancelled for want of a manifest only when none was received. -/
theorem C15_cancelled_only_without_manifest (acts : List (RunsAct T)) (rid : RunId) (last : Nat)
    (a b : List (Event T))
    (h : ((init : Runs T).run acts).events = a ++ .progress rid last .cancelledNotReceived :: b) :
    manifests rid a = [] := by
  have := (always_global (progress_history rid last acts) h rfl).1 rfl
  rwa [manifests_filter] at this

example : ((init : Runs Nat).run (Sample.joins ++ [.resume 0 .notFound true, .resume 0 .notFound true])).events =
    ((init : Runs Nat).run Sample.joins).events ++ .progress "run" 0 .cancelledNotReceived :: [] := rfl


/-- C15: progress is reported only when tests were handed out since the recorded position, and
the new position is the number of tests handed out so far. -/
theorem C15_new_position (acts : List (RunsAct T)) (rid : RunId) (last i : Nat)
    (a b : List (Event T))
    (h : ((init : Runs T).run acts).events = a ++ .progress rid last (.newProgress i) :: b) :
    i = (handedOut rid a).length ∧ last < i := by
  have := (always_global (progress_history rid last acts) h rfl).2.2 i rfl
  rwa [handedOut_filter] at this

/-- C15: what the handler of a timer does once it has the lock of the run: a run without a
manifest, and a run that handed out nothing since the recorded position, is cancelled; a run
that made progress goes on, with a new timer for the new position; a finished run is left
alone. -/
theorem C15_timeout_decides (acts : List (RunsAct T)) (i : Nat) (ans : RemoteAns) (ok : Bool)
    (rid : RunId) (last : Nat)
    (hp : ((init : Runs T).run acts).pending[i]? = some (.timeoutWrite rid last))
    (hl : ((init : Runs T).run acts).readLocked rid = false) :
    phaseOf (((init : Runs T).run acts).step (.resume i ans ok)) rid =
      (match phaseOf ((init : Runs T).run acts) rid with
      | some .waiting => some .cancelled
      | some .serving =>
        if (handedOut rid ((init : Runs T).run acts).events).length > last then some .serving
        else some .cancelled
      | p => p) ∧
    (phaseOf ((init : Runs T).run acts) rid = some .serving →
      (handedOut rid ((init : Runs T).run acts).events).length > last →
      .timer rid (handedOut rid ((init : Runs T).run acts).events).length ∈
        (((init : Runs T).run acts).step (.resume i ans ok)).pending) := by
  have hst := step_resume ((init : Runs T).run acts) i ans ok _ hp (fun _ => hl)
  have hh := (hist_run acts rid (T := T)).st
  have hb := base_run acts rid (T := T)
  have hpo := hb.ps (.timeoutWrite rid last)
    (List.mem_filter.2 ⟨List.mem_of_getElem? hp, by simp [Pending.rid]⟩)
  have hwf := hb.st
  have hho : handedOut rid (proj ((init : Runs T).run acts) rid).evs =
      handedOut rid ((init : Runs T).run acts).events := handedOut_filter _ _
  cases hs : ((init : Runs T).run acts).get rid with
  | none => exact absurd hs hpo
  | some s =>
    have hL : (proj ((init : Runs T).run acts) rid).s = some s := hs
    rw [hL] at hh hwf
    have hph : phaseOf ((init : Runs T).run acts) rid = some (phase s) := by
      unfold phaseOf; rw [hs]; rfl
    have hg : phaseOf (((init : Runs T).run acts).step (.resume i ans ok)) rid =
        some (phase (s.timeoutWrite last).1) := by
      unfold phaseOf
      rw [hst]
      show Option.map phase ((Runs.apply { (init : Runs T).run acts with
        pending := ((init : Runs T).run acts).pending.eraseIdx i } rid _).get rid) = _
      rw [apply_get { (init : Runs T).run acts with
        pending := ((init : Runs T).run acts).pending.eraseIdx i } _ _ _
        (fun hc => absurd hc (by simp [Pending.rid, hs, contEff])), if_pos rfl]
      simp [Pending.rid, hs, contEff]
    rw [hg, hph, hst]
    cases s with
    | waiting => simp [phase, RunState.timeoutWrite, RunState.progress]
    | cancelled => simp [phase, RunState.timeoutWrite, RunState.progress]
    | done => simp [phase, RunState.timeoutWrite, RunState.progress]
    | hasWork q b md act h =>
      obtain ⟨flat, hf⟩ := hh
      have hlen := hf.handed_length hwf.2
      rw [hho] at hlen
      rw [hlen]
      refine ⟨?_, ?_⟩
      · simp only [phase, RunState.timeoutWrite, RunState.progress, JobQueue.readIndex]
        by_cases hgt : q.ptr > last
        · simp [hgt, phase]
        · simp [hgt, phase]
      · intro _ hgt
        simp [Runs.apply, Pending.rid, hs, contEff, RunState.timeoutWrite, RunState.progress,
          JobQueue.readIndex, hgt, rearm, subIf]

example : ((init : Runs Nat).run (Sample.serving ++ [.resume 0 .notFound true])).pending[0]? = some (.timeoutWrite "run" 0) ∧
    ((init : Runs Nat).run (Sample.serving ++ [.resume 0 .notFound true])).readLocked "run" = false := ⟨rfl, rfl⟩


/-- C15: a timer that fires hands over to that handler exactly when the run has no manifest or
handed out nothing since the recorded position; otherwise it changes no state, and is armed again
if the run is serving. -/
theorem C15_timer_fires (acts : List (RunsAct T)) (i : Nat) (ans : RemoteAns) (ok : Bool)
    (rid : RunId) (last : Nat)
    (hp : ((init : Runs T).run acts).pending[i]? = some (.timer rid last)) :
    (∀ r, (((init : Runs T).run acts).step (.resume i ans ok)).get r = ((init : Runs T).run acts).get r) ∧
    match phaseOf ((init : Runs T).run acts) rid with
    | some .waiting =>
      (((init : Runs T).run acts).step (.resume i ans ok)).pending =
        ((init : Runs T).run acts).pending.eraseIdx i ++ [.timeoutWrite rid last]
    | some .serving =>
      (((init : Runs T).run acts).step (.resume i ans ok)).pending =
        ((init : Runs T).run acts).pending.eraseIdx i ++
          [if (handedOut rid ((init : Runs T).run acts).events).length > last then
            .timer rid (handedOut rid ((init : Runs T).run acts).events).length
          else .timeoutWrite rid last]
    | _ =>
      (((init : Runs T).run acts).step (.resume i ans ok)).pending =
        ((init : Runs T).run acts).pending.eraseIdx i := by
  have hst := step_resume ((init : Runs T).run acts) i ans ok _ hp (by simp [Pending.writes])
  have hh := (hist_run acts rid (T := T)).st
  have hb := base_run acts rid (T := T)
  have hpo := hb.ps (.timer rid last)
    (List.mem_filter.2 ⟨List.mem_of_getElem? hp, by simp [Pending.rid]⟩)
  have hwf := hb.st
  have hho : handedOut rid (proj ((init : Runs T).run acts) rid).evs =
      handedOut rid ((init : Runs T).run acts).events := handedOut_filter _ _
  cases hs : ((init : Runs T).run acts).get rid with
  | none => exact absurd hs hpo
  | some s =>
    have hL : (proj ((init : Runs T).run acts) rid).s = some s := hs
    rw [hL] at hh hwf
    have hph : phaseOf ((init : Runs T).run acts) rid = some (phase s) := by
      unfold phaseOf; rw [hs]; rfl
    have hstate : (timerEff rid s last).state = some s := by unfold timerEff; split <;> rfl
    rw [hph, hst]
    refine ⟨?_, ?_⟩
    · intro r
      rw [apply_get { (init : Runs T).run acts with
        pending := ((init : Runs T).run acts).pending.eraseIdx i } _ _ _
        (fun hc => absurd hc (by simp [Pending.rid, hs, contEff, hstate]))]
      by_cases hr : r = rid
      · subst hr
        simp only [Pending.rid, hs, contEff, hstate]
        simp
      · rw [if_neg (by simpa [Pending.rid] using hr)]
        rfl
    · cases s with
      | waiting => simp [phase, Runs.apply, Pending.rid, hs, contEff, timerEff, RunState.progress]
      | cancelled => simp [phase, Runs.apply, Pending.rid, hs, contEff, timerEff, RunState.progress, rearm]
      | done => simp [phase, Runs.apply, Pending.rid, hs, contEff, timerEff, RunState.progress, rearm]
      | hasWork q b md act h =>
        obtain ⟨flat, hf⟩ := hh
        have hlen := hf.handed_length hwf.2
        rw [hho] at hlen
        rw [hlen]
        by_cases hgt : q.ptr > last <;>
          simp [phase, Runs.apply, Pending.rid, hs, contEff, timerEff, RunState.progress, rearm,
            JobQueue.readIndex, hgt]

example : ((init : Runs Nat).run Sample.serving).pending[0]? = some (.timer "run" 0) := rfl


/-- In the sample run, the timer armed when the run was created (position 0) is first found to
have seen progress; without any pull it would have cancelled the run. -/
example : ((init : Runs Nat).run (Sample.serving ++
    [.request "run" (.nextWork (Sample.w 1)), .resume 1 .notFound true, .resume 0 .notFound true])).events.getLast?
    = some (.progress "run" 0 (.newProgress 1)) := rfl

example : phaseOf ((init : Runs Nat).run (Sample.serving ++
    [.resume 0 .notFound true, .resume 0 .notFound true])) "run" = some .cancelled := rfl

/-! ## C54 -/

/-- C54: while a run is waiting for its manifest or serving tests, its progress timer is armed, or
the handler of that timer is being executed. -/
theorem C54_timer_always_armed (acts : List (RunsAct T)) (rid : RunId)
    (h : phaseOf ((init : Runs T).run acts) rid = some .waiting ∨
      phaseOf ((init : Runs T).run acts) rid = some .serving) :
    ∃ p ∈ ((init : Runs T).run acts).pending, timerOf rid p = true := by
  have hact : IsActive (proj ((init : Runs T).run acts) rid).s := by
    rcases h with h | h
    · obtain ⟨s, hs, hph⟩ := phaseOf_some h
      have hL : (proj ((init : Runs T).run acts) rid).s = some s := hs
      rw [hL]
      cases s <;> simp_all [phase, IsActive]
    · obtain ⟨s, hs, hph⟩ := phaseOf_some h
      have hL : (proj ((init : Runs T).run acts) rid).s = some s := hs
      rw [hL]
      cases s <;> simp_all [phase, IsActive]
  obtain ⟨p, h1, h2⟩ := (timers_run acts rid).armed hact
  obtain ⟨h3, h4⟩ := List.mem_filter.1 h1
  refine ⟨p, h3, ?_⟩
  cases p <;> simp only [timerLast, Option.isSome_none, Bool.false_eq_true] at h2
  · simpa [timerOf, Pending.rid] using h4
  · simpa [timerOf, Pending.rid] using h4

/-- C54: the position recorded with a timer is at most the number of tests handed out. -/
theorem C54_timer_position (acts : List (RunsAct T)) (rid : RunId) (last : Nat)
    (h : .timer rid last ∈ ((init : Runs T).run acts).pending ∨
      .timeoutWrite rid last ∈ ((init : Runs T).run acts).pending) :
    last ≤ (handedOut rid ((init : Runs T).run acts).events).length := by
  have hho : handedOut rid (proj ((init : Runs T).run acts) rid).evs =
      handedOut rid ((init : Runs T).run acts).events := handedOut_filter _ _
  rw [← hho]
  rcases h with h | h
  · exact (timers_run acts rid).le _ (List.mem_filter.2 ⟨h, by simp [Pending.rid]⟩) last rfl
  · exact (timers_run acts rid).le _ (List.mem_filter.2 ⟨h, by simp [Pending.rid]⟩) last rfl

example : phaseOf ((init : Runs Nat).run Sample.serving) "run" = some .serving ∧
    ((init : Runs Nat).run Sample.serving).pending = [.timer "run" 0] := ⟨rfl, rfl⟩

/-! ## C56 -/

/-- C56: no request on a run that exists makes the queue panic: in particular, no slice index of
the queue of tests is out of range. -/
theorem C56_no_panic (acts : List (RunsAct T)) (rid : RunId) :
    .panicked rid ∉ ((init : Runs T).run acts).events := by
  intro hm
  have hall := always_run (rid := rid) (I := fun _ => True)
    (P := fun _ ev => ev ≠ (.panicked rid : Event T)) (fun _ => trivial)
    (by
      intro L L' ev hb _ hs he hev
      subst hev
      obtain ⟨evs, h1, h2⟩ := hs.step1 hb
      have hok := hb.st
      rw [he] at h2
      have h3 := List.append_cancel_left h2
      rw [← h3] at h1
      clear hs hb he h2
      generalize L.s = s0 at h1 hok
      generalize L'.s = s1 at h1
      generalize hx : [(.panicked rid : Event T)] = evs' at h1
      cases h1 with
      | req s r =>
        cases r <;> simp only [exec] at hx
        case nextWork e =>
          cases s with
          | hasWork q b md act h =>
            obtain ⟨q', items, hq, -⟩ := JobQueue.getWork_spec hok.2 e.tag hok.1
            simp [RunState.pull, hq] at hx
          | _ => simp [RunState.pull] at hx
        all_goals cases hx
      | _ => cases hx) acts
  obtain ⟨a, b, hab⟩ := List.append_of_mem hm
  exact always_global hall hab rfl rfl

/-- C56: the queue panics, or answers with an error, for want of a run only when the run was
never created nor taken over. -/
theorem C56_no_run_only_if_unknown (acts : List (RunsAct T)) (rid : RunId) (panics : Bool)
    (a b : List (Event T))
    (h : ((init : Runs T).run acts).events = a ++ .noRun rid panics :: b) :
    ∀ ev ∈ a, ev.rid = rid → beforeCreation ev = true := by
  have hall := always_run (rid := rid) (I := Origin rid)
    (P := fun a ev => ev = (.noRun rid panics : Event T) → ∀ ev' ∈ a, beforeCreation ev' = true)
    (fun acts => origin_run acts rid)
    (by
      intro L L' ev hb ho hs he hev
      subst hev
      obtain ⟨evs, h1, h2⟩ := hs.step1 hb
      rw [he] at h2
      have h3 := List.append_cancel_left h2
      rw [← h3] at h1
      clear hs hb he h2
      unfold Origin at ho
      generalize L.s = s0 at h1 ho
      generalize L'.s = s1 at h1
      generalize hx : [(.noRun rid panics : Event T)] = evs' at h1
      cases h1 with
      | noRun => exact ho
      | req s r =>
        cases r <;> simp only [exec] at hx
        case nextWork e => split at hx <;> cases hx
        all_goals cases hx
      | _ => cases hx) acts
  intro ev hev hr
  exact always_global hall h rfl rfl ev (List.mem_filter.2 ⟨hev, by simpa using hr⟩)

/-- A request for tests of an unknown run panics the thread serving it. -/
example : ((init : Runs Nat).run [.request "nope" (.nextWork (Sample.w 1))]).events =
    [.noRun "nope" true] := rfl

end Abq.Props
