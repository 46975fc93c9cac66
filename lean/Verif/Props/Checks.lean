import Verif.Proof.Checks
import Verif.Props.AllRunsJoin
import Verif.Props.JobQueue

/-!
# C141: the checks the queue makes on itself

`checks σ a` are the checks that fail when the step `a` is made in the state `σ`. The vocabulary
about the history of answers is in `Verif/Spec/Checks.lean`.
-/

namespace Abq.Props
open Abq Runs Spec
variable {T : Type}

theorem logAssert_mem {b : Bool} {c d : Check} : d ∈ logAssert b c ↔ b = false ∧ d = c := by
  unfold logAssert
  cases b <;> simp

theorem tracked_mem {e : Entity} {c : Check} : c ∈ tracked e ↔ isRunner e = false ∧ c = .notAWorker e :=
  logAssert_mem

theorem tracked_flat {α : Type} {l : List α} {f : α → Entity} {c : Check} :
    c ∈ l.flatMap (fun x => tracked (f x)) ↔ ∃ x ∈ l, isRunner (f x) = false ∧ c = .notAWorker (f x) := by
  simp [List.mem_flatMap, tracked_mem]

theorem checks_request {σ : Runs T} {rid rid' : RunId} {r : Req T} {c : Check} :
    (rid', c) ∈ checks σ (.request rid r) ↔
      rid' = rid ∧ ¬ (r.writes = true ∧ σ.readLocked rid = true) ∧ c ∈ reqChecks (σ.get rid) r := by
  simp only [checks]
  split
  · rename_i h
    simp only [Bool.and_eq_true] at h
    simp [h]
  · rename_i h
    simp only [Bool.and_eq_true] at h
    simp only [List.mem_map, Prod.mk.injEq]
    constructor
    · rintro ⟨c, h1, rfl, rfl⟩; exact ⟨rfl, h, h1⟩
    · rintro ⟨rfl, -, h1⟩; exact ⟨c, h1, rfl, rfl⟩

theorem checks_resume {σ : Runs T} {rid' : RunId} {i : Nat} {ans : RemoteAns} {ok : Bool} {c : Check} :
    (rid', c) ∈ checks σ (.resume i ans ok) ↔
      ∃ p, σ.pending[i]? = some p ∧ rid' = p.rid ∧ ¬ (p.writes = true ∧ σ.readLocked p.rid = true) ∧
        c ∈ contChecks (σ.get p.rid) ans ok p := by
  simp only [checks]
  cases hp : σ.pending[i]? with
  | none => simp
  | some p =>
    simp only
    split
    · rename_i h
      simp only [Bool.and_eq_true] at h
      simp only [List.not_mem_nil, Option.some.injEq, false_iff]
      rintro ⟨q, rfl, -, h1, -⟩
      exact h1 h
    · rename_i h
      simp only [Bool.and_eq_true] at h
      simp only [List.mem_map, Prod.mk.injEq]
      constructor
      · rintro ⟨c, h1, rfl, rfl⟩; exact ⟨p, rfl, rfl, h, h1⟩
      · rintro ⟨q, hq, rfl, -, h1⟩; cases hq; exact ⟨c, h1, rfl, rfl⟩

/-! ## Each kind of request -/

/-- C141: providing a manifest, reporting that there is none or that it is empty is complained
about exactly if the manifest of the run is known already and the run is not cancelled. (While
tests are being taken from the queue these requests wait.) -/
theorem C141_manifest_twice (acts : List (RunsAct T)) (rid : RunId) (flat : List (T × Nat)) (md : String)
    (hl : ((init : Runs T).run acts).readLocked rid = false) :
    let σ := (init : Runs T).run acts
    let known := settled rid σ.events = true ∧ phaseOf σ rid ≠ some .cancelled
    ((rid, .manifestAgain) ∈ checks σ (.request rid (.addManifest flat md)) ↔ known) ∧
    ((rid, .failedAfterManifest) ∈ checks σ (.request rid .manifestFailed) ↔ known) ∧
    ((rid, .emptyAfterManifest) ∈ checks σ (.request rid .emptyManifest) ↔ known) := by
  intro σ known
  have hs := setOk_global acts rid
  have hk : known = (settled rid σ.events = true ∧ phaseOf σ rid ≠ some .cancelled) := rfl
  rw [hk]
  simp only [checks_request, σ, hl, true_and, Bool.false_eq_true, and_false, not_false_eq_true, phaseOf] at hs ⊢
  cases hg : ((init : Runs T).run acts).get rid with
  | none => rw [hg] at hs; simp [reqChecks, hs.1]
  | some s =>
    rw [hg] at hs
    cases s <;> simp only [SetOk] at hs <;>
      simp [reqChecks, RunState.addManifestChecks, RunState.manifestFailedChecks, RunState.emptyManifestChecks,
        phase, hs, tracked, logAssert]

/-- C141: asking for tests, for the tests had before, or reporting completion is complained about
as coming too early exactly if the run was created here, its manifest is not known yet and it is
not cancelled. -/
theorem C141_too_early (acts : List (RunsAct T)) (rid : RunId) (e : Entity) (time : Nat) :
    let σ := (init : Runs T).run acts
    let early := createdHere rid σ.events = true ∧ settled rid σ.events = false ∧
      phaseOf σ rid ≠ some .cancelled
    ((rid, .workBeforeManifest e) ∈ checks σ (.request rid (.nextWork e)) ↔ early) ∧
    ((rid, .retryBeforeManifest e) ∈ checks σ (.request rid (.retryManifest e)) ↔ early) ∧
    ((rid, .completeBeforeManifest e) ∈ checks σ (.request rid (.complete e time)) ↔ early) := by
  intro σ early
  have hs := setOk_global acts rid
  have hk : early = (createdHere rid σ.events = true ∧ settled rid σ.events = false ∧
      phaseOf σ rid ≠ some .cancelled) := rfl
  rw [hk]
  simp only [checks_request, σ, true_and, phaseOf, Req.writes, Bool.false_eq_true, false_and, not_false_eq_true] at hs ⊢
  cases hg : ((init : Runs T).run acts).get rid with
  | none =>
    rw [hg] at hs
    have : createdHere rid ((init : Runs T).run acts).events ≠ true := fun h => by
      rw [SetOk, inRegistry_of_created h] at hs
      exact Bool.noConfusion hs.2
    simp [reqChecks, this, logAssert]
  | some s =>
    rw [hg] at hs
    cases s with
    | done x md seen m h =>
      simp only [SetOk] at hs
      cases m with
      | cell b => cases b <;> simp [reqChecks, RunState.pullChecks, RunState.retryManifestChecks, RunState.completeChecks, phase, hs, tracked_mem, logAssert_mem]
      | emptyManifest => simp [reqChecks, RunState.pullChecks, RunState.retryManifestChecks, RunState.completeChecks, phase, hs, tracked_mem, logAssert_mem]
    | _ =>
      simp only [SetOk] at hs
      simp [reqChecks, RunState.pullChecks, RunState.retryManifestChecks, RunState.completeChecks, phase, hs,
        tracked_mem, logAssert_mem]

/-- C141: reporting completion to a run is complained about exactly if the run is not in the
registry. -/
theorem C141_complete_unknown_run (acts : List (RunsAct T)) (rid : RunId) (e : Entity) (time : Nat) :
    (rid, .completeUnknownRun e) ∈ checks ((init : Runs T).run acts) (.request rid (.complete e time)) ↔
      inRegistry rid ((init : Runs T).run acts).events = false := by
  have hs := setOk_global acts rid
  simp only [checks_request, true_and, Req.writes, Bool.false_eq_true, false_and, not_false_eq_true]
  cases hg : ((init : Runs T).run acts).get rid with
  | none => rw [hg] at hs; simp [reqChecks, logAssert, hs.2]
  | some s =>
    rw [hg] at hs
    have hr : inRegistry rid ((init : Runs T).run acts).events = true := by
      cases s with
      | waiting => exact inRegistry_of_created hs.2
      | cancelled => exact hs
      | _ => exact hs.2
    rw [hr]
    cases s <;> simp [reqChecks, RunState.completeChecks, tracked_mem, logAssert_mem]

theorem ofActive_atWork (o : Option (Entity × Option Nat)) (e : Entity) :
    ofActive o = .atWork e ↔ o = some (e, none) := by
  cases o with
  | none => simp [ofActive]
  | some p => obtain ⟨e', v⟩ := p; cases v <;> simp [ofActive]

/-- C141: in a run that is serving tests, reporting completion is complained about exactly if the
runner is not at work: it was never heard of, or it has reported completion already and has not
come back since. -/
theorem C141_complete_not_at_work (acts : List (RunsAct T)) (rid : RunId) (e : Entity) (time : Nat) :
    (rid, .notActive e) ∈ checks ((init : Runs T).run acts) (.request rid (.complete e time)) ↔
      phaseOf ((init : Runs T).run acts) rid = some .serving ∧
        ∀ e', standing rid e.tag ((init : Runs T).run acts).events ≠ .atWork e' := by
  have hs := stand_global acts rid e.tag
  simp only [checks_request, true_and, Req.writes, Bool.false_eq_true, false_and, not_false_eq_true, phaseOf, standing]
  cases hg : ((init : Runs T).run acts).get rid with
  | none => simp [reqChecks, logAssert]
  | some s =>
    rw [hg] at hs
    cases s with
    | hasWork q b md act h =>
      simp only [StandOk] at hs
      rw [hs]
      simp only [reqChecks, RunState.completeChecks, List.mem_append, tracked_mem, logAssert_mem, phase,
        Option.map_some, true_and, (C30_insert_replaces act e (some time)).1, ne_eq, ofActive_atWork]
      cases lookup act e.tag with
      | none => simp
      | some p => obtain ⟨e', v⟩ := p; cases v <;> simp
    | _ => simp [reqChecks, RunState.completeChecks, tracked_mem, logAssert_mem, phase]

/-- C141: in a run whose tests are all handed out, reporting completion is complained about if the
run has never heard of the runner, and only if the runner has not taken part in it (or the manifest
was empty, in which case nobody is recorded). -/
theorem C141_complete_not_seen (acts : List (RunsAct T)) (rid : RunId) (e : Entity) (time : Nat)
    (hp : phaseOf ((init : Runs T).run acts) rid = some .exhausted) :
    (known rid e.tag ((init : Runs T).run acts).events = false →
      (rid, .notSeen e) ∈ checks ((init : Runs T).run acts) (.request rid (.complete e time))) ∧
    ((rid, .notSeen e) ∈ checks ((init : Runs T).run acts) (.request rid (.complete e time)) →
      ((init : Runs T).run acts).events.any (tookPart rid e.tag) = false ∨
        ((init : Runs T).run acts).events.any (isEmptyManifest rid) = true) := by
  have ht := track_run acts rid
  have hem := empty_state acts rid
  simp only [phaseOf] at hp
  simp only [checks_request, true_and, Req.writes, Bool.false_eq_true, false_and, not_false_eq_true]
  obtain ⟨s, hg, hps⟩ := Option.map_eq_some_iff.1 hp
  rw [hg]
  cases s with
  | done x md seen m h =>
    have hr : recorded (proj ((init : Runs T).run acts) rid).s = WorkerSet.tags seen := by
      simp [proj, hg, recorded]
    have hc : Check.notSeen e ∈ reqChecks (some (RunState.done x md seen m h : RunState T)) (.complete e time) ↔
        e.tag ∉ WorkerSet.tags seen := by
      rw [← WorkerSet.insertByTag_old (ws := seen) (e := e) (v := false)]
      simp [reqChecks, RunState.completeChecks, tracked_mem, logAssert_mem]
    rw [hc]
    refine ⟨fun hk hm => ?_, fun hm => ?_⟩
    · have := ht.known e.tag (hr ▸ hm)
      rw [show (proj ((init : Runs T).run acts) rid).evs = _ from rfl, proj, known_filter, hk] at this
      cases this
    · cases m with
      | emptyManifest =>
        right
        rw [← empty_filter]
        exact hem x md seen h hg
      | cell b =>
        left
        rw [← tookPart_filter, ← Bool.not_eq_true]
        intro ha
        exact hm (hr ▸ ht.took (by simp [proj, hg, Recording]) e.tag ha)
  | _ => cases hps

/-- C141: a client that is not a worker runner is complained about when it asks for tests or
reports completion in a run that is serving tests or has handed out all of them; a worker runner is
not. -/
theorem C141_not_a_worker (acts : List (RunsAct T)) (rid : RunId) (e : Entity) (time : Nat)
    (hp : phaseOf ((init : Runs T).run acts) rid = some .serving ∨
      phaseOf ((init : Runs T).run acts) rid = some .exhausted) :
    ((rid, .notAWorker e) ∈ checks ((init : Runs T).run acts) (.request rid (.nextWork e)) ↔ isRunner e = false) ∧
    ((rid, .notAWorker e) ∈ checks ((init : Runs T).run acts) (.request rid (.complete e time)) ↔ isRunner e = false) := by
  simp only [checks_request, true_and, Req.writes, Bool.false_eq_true, false_and, not_false_eq_true]
  simp only [phaseOf, Option.map_eq_some_iff] at hp
  rcases hp with ⟨s, hg, hs⟩ | ⟨s, hg, hs⟩ <;> rw [hg] <;> cases s <;> cases hs <;>
    simp [reqChecks, RunState.pullChecks, RunState.completeChecks, tracked_mem, logAssert_mem]

example : ("run", Check.notAWorker ⟨9, .localClient⟩) ∈
    checks ((init : Runs Nat).run Sample.serving) (.request "run" (.nextWork ⟨9, .localClient⟩)) :=
  (C141_not_a_worker Sample.serving "run" ⟨9, .localClient⟩ 0 (.inl (by decide))).1.2 rfl

example : ("run", Check.manifestAgain) ∈
    checks ((init : Runs Nat).run Sample.serving) (.request "run" (.addManifest [(12, 0)] "md")) :=
  (C141_manifest_twice Sample.serving "run" [(12, 0)] "md" (by decide)).1.2 ⟨by decide, by decide⟩

example : ("run", Check.workBeforeManifest (Sample.w 1)) ∈
    checks ((init : Runs Nat).run Sample.joins) (.request "run" (.nextWork (Sample.w 1))) :=
  (C141_too_early Sample.joins "run" (Sample.w 1) 0).1.2 ⟨by decide, by decide, by decide⟩

/-- Worker 1 reports completion of a run it is at work in, and then once more. -/
example : checks ((init : Runs Nat).run Sample.serving) (.request "run" (.complete (Sample.w 1) 5)) = [] ∧
    checks ((init : Runs Nat).run (Sample.serving ++ [.request "run" (.complete (Sample.w 1) 5)]))
      (.request "run" (.complete (Sample.w 1) 6)) = [("run", .notActive (Sample.w 1))] := by
  decide

example : standing "run" (Sample.w 1).tag
    ((init : Runs Nat).run (Sample.serving ++ [.request "run" (.complete (Sample.w 1) 5)])).events =
      .finished (Sample.w 1) := by
  decide

/-- A worker that is unknown to an exhausted run. -/
example : ("run", Check.notSeen (Sample.w 3)) ∈
    checks ((init : Runs Nat).run Sample.pulls) (.request "run" (.complete (Sample.w 3) 5)) :=
  (C141_complete_not_seen Sample.pulls "run" (Sample.w 3) 5 (by decide)).1 (by decide)

/-! ## Joining -/

theorem ofWaiting_entity (o : Option (Entity × Unit)) : (ofWaiting o).entity = o.map Prod.fst := by
  cases o <;> rfl

theorem ofActive_entity (o : Option (Entity × Option Nat)) : (ofActive o).entity = o.map Prod.fst := by
  cases o with
  | none => rfl
  | some p => obtain ⟨e', v⟩ := p; cases v <;> rfl

/-- C141: a worker that joins a run is complained about exactly in two cases. The run was created
here, its manifest is not known yet, and the runner was heard of before; or the run is serving
tests and the very same process was the last to be seen as this runner. -/
theorem C141_join (acts : List (RunsAct T)) (i : Nat) (p : JoinParams) (ans : RemoteAns) (ok : Bool)
    (hp : ((init : Runs T).run acts).pending[i]? = some (.joinRead p)) :
    let σ := (init : Runs T).run acts
    let before := (standing p.rid p.entity.tag σ.events).entity
    ((p.rid, .twiceForManifest p.entity) ∈ checks σ (.resume i ans ok) ↔
      phaseOf σ p.rid = some .waiting ∧ before ≠ none) ∧
    ((p.rid, .sameEntityTwice p.entity) ∈ checks σ (.resume i ans ok) ↔
      phaseOf σ p.rid = some .serving ∧ ∃ e, before = some e ∧ e.id = p.entity.id) := by
  intro σ before
  have hs := stand_global acts p.rid p.entity.tag
  have hb : before = (standing p.rid p.entity.tag σ.events).entity := rfl
  rw [hb]
  simp only [checks_resume, hp, σ, phaseOf, standing, Option.some.injEq] at hs ⊢
  have hk : ∀ c, (∃ q, Pending.joinRead p = q ∧ p.rid = q.rid ∧
      ¬ (q.writes = true ∧ ((init : Runs T).run acts).readLocked q.rid = true) ∧
      c ∈ contChecks (((init : Runs T).run acts).get q.rid) ans ok q) ↔
      c ∈ contChecks (((init : Runs T).run acts).get p.rid) ans ok (.joinRead p) := by
    intro c
    constructor
    · rintro ⟨q, rfl, -, -, h⟩; exact h
    · intro h; exact ⟨_, rfl, rfl, by simp [Pending.writes], h⟩
  rw [hk, hk]
  cases hg : ((init : Runs T).run acts).get p.rid with
  | none => simp [contChecks]
  | some s =>
    rw [hg] at hs
    cases s with
    | waiting ws b st h =>
      simp only [StandOk] at hs
      rw [hs]
      simp only [contChecks, RunState.joinChecks, List.mem_append, tracked_mem, logAssert_mem, phase,
        Option.map_some, (C30_insert_replaces ws p.entity ()).1, ofWaiting_entity]
      cases lookup ws p.entity.tag <;> simp
    | hasWork q b md act h =>
      simp only [StandOk] at hs
      rw [hs]
      simp only [contChecks, RunState.joinChecks, List.mem_append, tracked_mem, phase,
        Option.map_some, (C30_insert_replaces act p.entity none).1, ofActive_entity]
      cases lookup act p.entity.tag with
      | none => simp
      | some r =>
        obtain ⟨e', v⟩ := r
        simp only [Option.map_some, Option.some.injEq]
        split <;> simp_all [logAssert]
    | _ => simp [contChecks, RunState.joinChecks, phase]

/-- Worker 2 is about to join the run created by worker 1: no complaint. -/
example : ((init : Runs Nat).run (Sample.joins.take 4)).pending[1]? = some (.joinRead (Sample.jp 2)) ∧
    checks ((init : Runs Nat).run (Sample.joins.take 4)) (.resume 1 .notFound true) = [] := ⟨rfl, by decide⟩

/-- The process that is worker 2 joins twice. -/
example : ("run", Check.sameEntityTwice (Sample.w 2)) ∈
    checks ((init : Runs Nat).run (Sample.serving ++ [.join (Sample.jp 2)])) (.resume 1 .notFound true) :=
  (C141_join (Sample.serving ++ [.join (Sample.jp 2)]) 1 (Sample.jp 2) .notFound true rfl).2.2
    ⟨by decide, Sample.w 2, by decide, rfl⟩

/-! ## All together -/

/-- C141: the checks the queue makes on its own bookkeeping never fail, whatever is asked of it in
whatever order. -/
theorem C141_own_checks_never_fail (acts : List (RunsAct T)) (a : RunsAct T) (rid : RunId) (c : Check)
    (h : (rid, c) ∈ checks ((init : Runs T).run acts) a) : ofItself c = false := by
  cases a with
  | join p => simp [checks] at h
  | request r req =>
    obtain ⟨-, -, h⟩ := checks_request.1 h
    revert h
    cases ((init : Runs T).run acts).get r with
    | none => cases req <;> simp [reqChecks, logAssert_mem] <;> rintro rfl <;> rfl
    | some s =>
      cases req <;> simp only [reqChecks, List.not_mem_nil, false_implies]
      case addManifest =>
        cases s <;> simp [RunState.addManifestChecks, tracked_mem] <;> (try rintro rfl) <;> first | rfl | skip
        rintro _ _ _ _ rfl; rfl
      case manifestFailed => cases s <;> simp [RunState.manifestFailedChecks] <;> rintro rfl <;> rfl
      case emptyManifest => cases s <;> simp [RunState.emptyManifestChecks] <;> rintro rfl <;> rfl
      case initMetadata e =>
        cases s <;> simp only [RunState.initMetadataChecks, List.not_mem_nil, false_implies]
        split
        · rw [tracked_mem]; rintro ⟨-, rfl⟩; rfl
        · simp
      case nextWork e =>
        cases s <;> simp only [RunState.pullChecks, tracked_mem, List.not_mem_nil, false_implies,
          List.mem_singleton] <;> first | (rintro ⟨-, rfl⟩; rfl) | (rintro rfl; rfl)
      case retryManifest e =>
        unfold RunState.retryManifestChecks
        split <;> simp only [tracked_mem, List.not_mem_nil, false_implies, List.mem_singleton] <;>
          first | (rintro ⟨-, rfl⟩; rfl) | (rintro rfl; rfl)
      case complete e time =>
        cases s <;> simp only [RunState.completeChecks, List.mem_append, tracked_mem, logAssert_mem,
          List.not_mem_nil, false_implies, true_and] <;>
          first | (rintro (⟨-, rfl⟩ | ⟨-, rfl⟩) <;> rfl) | (rintro rfl; rfl)
      case cancel e reason =>
        cases s <;> simp only [RunState.cancelChecks, tracked_mem, List.not_mem_nil, false_implies]
        rintro ⟨-, rfl⟩; rfl
  | resume i ans ok =>
    obtain ⟨p, hp, -, -, h⟩ := checks_resume.1 h
    have hmem : p ∈ ((init : Runs T).run acts).pending := List.mem_of_getElem? hp
    have hin : p ∈ (proj ((init : Runs T).run acts) p.rid).ps := by
      simp [proj, hmem]
    have hpo := (base_run acts p.rid).ps p hin
    have hst := (base_run acts p.rid).st
    have hle := (timers_run acts p.rid).le p hin
    have hh := (hist_run acts p.rid).st
    have hpe := planEnd_run acts p hmem
    have hidx : ∀ last s, timerLast p = some last → ((init : Runs T).run acts).get p.rid = some s →
        c ∈ s.progressChecks last → ofItself c = false := by
      intro last s hl hg hc
      cases s with
      | hasWork q b md act hs =>
        simp only [proj, hg] at hst hh
        obtain ⟨flat, hq⟩ := hh
        have h1 := hq.handed_length hst.2
        have h2 := hle last hl
        simp only [proj] at h2
        rw [h1] at h2
        simp only [RunState.progressChecks, logAssert_mem, JobQueue.readIndex, decide_eq_false_iff_not] at hc
        exact absurd h2 (of_decide_eq_false hc.1)
      | _ => simp [RunState.progressChecks] at hc
    simp only [proj] at hpo
    cases p <;> simp only [contChecks] at h <;> simp only [Pending.rid] at *
    case joinRemote p =>
      cases ans <;> simp only [tracked_mem, List.mem_flatMap, List.not_mem_nil] at h
      · obtain ⟨e, -, -, rfl⟩ := h; rfl
      · obtain ⟨-, rfl⟩ := h; rfl
      · obtain ⟨-, rfl⟩ := h; rfl
    case joinRead p =>
      split at h
      · rename_i hn; exact absurd hn hpo
      · rename_i s hg
        cases s <;> simp only [RunState.joinChecks, List.mem_append, tracked_mem, logAssert_mem, List.not_mem_nil] at h
        · rcases h with ⟨-, rfl⟩ | ⟨-, rfl⟩ <;> rfl
        · rcases h with ⟨-, rfl⟩ | h
          · rfl
          · split at h
            · simp at h
            · split at h
              · rw [logAssert_mem] at h; rw [h.2]; rfl
              · simp at h
    case pulled => simp at h
    case markEnd r e items =>
      split at h
      · simp at h
      · rename_i s hg
        rw [hg] at hpo
        cases s <;> simp only [RunState.markEndChecks, List.mem_append, tracked_flat, logAssert_mem,
          List.not_mem_nil, List.mem_singleton] at h
        · exact hpo.elim
        · simp only [PsOk, Over] at hpo
          rcases h with ⟨h, -⟩ | ⟨x, -, -, rfl⟩
          · rw [hpo] at h; cases h
          · rfl
    case respond r e items eow plan =>
      split at h
      · rename_i hc
        simp only [Bool.and_eq_true] at hc
        obtain ⟨pl, rfl⟩ := Option.isSome_iff_exists.1 hc.2
        simp only [PlanEnd] at hpe
        rw [hpe, logAssert_mem] at h
        cases h.1
      · simp at h
    case timer r last =>
      split at h
      · rename_i hn; exact absurd hn hpo
      · rename_i s hg; exact hidx last s rfl hg h
    case timeoutWrite r last =>
      split at h
      · rename_i hn; exact absurd hn hpo
      · rename_i s hg; exact hidx last s rfl hg h
    all_goals simp at h

/-- C141: whenever a check fails, the history shows why. -/
theorem C141_failures_explained_partial (acts : List (RunsAct T)) (a : RunsAct T) (rid : RunId) (c : Check)
    (h : (rid, c) ∈ checks ((init : Runs T).run acts) a) :
    Explained rid ((init : Runs T).run acts).events c := by
  have hown := C141_own_checks_never_fail acts a rid c h
  cases a with
  | join p => simp [checks] at h
  | request r req =>
    have h0 := h
    obtain ⟨rfl, -, h⟩ := checks_request.1 h
    have hs := setOk_global acts rid
    have hst := fun t => stand_global acts rid t
    revert h
    cases hg : ((init : Runs T).run acts).get rid with
    | none =>
      rw [hg] at hs
      cases req <;> simp [reqChecks, logAssert_mem] <;> rintro rfl
      exact hs.2
    | some s =>
      rw [hg] at hs
      have hsq : ∀ q b md act hh, s = .hasWork q b md act hh → settled rid ((init : Runs T).run acts).events = true := by
        rintro q b md act hh rfl; exact hs.1
      cases req <;> simp only [reqChecks, List.not_mem_nil, false_implies]
      case addManifest =>
        cases s <;> simp only [RunState.addManifestChecks, tracked_flat, List.mem_singleton, List.not_mem_nil, false_implies]
        · rintro ⟨x, -, h1, rfl⟩; exact h1
        · rintro rfl; exact hs.1
        · rintro rfl; exact hs.1
      case manifestFailed =>
        cases s <;> simp only [RunState.manifestFailedChecks, List.mem_singleton, List.not_mem_nil, false_implies] <;>
          rintro rfl <;> exact hs.1
      case emptyManifest =>
        cases s <;> simp only [RunState.emptyManifestChecks, List.mem_singleton, List.not_mem_nil, false_implies] <;>
          rintro rfl <;> exact hs.1
      case initMetadata e =>
        cases s <;> simp only [RunState.initMetadataChecks, List.not_mem_nil, false_implies]
        split
        · rw [tracked_mem]; rintro ⟨h1, rfl⟩; exact h1
        · simp
      case nextWork e =>
        cases s <;> simp only [RunState.pullChecks, tracked_mem, List.not_mem_nil, false_implies,
          List.mem_singleton] <;> first | (rintro ⟨h1, rfl⟩; exact h1) | (rintro rfl; exact hs.1)
      case retryManifest e =>
        unfold RunState.retryManifestChecks
        split <;> simp only [tracked_mem, List.not_mem_nil, false_implies, List.mem_singleton] <;>
          first | (rintro ⟨h1, rfl⟩; exact h1) | (rintro rfl; exact hs.1)
      case complete e time =>
        cases s <;> simp only [RunState.completeChecks, List.mem_append, tracked_mem, logAssert_mem,
          List.not_mem_nil, false_implies, true_and]
        · rintro rfl; exact hs.1
        · rintro (⟨h1, rfl⟩ | ⟨h1, rfl⟩)
          · exact h1
          · exact ((C141_complete_not_at_work acts rid e time).1 h0).2
        · rintro (⟨h1, rfl⟩ | ⟨h1, rfl⟩)
          · exact h1
          · exact (C141_complete_not_seen acts rid e time (by simp [phaseOf, hg, phase])).2 h0
      case cancel e reason =>
        cases s <;> simp only [RunState.cancelChecks, tracked_mem, List.not_mem_nil, false_implies]
        rintro ⟨h1, rfl⟩; exact h1
  | resume i ans ok =>
    have h0 := h
    clear h
    obtain ⟨p, hp, rfl, -, h⟩ := checks_resume.1 h0
    cases p <;> simp only [contChecks] at h
    case joinRemote p =>
      cases ans <;> simp only [tracked_mem, List.mem_flatMap, List.not_mem_nil] at h
      · obtain ⟨e, -, h1, rfl⟩ := h; exact h1
      · obtain ⟨h1, rfl⟩ := h; exact h1
      · obtain ⟨h1, rfl⟩ := h; exact h1
    case joinRead p =>
      have hj := C141_join acts i p ans ok hp
      have hs := setOk_global acts (Pending.rid (.joinRead p : Pending T))
      split at h
      · rw [List.mem_singleton] at h; subst h; cases hown
      · rename_i s hg
        rw [hg] at hs
        cases s <;> simp only [RunState.joinChecks, List.mem_append, tracked_mem, logAssert_mem, List.not_mem_nil] at h
        · rcases h with ⟨h1, rfl⟩ | ⟨-, rfl⟩
          · exact h1
          · refine ⟨hs.1, ?_⟩
            exact Option.isSome_iff_ne_none.2 (hj.1.1 h0).2
        · rcases h with ⟨h1, rfl⟩ | h
          · exact h1
          · split at h
            · simp at h
            · split at h
              · rw [logAssert_mem] at h
                obtain ⟨-, rfl⟩ := h
                exact ⟨hs.1, (hj.2.1 h0).2⟩
              · simp at h
    case pulled => simp at h
    case markEnd r e items =>
      split at h
      · simp at h
      · rename_i s hg
        cases s <;> simp only [RunState.markEndChecks, List.mem_append, tracked_flat, logAssert_mem,
          List.not_mem_nil, List.mem_singleton] at h
        · subst h; cases hown
        · rcases h with ⟨-, rfl⟩ | ⟨x, -, h1, rfl⟩
          · cases hown
          · exact h1
    case respond r e items eow plan =>
      split at h
      · rw [logAssert_mem] at h; rw [h.2] at hown; cases hown
      · simp at h
    case timer r last =>
      split at h
      · rw [List.mem_singleton] at h; subst h; cases hown
      · rename_i s hg
        cases s <;> simp only [RunState.progressChecks, logAssert_mem, List.not_mem_nil] at h
        rw [h.2] at hown; cases hown
    case timeoutWrite r last =>
      split at h
      · rw [List.mem_singleton] at h; subst h; cases hown
      · rename_i s hg
        cases s <;> simp only [RunState.progressChecks, logAssert_mem, List.not_mem_nil] at h
        rw [h.2] at hown; cases hown
    all_goals simp at h

/-- All the requests of the sample run pass all checks. -/
example : checks ((init : Runs Nat).run Sample.pulls) (.request "run" (.complete (Sample.w 1) 7)) = [] := by
  decide

/-! ## The exceptions -/

/-- A worker whose process is replaced by a new one, with a new identity. -/
def restarted (id : Nat) : JoinParams := { Sample.jp 2 with entity := ⟨id, (Sample.w 2).tag⟩ }

/-- C141, the full statement fails: a check also fails although every worker process does what it
should. Worker 2 joins, is restarted before the manifest is there, and joins again as another
process: the queue takes that for an illegal state. -/
theorem C141_full_statement_fails :
    ∃ (acts : List (RunsAct Nat)) (a : RunsAct Nat),
      (checks ((init : Runs Nat).run acts) a).length = 1 ∧
      onlyJoins (acts ++ [a]) = true ∧
      ((joinsIn (acts ++ [a])).map (fun p => p.entity.id)).Nodup ∧
      ∀ p ∈ joinsIn (acts ++ [a]), isRunner p.entity = true := by
  refine ⟨Sample.joins ++ [.join (restarted 7)], .resume 1 .notFound true, by decide, by decide, by decide, by decide⟩

end Abq.Props

namespace Abq.Props
open Abq Spec
variable {T : Type}

theorem casStep_ptr (σ : Sys T) (tid : Nat) (tag : Tag) (n prev : Nat) :
    (σ.casStep tid tag n prev).queue = σ.queue ∧
      (σ.ptr ≤ (σ.casStep tid tag n prev).ptr ∨ σ.queue.length ≤ (σ.casStep tid tag n prev).ptr) := by
  unfold Sys.casStep
  split
  · exact ⟨rfl, .inl (Nat.le_refl _)⟩
  · rename_i e he
    split
    · rename_i hp
      have := (groupClosure_bounds he)
      refine ⟨rfl, .inl ?_⟩
      simp only
      omega
    · exact ⟨rfl, .inl (Nat.le_refl _)⟩

theorem sys_step_ptr (σ : Sys T) (a : Act) :
    (σ.step a).queue = σ.queue ∧ (σ.ptr ≤ (σ.step a).ptr ∨ σ.queue.length ≤ (σ.step a).ptr) := by
  cases a <;> simp only [Sys.step]
  case call tid tag n =>
    split
    · unfold Sys.call
      split
      · split
        · exact ⟨rfl, .inl (Nat.le_add_right _ _)⟩
        · exact ⟨rfl, .inl (Nat.le_refl _)⟩
      · exact ⟨rfl, .inl (Nat.le_refl _)⟩
    · exact ⟨rfl, .inl (Nat.le_refl _)⟩
  case retry tid tag => split <;> exact ⟨rfl, .inl (Nat.le_refl _)⟩
  case tick tid =>
    unfold Sys.tick
    split
    case h_4 => exact ⟨rfl, .inr (Nat.le_refl _)⟩
    case h_5 => exact casStep_ptr ..
    case h_8 =>
      split
      · simp only [Sys.markEnd]
        split <;> exact ⟨rfl, .inl (Nat.le_refl _)⟩
      · exact ⟨rfl, .inl (Nat.le_refl _)⟩
    all_goals first
      | exact ⟨rfl, .inl (Nat.le_refl _)⟩
      | (split <;> exact ⟨rfl, .inl (Nat.le_refl _)⟩)
  case spurious tid => split <;> exact ⟨rfl, .inl (Nat.le_refl _)⟩
  case cancel =>
    split
    · split <;> exact ⟨rfl, .inl (Nat.le_refl _)⟩
    · exact ⟨rfl, .inl (Nat.le_refl _)⟩

theorem sys_run_queue (σ : Sys T) (acts : List Act) : (σ.run acts).queue = σ.queue := by
  induction acts generalizing σ with
  | nil => rfl
  | cons a acts ih => exact (ih (σ.step a)).trans (sys_step_ptr σ a).1

/-- C141: with requests for tests interleaved down to their atomic operations, the position in the
manifest that a progress timer reads is never smaller than one read before, except once all tests
are handed out. -/
theorem C141_index_moves_forward (queue : List (T × Nat)) (strategy : TestStrategy) (k : Nat)
    (acts more : List Act) :
    ((Sys.init queue strategy k).run acts).ptr ≤ ((Sys.init queue strategy k).run (acts ++ more)).ptr ∨
      queue.length ≤ ((Sys.init queue strategy k).run (acts ++ more)).ptr := by
  have hq : ((Sys.init queue strategy k).run acts).queue = queue := sys_run_queue _ _
  rw [show (Sys.init queue strategy k).run (acts ++ more) =
    ((Sys.init queue strategy k).run acts).run more by simp [Sys.run, List.foldl_append]]
  generalize (Sys.init queue strategy k).run acts = σ at hq ⊢
  subst hq
  induction more generalizing σ with
  | nil => exact .inl (Nat.le_refl _)
  | cons a more ih =>
    have h1 := sys_step_ptr σ a
    have h2 := ih (σ.step a)
    rw [h1.1] at h2
    show σ.ptr ≤ ((σ.step a).run more).ptr ∨ σ.queue.length ≤ ((σ.step a).run more).ptr
    omega

/-- Two tests, of which three are asked for at once. -/
example : let σ := (Sys.init [(10, 0), (11, 0)] .byTest 1).run [.call 0 (.runner ⟨1, 1⟩) 3]
    σ.ptr = 3 ∧ (σ.run [.tick 0]).ptr = 2 := by
  decide

/-- C141: it does go back in the exceptional case: a request that asks for more tests than are left
moves the position beyond the end of the manifest for a moment, and a timer that reads it then sees
it go back, while the run is still serving tests. -/
theorem C141_index_may_go_back :
    ∃ (queue : List (Nat × Nat)) (strategy : TestStrategy) (acts more : List Act),
      ((Sys.init queue strategy 1).run (acts ++ more)).ptr < ((Sys.init queue strategy 1).run acts).ptr ∧
      ((Sys.init queue strategy 1).run (acts ++ more)).phase = .serving :=
  ⟨[(10, 0), (11, 0)], .byTest, [.call 0 (.runner ⟨1, 1⟩) 3], [.tick 0], by decide, rfl⟩

end Abq.Props
