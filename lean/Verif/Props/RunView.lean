import Verif.Proof.RunView
import Verif.Props.AllRunsJoin
import Verif.Proof.Timed
import Verif.Props.JobQueue

/-!
# What the queue says about a run (C99), and how runs are split in bundles (C04, C05)
-/

namespace Abq.Props
open Abq Abq.Runs Abq.Spec
variable {T : Type}

/-! ## C99: phases and answers -/

/-- C99: the phase of a run is determined by the answers given so far, in the way described by
`phaseNext`. -/
theorem C99_phase_is_history (acts : List (RunsAct T)) (rid : RunId) :
    phaseOf ((init : Runs T).run acts) rid = phaseAfter rid ((init : Runs T).run acts).events :=
  phase_run acts rid

/-- C99: a report about a run that nobody has asked for takes down whoever brings it, as does a cancellation; only the end of a
worker on it is answered. -/
theorem C99_unknown_run (acts : List (RunsAct T)) (rid : RunId) (h : phaseAfter rid ((init : Runs T).run acts).events = none)
    (e : Entity) (flat : List (T × Nat)) (md : String) (reason : CancelReason) (time : Nat) :
    let σ := (init : Runs T).run acts
    answer σ rid (.addManifest flat md) = [.noRun rid true] ∧ answer σ rid .manifestFailed = [.noRun rid true] ∧
    answer σ rid .emptyManifest = [.noRun rid true] ∧ answer σ rid (.cancel e reason) = [.noRun rid true] ∧
    answer σ rid (.complete e time) = [.noRun rid false] := by
  intro σ
  have hph : phaseOf σ rid = none := (phase_run acts rid).trans h
  have hg : σ.get rid = none := by
    unfold phaseOf at hph
    cases hs : σ.get rid with
    | none => rfl
    | some s => rw [hs] at hph; cases hph
  have hl : σ.readLocked rid = false := by
    have hb := base_run acts rid (T := T)
    unfold readLocked
    rw [List.any_eq_false]
    intro q hq hc
    simp only [Bool.and_eq_true, beq_iff_eq] at hc
    have := hb.ps q (List.mem_filter.2 ⟨hq, by simpa using hc.1⟩)
    have h1' : (proj ((init : Runs T).run acts) rid).s = none := hg
    rw [h1'] at this
    cases q <;> simp only [Pending.reads, Bool.false_eq_true, and_false] at hc
    simp only [PsOk, IsWork] at this
  rw [answer_eq σ rid _ fun _ => hl, answer_eq σ rid _ fun _ => hl, answer_eq σ rid _ fun _ => hl, answer_eq σ rid _ fun _ => hl,
    answer_eq σ rid _ fun _ => hl, hg]
  exact ⟨rfl, rfl, rfl, rfl, rfl⟩

example : phaseAfter "nope" ((init : Runs Nat).run [.request "nope" .emptyManifest]).events = none := rfl

/-- C99: what is answered about a run in each phase. -/
theorem C99_answers_by_phase (acts : List (RunsAct T)) (rid : RunId) (e : Entity) :
    let σ := (init : Runs T).run acts
    match phaseAfter rid σ.events with
    | none =>
      answer σ rid .status = [.noRun rid false] ∧ answer σ rid .writeCell = [.noRun rid false] ∧
      answer σ rid .readCell = [.noRun rid false] ∧ answer σ rid (.retryManifest e) = [.noRun rid false] ∧
      answer σ rid (.initMetadata e) = [.noRun rid true] ∧ answer σ rid (.nextWork e) = [.noRun rid true]
    | some .waiting =>
      answer σ rid .status = [.status rid .active] ∧
      answer σ rid .writeCell = [.write rid .waitingForManifest] ∧
      answer σ rid .readCell = [.read rid .waitingForManifest] ∧
      answer σ rid (.retryManifest e) = [.retry rid e .manifestNeverReceived] ∧
      answer σ rid (.initMetadata e) = [.initMeta rid e .waitingForManifest] ∧
      answer σ rid (.nextWork e) = [.work rid e [] true]
    | some .serving =>
      answer σ rid .status = [.status rid .active] ∧
      answer σ rid .writeCell = [.write rid (.cell false)] ∧
      (∃ l, answer σ rid .readCell = [.read rid (.inProgress l)]) ∧
      (∃ items, answer σ rid (.retryManifest e) = [.retry rid e (.manifest items)]) ∧
      (∃ md, answer σ rid (.initMetadata e) = [.initMeta rid e (.metadata md)]) ∧
      (∃ items, answer σ rid (.nextWork e) = [.pulled rid e items])
    | some .exhausted =>
      (∃ n, answer σ rid .status = [.status rid (.manifestDone n)] ∧
        (n = 0 → answer σ rid .readCell = [.read rid .readFromCell]) ∧
        (n ≠ 0 → ∃ l, l.length = n ∧ answer σ rid .readCell = [.read rid (.inProgress l)])) ∧
      answer σ rid .writeCell = [.write rid (.cell true)] ∧
      (∃ a, answer σ rid (.retryManifest e) = [.retry rid e a] ∧
        (a = .fetchFromPersistence ∨ a = .notYetPersisted ∨ a = .manifest [])) ∧
      (∃ a, answer σ rid (.initMetadata e) = [.initMeta rid e a] ∧
        ((∃ md, a = .metadata md) ∨ a = .alreadyCompleted false)) ∧
      answer σ rid (.nextWork e) = [.work rid e [] true]
    | some .cancelled =>
      answer σ rid .status = [.status rid .cancelled] ∧
      answer σ rid .writeCell = [.write rid .runCancelled] ∧
      (answer σ rid .readCell = [.read rid .runCancelled] ∨
        answer σ rid .readCell = [.read rid .manifestNeverReceived]) ∧
      answer σ rid (.retryManifest e) = [.retry rid e .runCancelled] ∧
      answer σ rid (.initMetadata e) = [.initMeta rid e (.alreadyCompleted true)] ∧
      answer σ rid (.nextWork e) = [.work rid e [] true] := by
  intro σ
  have hph : phaseAfter rid σ.events = phaseOf σ rid := (phase_run acts rid).symm
  rw [hph]
  rw [answer_eq σ rid .status (by simp [Req.writes]), answer_eq σ rid .writeCell (by simp [Req.writes]),
    answer_eq σ rid .readCell (by simp [Req.writes]), answer_eq σ rid (.retryManifest e) (by simp [Req.writes]),
    answer_eq σ rid (.initMetadata e) (by simp [Req.writes]),
    answer_eq σ rid (.nextWork e) (by simp [Req.writes])]
  have hb := (base_run acts rid (T := T)).st
  have hget : (proj ((init : Runs T).run acts) rid).s = σ.get rid := rfl
  rw [hget] at hb
  unfold phaseOf
  cases hs : σ.get rid with
  | none => exact ⟨rfl, rfl, rfl, rfl, rfl, rfl⟩
  | some s =>
    cases s with
    | waiting ws b st h => exact ⟨rfl, rfl, rfl, rfl, rfl, rfl⟩
    | hasWork q b md act h =>
      refine ⟨rfl, rfl, ⟨_, rfl⟩, ⟨_, rfl⟩, ⟨_, rfl⟩, ?_⟩
      rw [hs] at hb
      obtain ⟨q', items, hq, -⟩ := JobQueue.getWork_spec (tag := e.tag) hb.2 hb.1
      refine ⟨items, ?_⟩
      simp only [reqEff, exec, RunState.pull, hq]
    | done x md seen m h =>
      refine ⟨⟨_, rfl, fun hn => ?_, fun hn => ?_⟩, rfl, ?_, ?_, rfl⟩
      · have he : seen.filter (fun p => p.2) = [] := List.eq_nil_of_length_eq_zero hn
        simp only [reqEff, exec, RunState.readCell, he]
        rfl
      · refine ⟨(seen.filter (fun p => p.2)).map (fun p => p.1.tag), List.length_map .., ?_⟩
        simp only [reqEff, exec, RunState.readCell]
        rw [if_neg]
        cases hl : seen.filter (fun p => p.2) with
        | nil => rw [hl] at hn; exact absurd rfl hn
        | cons => simp
      · cases m with
        | cell b => cases b
                    · exact ⟨_, rfl, .inr (.inl rfl)⟩
                    · exact ⟨_, rfl, .inl rfl⟩
        | emptyManifest => exact ⟨_, rfl, .inr (.inr rfl)⟩
      · refine ⟨_, rfl, ?_⟩
        simp only [RunState.initMetadata]
        split
        · exact .inl ⟨_, rfl⟩
        · exact .inr rfl
    | cancelled r =>
      refine ⟨rfl, rfl, ?_, rfl, rfl, rfl⟩
      cases r
      · exact .inl rfl
      · exact .inl rfl
      · exact .inr rfl

/-! ## C99: metadata -/

/-- The metadata in a run state. -/
def mdOf : Option (RunState T) → Option String
  | some (.hasWork _ _ md _ _) => some md
  | some (.done _ md _ _ _) => some md
  | _ => none

theorem exec_md (rid : RunId) (s : RunState T) (r : Req T) (md : String)
    (h : mdOf (exec rid s r).state = some md) :
    mdOf (some s) = some md ∨ (∃ flat, r = .addManifest flat md ∧ phase s = .waiting) ∨
      (r = .emptyManifest ∧ phase s = .waiting ∧ md = "") := by
  cases r <;> cases s <;> simp only [exec] at h
  case addManifest.waiting flat m ws b st hh =>
    cases h
    exact .inr (.inl ⟨_, rfl, rfl⟩)
  case emptyManifest.waiting =>
    cases h
    exact .inr (.inr ⟨rfl, rfl, rfl⟩)
  case initMetadata.done e x md' seen m hh =>
    simp only [RunState.initMetadata] at h
    split at h <;> exact .inl h
  case nextWork.hasWork e q b md' act hh =>
    simp only [RunState.pull] at h
    cases hq : q.getWork e.tag b <;> rw [hq] at h <;> exact .inl h
  case retryManifest.done e x md' seen m hh =>
    cases m with
    | cell b => cases b <;> exact .inl h
    | emptyManifest => exact .inl h
  all_goals first
    | exact .inl h
    | cases h

theorem cont_md (s : Option (RunState T)) (ans : RemoteAns) (ok : Bool) (p : Pending T) (md : String)
    (h : mdOf (contEff s ans ok p).state = some md) :
    mdOf s = some md ∨ ∃ d, .loaded p.rid d ∈ (contEff s ans ok p).evs ∧ d.md = md := by
  cases p with
  | joinRemote p =>
    cases ans <;> cases s <;> simp only [contEff, loadRemote, createFresh] at h ⊢
    case found.none d =>
      cases h
      exact .inr ⟨d, by simp [Pending.rid], rfl⟩
    all_goals first
      | exact .inl h
      | cases h
  | joinRead p =>
    left
    cases s with
    | none => exact h
    | some s =>
      cases s <;> simp only [contEff, RunState.join] at h
      · cases h
      · split at h <;> exact h
      · split at h <;> exact h
      · exact h
  | pulled r e items =>
    left
    simp only [contEff] at h
    split at h <;> exact h
  | markEnd r e items =>
    left
    cases s with
    | none => exact h
    | some s => cases s <;> exact h
  | respond r e items eow pl =>
    left
    simp only [contEff] at h
    split at h <;> exact h
  | sub r => exact .inl h
  | dumpManifest r v =>
    left
    simp only [contEff] at h
    split at h <;> exact h
  | setPersisted r =>
    left
    cases s with
    | none => exact h
    | some s =>
      cases s with
      | done x md seen m hh => cases m <;> exact h
      | _ => exact h
  | dumpState r d =>
    left
    simp only [contEff] at h
    split at h <;> exact h
  | timer r last =>
    left
    cases s with
    | none => exact h
    | some s =>
      simp only [contEff, timerEff] at h
      split at h <;> exact h
  | timeoutWrite r last =>
    left
    cases s with
    | none => exact h
    | some s =>
      simp only [contEff, RunState.timeoutWrite] at h
      split at h
      · cases h
      · exact h

/-- The metadata a run has comes from somewhere. -/
def MetadataFrom (rid : RunId) (md : String) (acts : List (RunsAct T)) : Prop :=
  GivenMetadata rid md acts ∨
  (∃ d, .loaded rid d ∈ ((init : Runs T).run acts).events ∧ d.md = md) ∨
  (((init : Runs T).run acts).events.any (isEmptyManifest rid) = true ∧ md = "")

theorem run_snoc (acts : List (RunsAct T)) (a : RunsAct T) :
    (init : Runs T).run (acts ++ [a]) = ((init : Runs T).run acts).step a := by
  rw [Runs.run_append]; rfl

theorem MetadataFrom.mono {rid : RunId} {md : String} {acts : List (RunsAct T)} (a : RunsAct T)
    (h : MetadataFrom rid md acts) : MetadataFrom rid md (acts ++ [a]) := by
  obtain ⟨new, hn⟩ := step_events ((init : Runs T).run acts) a
  rcases h with ⟨x, flat, b, h1, h2⟩ | ⟨d, h1, h2⟩ | ⟨h1, h2⟩
  · exact .inl ⟨x, flat, b ++ [a], by rw [h1]; simp, h2⟩
  · refine .inr (.inl ⟨d, ?_, h2⟩)
    rw [run_snoc, hn]
    exact List.mem_append_left _ h1
  · refine .inr (.inr ⟨?_, h2⟩)
    rw [run_snoc, hn, List.any_append, h1]
    rfl

theorem md_run (acts : List (RunsAct T)) (rid : RunId) (md : String)
    (h : mdOf (((init : Runs T).run acts).get rid) = some md) : MetadataFrom rid md acts := by
  induction acts using Abq.Timed.snoc_induction with
  | nil => cases h
  | snoc acts a ih =>
    rw [run_snoc] at h
    rcases step_get ((init : Runs T).run acts) a rid with h1 | ⟨r, s, h1, h2, h3, h4⟩ |
      ⟨i, ans, ok, p, h1, h2, h3, h4, h5⟩
    · rw [h1] at h
      exact (ih h).mono a
    · rw [h3] at h
      rcases exec_md rid s r md h with h5 | ⟨flat, h5, h6⟩ | ⟨h5, h6, h7⟩
      · exact (ih (by rw [h2]; exact h5)).mono a
      · refine .inl ⟨acts, flat, [], by rw [h1, h5], ?_⟩
        unfold phaseOf
        rw [h2]
        simp [h6]
      · refine .inr (.inr ⟨?_, h7⟩)
        rw [run_snoc, h4, h5]
        cases s <;> first | (cases h6; done) | simp [exec, RunState.emptyManifest, isEmptyManifest]
    · rw [h4] at h
      rcases cont_md _ ans ok p md h with h6 | ⟨d, h6, h7⟩
      · exact (ih h6).mono a
      · refine .inr (.inl ⟨d, ?_, h7⟩)
        rw [run_snoc, h5]
        rw [h3] at h6
        exact List.mem_append_right _ h6

/-- C99: the metadata a worker is given is the metadata that came with the manifest of the run,
or that the remote store has for the run, or none if the manifest was empty. -/
theorem C99_metadata (acts : List (RunsAct T)) (rid : RunId) (e : Entity) (md : String)
    (h : answer ((init : Runs T).run acts) rid (.initMetadata e) = [.initMeta rid e (.metadata md)]) :
    GivenMetadata rid md acts ∨
    (∃ d, .loaded rid d ∈ ((init : Runs T).run acts).events ∧ d.md = md) ∨
    (((init : Runs T).run acts).events.any (isEmptyManifest rid) = true ∧ md = "") := by
  apply md_run acts rid md
  rw [answer_eq _ _ _ (by simp [Req.writes])] at h
  cases hs : ((init : Runs T).run acts).get rid with
  | none => rw [hs] at h; cases h
  | some s =>
    rw [hs] at h
    cases s with
    | waiting => cases h
    | hasWork => cases h; rfl
    | done x md' seen m hh =>
      simp only [reqEff, exec, RunState.initMetadata] at h
      split at h <;> cases h
      rfl
    | cancelled => cases h

/-! ## C99: the reason of a cancellation -/

/-- The reason in a run state. -/
def reasonOf : Option (RunState T) → Option CancelReason
  | some (.cancelled r) => some r
  | _ => none

theorem exec_reason (rid : RunId) (s : RunState T) (q : Req T) (r : CancelReason)
    (h : reasonOf (exec rid s q).state = some r) :
    (reasonOf (some s) = some r ∧ ∀ e r', q ≠ .cancel e r') ∨
      (∃ e, q = .cancel e r ∧ phase s ≠ .exhausted) ∨
      (q = .manifestFailed ∧ phase s = .waiting ∧ r = .manifestNeverReceived) := by
  cases q <;> cases s <;> simp only [exec] at h
  case cancel.waiting => cases h; exact .inr (.inl ⟨_, rfl, by simp [phase]⟩)
  case cancel.hasWork => cases h; exact .inr (.inl ⟨_, rfl, by simp [phase]⟩)
  case cancel.cancelled => cases h; exact .inr (.inl ⟨_, rfl, by simp [phase]⟩)
  case cancel.done => simp [RunState.cancel, reasonOf] at h
  case manifestFailed.waiting => cases h; exact .inr (.inr ⟨rfl, rfl, rfl⟩)
  case initMetadata.done e x md' seen m hh =>
    simp only [RunState.initMetadata] at h
    split at h <;> cases h
  case nextWork.hasWork e q b md' act hh =>
    simp only [RunState.pull] at h
    cases hq : q.getWork e.tag b <;> rw [hq] at h <;> cases h
  case retryManifest.done e x md' seen m hh =>
    cases m with
    | cell b => cases b <;> cases h
    | emptyManifest => cases h
  all_goals first
    | exact .inl ⟨h, by simp⟩
    | cases h

theorem cont_reason (s : Option (RunState T)) (ans : RemoteAns) (ok : Bool) (p : Pending T) (r : CancelReason)
    (h : reasonOf (contEff s ans ok p).state = some r) :
    reasonOf s = some r ∨ (∃ last, p = .timeoutWrite p.rid last ∧ r = .manifestHadNoProgress ∧
      (s.map phase = some .waiting ∨ s.map phase = some .serving)) := by
  cases p with
  | joinRemote p =>
    cases ans <;> cases s <;> simp only [contEff, loadRemote, createFresh] at h ⊢
    all_goals first
      | exact .inl h
      | cases h
  | joinRead p =>
    left
    cases s with
    | none => exact h
    | some s =>
      cases s <;> simp only [contEff, RunState.join] at h
      · cases h
      · split at h <;> exact h
      · split at h <;> exact h
      · exact h
  | pulled r e items =>
    left
    simp only [contEff] at h
    split at h <;> exact h
  | markEnd r e items =>
    left
    cases s with
    | none => exact h
    | some s => cases s <;> exact h
  | respond r e items eow pl =>
    left
    simp only [contEff] at h
    split at h <;> exact h
  | sub r => exact .inl h
  | dumpManifest r v =>
    left
    simp only [contEff] at h
    split at h <;> exact h
  | setPersisted r =>
    left
    cases s with
    | none => exact h
    | some s =>
      cases s with
      | done x md seen m hh => cases m <;> exact h
      | _ => exact h
  | dumpState r d =>
    left
    simp only [contEff] at h
    split at h <;> exact h
  | timer r last =>
    left
    cases s with
    | none => exact h
    | some s =>
      simp only [contEff, timerEff] at h
      split at h <;> exact h
  | timeoutWrite rr last =>
    cases s with
    | none => exact .inl h
    | some s =>
      simp only [contEff, RunState.timeoutWrite] at h
      split at h
      · rename_i hp
        cases h
        refine .inr ⟨last, rfl, rfl, ?_⟩
        rcases progress_eligible s last hp with ⟨ws, b, st, hs, rfl⟩ | ⟨q, b, md, act, hs, rfl, -⟩
        · exact .inl rfl
        · exact .inr rfl
      · exact .inl h

theorem reason_run (acts : List (RunsAct T)) (rid : RunId) (r : CancelReason)
    (h : reasonOf (((init : Runs T).run acts).get rid) = some r) :
    ∃ a act b, acts = a ++ act :: b ∧ CancelledBy rid r ((init : Runs T).run a) act ∧
      phaseOf ((init : Runs T).run (a ++ [act])) rid = some .cancelled ∧
      ∀ x ∈ b, cancelRequest rid x = false := by
  induction acts using Abq.Timed.snoc_induction with
  | nil => cases h
  | snoc acts act ih =>
    rw [run_snoc] at h
    have hph : phaseOf (((init : Runs T).run acts).step act) rid = some .cancelled := by
      unfold phaseOf
      cases hs : (((init : Runs T).run acts).step act).get rid with
      | none => rw [hs] at h; cases h
      | some s => rw [hs] at h; cases s <;> first | (cases h; done) | rfl
    have keep : reasonOf (((init : Runs T).run acts).get rid) = some r → cancelRequest rid act = false →
        ∃ a act' b, acts ++ [act] = a ++ act' :: b ∧ CancelledBy rid r ((init : Runs T).run a) act' ∧
          phaseOf ((init : Runs T).run (a ++ [act'])) rid = some .cancelled ∧
          ∀ x ∈ b, cancelRequest rid x = false := by
      intro h1 h2
      obtain ⟨a, act', b, e1, e2, e3, e4⟩ := ih h1
      refine ⟨a, act', b ++ [act], by rw [e1]; simp, e2, e3, ?_⟩
      intro x hx
      rcases List.mem_append.1 hx with hx | hx
      · exact e4 x hx
      · rw [List.mem_singleton.1 hx]; exact h2
    have done : CancelledBy rid r ((init : Runs T).run acts) act →
        ∃ a act' b, acts ++ [act] = a ++ act' :: b ∧ CancelledBy rid r ((init : Runs T).run a) act' ∧
          phaseOf ((init : Runs T).run (a ++ [act'])) rid = some .cancelled ∧
          ∀ x ∈ b, cancelRequest rid x = false :=
      fun hc => ⟨acts, act, [], rfl, hc, by rw [run_snoc]; exact hph, by simp⟩
    rcases step_get ((init : Runs T).run acts) act rid with h1 | ⟨q, s, h1, h2, h3, h4⟩ |
      ⟨i, ans, ok, p, h1, h2, h3, h4, h5⟩
    · by_cases hcr : cancelRequest rid act = true
      · -- a request to cancel that changed nothing: the reason was the same
        rw [h1] at h
        cases act with
        | request r' q =>
          cases q with
          | cancel e r'' =>
            have hr : r' = rid := by simpa [cancelRequest] using hcr
            subst hr
            cases hs : ((init : Runs T).run acts).get r' with
            | none => rw [hs] at h; cases h
            | some s =>
              rw [hs] at h
              cases s with
              | cancelled r0 =>
                cases h
                have hnl := not_locked acts r' .cancelled (by unfold phaseOf; rw [hs]; rfl) (by simp)
                have hst := step_request ((init : Runs T).run acts) r' (.cancel e r'') (fun _ => hnl)
                have hg : (((init : Runs T).run acts).step (.request r' (.cancel e r''))).get r' =
                    some (.cancelled r'') := by
                  rw [hst, apply_get, if_pos rfl, hs]
                  · rfl
                  · rw [hs]; simp [reqEff, exec]
                rw [h1, hs] at hg
                cases hg
                exact done (.inl ⟨e, rfl, by unfold phaseOf; rw [hs]; simp [phase]⟩)
              | _ => cases h
          | _ => cases hcr
        | _ => cases hcr
      · rw [h1] at h
        exact keep h (by simpa using hcr)
    · rw [h3] at h
      have hp : phaseOf ((init : Runs T).run acts) rid = some (phase s) := by
        unfold phaseOf; rw [h2]; rfl
      rcases exec_reason rid s q r h with ⟨h5, h6⟩ | ⟨e, h5, h6⟩ | ⟨h5, h6, h7⟩
      · refine keep (by rw [h2]; exact h5) ?_
        rw [h1]
        cases q with
        | cancel e r' => exact absurd rfl (h6 e r')
        | _ => rfl
      · refine done (.inl ⟨e, by rw [h1, h5], ?_⟩)
        rw [hp]
        simpa using h6
      · exact done (.inr (.inl ⟨by rw [h1, h5], by rw [hp, h6], h7⟩))
    · rw [h4] at h
      rcases cont_reason _ ans ok p r h with h6 | ⟨last, h6, h7, h8⟩
      · exact keep h6 (by rw [h1]; rfl)
      · refine done (.inr (.inr ⟨i, ans, ok, last, h1, ?_, h7, h8⟩))
        rw [h2, h6, h3]

/-- C99: the reason a worker joining a cancelled run is given is that of the last thing that
cancelled the run. -/
theorem C99_cancel_reason (acts : List (RunsAct T)) (i : Nat) (ans : RemoteAns) (ok : Bool)
    (p : JoinParams) (r : CancelReason)
    (hp : ((init : Runs T).run acts).pending[i]? = some (.joinRead p))
    (h : (((init : Runs T).run acts).step (.resume i ans ok)).events =
        ((init : Runs T).run acts).events ++ [.joined p (.cancelled r)]) :
    ∃ a act b, acts = a ++ act :: b ∧ CancelledBy p.rid r ((init : Runs T).run a) act ∧
      phaseOf ((init : Runs T).run (a ++ [act])) p.rid = some .cancelled ∧
      ∀ x ∈ b, cancelRequest p.rid x = false := by
  apply reason_run
  rw [step_resume _ _ _ _ _ hp (by simp [Pending.writes])] at h
  have h1 := List.append_cancel_left h
  simp only [Pending.rid] at h1
  cases hs : ((init : Runs T).run acts).get p.rid with
  | none => rw [hs] at h1; cases h1
  | some s =>
    rw [hs] at h1
    cases s with
    | waiting => cases h1
    | hasWork q b md act hh =>
      simp only [contEff, RunState.join] at h1
      split at h1 <;> cases h1
    | done x md seen m hh =>
      simp only [contEff, RunState.join] at h1
      split at h1 <;> cases h1
    | cancelled r' => cases h1; rfl

/-- C99: results of a cancelled run cannot be read, and the answer says that the manifest was
never received iff that was the reason of the cancellation. -/
theorem C99_cancelled_read (acts : List (RunsAct T)) (rid : RunId)
    (h : answer ((init : Runs T).run acts) rid .readCell = [.read rid .manifestNeverReceived]) :
    ∃ a act b, acts = a ++ act :: b ∧
      CancelledBy rid .manifestNeverReceived ((init : Runs T).run a) act ∧
      phaseOf ((init : Runs T).run (a ++ [act])) rid = some .cancelled ∧
      ∀ x ∈ b, cancelRequest rid x = false := by
  apply reason_run
  rw [answer_eq _ _ _ (by simp [Req.writes])] at h
  cases hs : ((init : Runs T).run acts).get rid with
  | none => rw [hs] at h; cases h
  | some s =>
    rw [hs] at h
    cases s with
    | waiting => cases h
    | hasWork => cases h
    | done x md seen m hh =>
      simp only [reqEff, exec, RunState.readCell] at h
      split at h <;> cases h
    | cancelled r' => cases r' <;> first | (cases h; done) | rfl

/-! ## C04 and C05 for the runs of the queue -/

/-- A bundle of a run: with the parameters of the worker that created the run, and the manifest
accepted for it. -/
def BundleOk (rid : RunId) (a : List (Event T)) (items : List (WorkerTest T)) : Prop :=
  ∃ p flat, p.rid = rid ∧ (∃ d, .joined p (.fresh true d) ∈ a) ∧ manifests rid a = [flat] ∧
    let n := min 100 p.hint.val
    let k := (handedOut rid a).length
    let m := items.length
    (p.strategy = .byTest → items = ((firstAttempts flat).drop k).take n) ∧
    (p.strategy = .byTopLevelGroup → items = ((firstAttempts flat).drop k).take m ∧
      (n ≤ m ∨ k + m = flat.length) ∧
      (∀ i x y, k < i → i < k + m → flat[i - 1]? = some x → flat[i]? = some y → x.2 ≠ y.2 → i - k < n) ∧
      (Spec.Queue.GroupsContiguous flat → ∀ i j x y, flat[i]? = some x → flat[j]? = some y → x.2 = y.2 →
        k ≤ i → i < k + m → k ≤ j ∧ j < k + m))

theorem groups_whole {T : Type} {queue : List (T × Nat)} (hg : Spec.Queue.GroupsContiguous queue) {s e : Nat}
    (b1 : Boundary queue s) (b2 : Boundary queue e) {i j : Nat} {x y : T × Nat}
    (hi : queue[i]? = some x) (hj : queue[j]? = some y) (hxy : x.2 = y.2) (h1 : s ≤ i) (h2 : i < e) :
    s ≤ j ∧ j < e := by
  have hlen : ∀ {x : Nat} {y}, queue[x]? = some y → x < queue.length :=
    fun hx => (List.getElem?_eq_some_iff.mp hx).1
  have li := hlen hi
  have lj := hlen hj
  constructor
  · apply Classical.byContradiction
    intro hlt
    have q1 : queue[s - 1]? = some queue[s - 1] := List.getElem?_eq_getElem (by omega)
    have q2 : queue[s]? = some queue[s] := List.getElem?_eq_getElem (by omega)
    have e1 := hg j (s - 1) i (by omega) (by omega) _ _ _ hj q1 hi hxy.symm
    have e2 := hg j s i (by omega) (by omega) _ _ _ hj q2 hi hxy.symm
    rcases b1 with b1 | b1 | b1
    · omega
    · omega
    · rw [q1, q2] at b1
      exact b1 (by simp [e1, e2])
  · apply Classical.byContradiction
    intro hge
    have q1 : queue[e - 1]? = some queue[e - 1] := List.getElem?_eq_getElem (by omega)
    have q2 : queue[e]? = some queue[e] := List.getElem?_eq_getElem (by omega)
    have e1 := hg i (e - 1) j (by omega) (by omega) _ _ _ hi q1 hj hxy
    have e2 := hg i e j (by omega) (by omega) _ _ _ hi q2 hj hxy
    rcases b2 with b2 | b2 | b2
    · omega
    · omega
    · rw [q1, q2] at b2
      exact b2 (by simp [e1, e2])

theorem boundary_map {T U : Type} {flat : List (T × Nat)} {f : T → U} {p : Nat} :
    Boundary (flat.map (fun x => (f x.1, x.2))) p ↔ Boundary flat p := by
  have h : ∀ i : Nat, ((flat.map (fun x => (f x.1, x.2)))[i]?).map Prod.snd = (flat[i]?).map Prod.snd := by
    intro i
    rw [List.getElem?_map, Option.map_map]
    rfl
  unfold Boundary
  rw [h, h, List.length_map]

theorem slice_first {T : Type} (flat : List (T × Nat)) (s e : Nat) :
    slice (flat.map (fun p => ((⟨p.1, 1⟩ : WorkerTest T), p.2))) s e =
      ((firstAttempts flat).drop s).take (e - s) := by
  unfold slice firstAttempts
  rw [List.map_take, List.map_drop, List.map_map]
  rfl

theorem bundle_pull {rid : RunId} {evs : List (Event T)} {q q' : JobQueue (WorkerTest T)} {b : Nat}
    {md : String} {act : WorkerSet (Option Nat)} {h : String} {e : Entity} {items : List (WorkerTest T)}
    (hst : StOk (some (.hasWork q b md act h))) (hh : HistOk rid evs (some (.hasWork q b md act h)))
    (hsp : SplitOk rid evs (some (.hasWork q b md act h)))
    (hq : q.getWork e.tag b = some (q', items)) : BundleOk rid evs items := by
  obtain ⟨flat, ho, hqu, hha, -⟩ := hh
  obtain ⟨⟨p, hp1, hp2, hp3, hp4⟩, hbd⟩ := hsp
  have hpu := JobQueue.getWork_pulled hst.2 hst.1 hq
  have hsl := getWork_split hst.2 hst.1 hq
  have hlen : q.queue.length = flat.length := by rw [hqu, List.length_map]
  have hn : b = min 100 p.hint.val := by
    rw [hp3]; unfold clampBatch; split <;> omega
  have hk : (handedOut rid evs).length = q.ptr := by
    rw [hha, List.length_take]
    have := hst.2.ptr
    simp only [firstAttempts, List.length_map]
    omega
  have hit : items = ((firstAttempts flat).drop q.ptr).take (q'.ptr - q.ptr) := by
    rw [hpu.items, hqu, slice_first]
  have hfl : (firstAttempts flat).length = flat.length := by simp [firstAttempts]
  have hle' := hpu.le'
  have hle := hpu.le
  have hm : items.length = q'.ptr - q.ptr := by
    rw [hit, List.length_take, List.length_drop, hfl]
    omega
  refine ⟨p, flat, hp1, hp2, ho, ?_⟩
  dsimp only
  rw [hk, ← hn]
  refine ⟨fun hs => ?_, fun hs => ?_⟩
  · rw [← hp4] at hs
    have h1 := hsl.1 hs
    rw [hit, h1, hlen]
    rcases Nat.le_total (q.ptr + b) flat.length with h2 | h2
    · rw [Nat.min_eq_left h2]
      congr 1
      omega
    · rw [Nat.min_eq_right h2, List.take_of_length_le (by rw [List.length_drop, hfl]; omega),
        List.take_of_length_le (by rw [List.length_drop, hfl]; omega)]
  · rw [← hp4] at hs
    refine ⟨by rw [hm]; exact hit, ?_⟩
    have hbm : ∀ x, Boundary q.queue x ↔ Boundary flat x := by
      intro x
      rw [hqu]
      exact boundary_map (f := fun t => (⟨t, 1⟩ : WorkerTest T))
    have hmm : q.ptr + items.length = q'.ptr := by omega
    rw [hmm]
    rcases Nat.lt_or_ge q.ptr q.queue.length with hlt | hge
    · obtain ⟨c1, c2, c3⟩ := hsl.2.1 hs hlt
      refine ⟨by rcases c2 with c2 | c2 <;> omega, ?_, ?_⟩
      · intro i x y i1 i2 hx hy hne
        refine c3 i i1 i2 ((hbm i).2 (.inr (.inr ?_)))
        rw [hx, hy]
        simpa using hne
      · intro hg i j x y hi hj hxy i1 i2
        exact groups_whole hg ((hbm _).1 (hbd hs)) ((hbm _).1 c1) hi hj hxy i1 i2
    · have h1 := hsl.2.2 hs hge
      have hpt := hst.2.ptr
      refine ⟨by omega, fun i x y i1 i2 => by omega, fun hg i j x y hi hj hxy i1 i2 => by omega⟩

/-- Every bundle of a run is cut from the manifest accepted for the run, with the batch size and the
strategy of the worker that created the run. -/
theorem bundles_run (acts : List (RunsAct T)) (rid : RunId) (a b : List (Event T)) (e : Entity)
    (items : List (WorkerTest T))
    (h : ((init : Runs T).run acts).events = a ++ .pulled rid e items :: b) : BundleOk rid a items := by
  have hall := always_run (rid := rid)
    (I := fun L => HistOk rid L.evs L.s ∧ SplitOk rid L.evs L.s)
    (P := fun a ev => ∀ e items, ev = (.pulled rid e items : Event T) → BundleOk rid a items)
    (fun acts => ⟨(hist_run acts rid).st, split_run acts rid⟩)
    (by
      intro L L' ev hb hI hs he e items hev
      subst hev
      obtain ⟨w, evs', hc, he', -⟩ := hs.change
      rw [he] at he'
      have h3 := List.append_cancel_left he'
      subst h3
      have hst := hb.st
      obtain ⟨hI1, hI2⟩ := hI
      clear hs he he'
      revert hc hst hI1 hI2
      generalize L.s = s0
      generalize L'.s = s1
      generalize L.evs = evs
      intro hc hst hI1 hI2
      generalize hev : [(.pulled rid e items : Event T)] = new at hc
      cases hc with
      | pull hq =>
        simp only [List.cons.injEq, Event.pulled.injEq, true_and, and_true] at hev
        obtain ⟨rfl, rfl⟩ := hev
        exact bundle_pull hst hI1 hI2 hq
      | create p hp => cases hev
      | load d => cases hev
      | manifest => cases hev
      | persisted => cases hev
      | empty => cases hev
      | refl s hqt => exact absurd rfl ((hqt _ (by rw [← hev]; simp)).2 rid e items)
      | waiting hqt => exact absurd rfl ((hqt _ (by rw [← hev]; simp)).2 rid e items)
      | active hqt => exact absurd rfl ((hqt _ (by rw [← hev]; simp)).2 rid e items)
      | mark hqt => exact absurd rfl ((hqt _ (by rw [← hev]; simp)).2 rid e items)
      | seen hqt => exact absurd rfl ((hqt _ (by rw [← hev]; simp)).2 rid e items)
      | cancelWaiting r hqt => exact absurd rfl ((hqt _ (by rw [← hev]; simp)).2 rid e items)
      | cancelWork r hqt => exact absurd rfl ((hqt _ (by rw [← hev]; simp)).2 rid e items)
      | cancelAgain r r' hqt => exact absurd rfl ((hqt _ (by rw [← hev]; simp)).2 rid e items))
    acts
  obtain ⟨p, flat, h1, ⟨d, h2⟩, h3, h4⟩ := always_global hall h rfl e items rfl
  refine ⟨p, flat, h1, ⟨d, (List.mem_filter.1 h2).1⟩, ?_, ?_⟩
  · rw [← manifests_filter]; exact h3
  · rw [← handedOut_filter]; exact h4

/-- C04 for the runs of the queue: a bundle of a run that was created to be split by test is the
next tests of its manifest, as many as the creator of the run asked for, at most 100, or all that
is left. -/
theorem C04_bundles_of_a_run (acts : List (RunsAct T)) (rid : RunId) (a b : List (Event T)) (e : Entity)
    (items : List (WorkerTest T))
    (h : ((init : Runs T).run acts).events = a ++ .pulled rid e items :: b) :
    ∃ p flat, p.rid = rid ∧ (∃ d, .joined p (.fresh true d) ∈ a) ∧ manifests rid a = [flat] ∧
      (p.strategy = .byTest →
        items = ((firstAttempts flat).drop (handedOut rid a).length).take (min 100 p.hint.val)) := by
  obtain ⟨p, flat, h1, h2, h3, h4, -⟩ := bundles_run acts rid a b e items h
  exact ⟨p, flat, h1, h2, h3, h4⟩

/-- C05 for the runs of the queue: a bundle of a run that was created to be split by file is the next
tests of its manifest, at least as many as the creator of the run asked for (or 100) unless these are
all that is left; it ends at the first end of a file where that is so, and has every file whole. -/
theorem C05_bundles_of_a_run (acts : List (RunsAct T)) (rid : RunId) (a b : List (Event T)) (e : Entity)
    (items : List (WorkerTest T))
    (h : ((init : Runs T).run acts).events = a ++ .pulled rid e items :: b) :
    ∃ p flat, p.rid = rid ∧ (∃ d, .joined p (.fresh true d) ∈ a) ∧ manifests rid a = [flat] ∧
      let n := min 100 p.hint.val
      let k := (handedOut rid a).length
      let m := items.length
      (p.strategy = .byTopLevelGroup → items = ((firstAttempts flat).drop k).take m ∧
        (n ≤ m ∨ k + m = flat.length) ∧
        (∀ i x y, k < i → i < k + m → flat[i - 1]? = some x → flat[i]? = some y → x.2 ≠ y.2 → i - k < n) ∧
        (Spec.Queue.GroupsContiguous flat → ∀ i j x y, flat[i]? = some x → flat[j]? = some y → x.2 = y.2 →
          k ≤ i → i < k + m → k ≤ j ∧ j < k + m)) := by
  obtain ⟨p, flat, h1, h2, h3, -, h5⟩ := bundles_run acts rid a b e items h
  exact ⟨p, flat, h1, h2, h3, h5⟩

/-! ## Concrete cases -/

/-- A run split by file: two files of two tests each, and a batch size of one. -/
def viewFiles : List (RunsAct Nat) :=
  [.join ⟨"run", Sample.w 1, ⟨1, by decide⟩, .byTopLevelGroup, "cmd"⟩, .resume 0 .notFound true,
   .request "run" (.addManifest [(10, 0), (11, 0), (12, 1), (13, 1)] "md"),
   .request "run" (.nextWork (Sample.w 1)), .resume 1 .notFound true,
   .request "run" (.nextWork (Sample.w 2))]

example : phaseAfter "run" ((init : Runs Nat).run Sample.joins).events = some .waiting ∧
    phaseAfter "run" ((init : Runs Nat).run Sample.serving).events = some .serving ∧
    phaseAfter "run" ((init : Runs Nat).run Sample.pulls).events = some .exhausted ∧
    phaseAfter "other" ((init : Runs Nat).run Sample.pulls).events = none ∧
    phaseAfter "run" ((init : Runs Nat).run
      (Sample.joins ++ [.request "run" (.cancel (Sample.w 1) .user)])).events = some .cancelled := by
  decide

example : answer ((init : Runs Nat).run Sample.serving) "run" (.initMetadata (Sample.w 1)) =
    [.initMeta "run" (Sample.w 1) (.metadata "md")] := rfl

example : ((init : Runs Nat).run (Sample.joins ++ [.request "run" .manifestFailed, .join (Sample.jp 2)])).pending[2]? =
      some (.joinRead (Sample.jp 2)) ∧
    (((init : Runs Nat).run (Sample.joins ++ [.request "run" .manifestFailed, .join (Sample.jp 2)])).step
      (.resume 2 .notFound true)).events.getLast? =
      some (.joined (Sample.jp 2) (.cancelled .manifestNeverReceived)) := ⟨rfl, rfl⟩

example : answer ((init : Runs Nat).run (Sample.joins ++ [.request "run" .manifestFailed])) "run" .readCell =
    [.read "run" .manifestNeverReceived] := rfl

example : ∃ a b, ((init : Runs Nat).run viewFiles).events =
      a ++ .pulled "run" (Sample.w 2) [⟨12, 1⟩, ⟨13, 1⟩] :: b ∧ handedOut "run" a = [⟨10, 1⟩, ⟨11, 1⟩] :=
  ⟨((init : Runs Nat).run viewFiles).events.take 4, [], rfl, rfl⟩

example : ∃ a b, ((init : Runs Nat).run Sample.pulls).events =
      a ++ .pulled "run" (Sample.w 2) [⟨11, 1⟩] :: b ∧ handedOut "run" a = [⟨10, 1⟩] :=
  ⟨((init : Runs Nat).run Sample.pulls).events.take 6, _, rfl, rfl⟩

end Abq.Props
