import Verif.Spec.RunView
import Verif.Proof.AllRunsFacts
import Verif.Proof.JobQueueInv

/-! # The phase of a run, its metadata and its batch size, read off its history -/

namespace Abq.Runs
open Spec WorkerSet
variable {T : Type}

/-! ## Phases -/

theorem exec_phase (rid : RunId) (s : RunState T) (r : Req T) :
    (exec rid s r).state.map phase =
      (exec rid s r).evs.foldl (phaseNext rid) (some (phase s)) := by
  cases r <;> cases s <;> simp only [exec] <;>
    first
    | rfl
    | (simp [phaseNext, phase, RunState.addManifest, RunState.manifestFailed, RunState.emptyManifest,
        RunState.cancel]; done)
    | skip
  case initMetadata.done e x md seen m h =>
    simp only [RunState.initMetadata]
    split <;> rfl
  case nextWork.waiting => simp [RunState.pull, phaseNext, phase]
  case nextWork.hasWork e q b md act h =>
    simp only [RunState.pull]
    cases q.getWork e.tag b <;> rfl
  case nextWork.done => simp [RunState.pull, phaseNext, phase]
  case nextWork.cancelled => simp [RunState.pull, phaseNext, phase]
  case retryManifest.done e x md seen m h =>
    cases m with
    | cell b => cases b <;> rfl
    | emptyManifest => rfl

theorem join_phase (s : RunState T) (e : Entity) (h : String) : phase (s.join e h).1 = phase s := by
  cases s <;> simp only [RunState.join]
  · rfl
  · split <;> rfl
  · split <;> rfl

theorem phaseNext_joined (rid : RunId) (p : Option Spec.Phase) (q : JoinParams) (a : Assigned)
    (h : ∀ d, a ≠ .fresh true d) : phaseNext rid p (.joined q a : Event T) = p := by
  cases a with
  | fresh g d =>
    cases g
    · rfl
    · exact absurd rfl (h d)
  | _ => rfl

theorem step1_phase {rid : RunId} {s s' : Option (RunState T)} {evs : List (Event T)}
    (h : Step1 rid s evs s') : s'.map phase = evs.foldl (phaseNext rid) (s.map phase) := by
  cases h with
  | silent s => rfl
  | setPersisted s =>
    cases s with
    | none => rfl
    | some s =>
      cases s with
      | done x md seen m h => cases m <;> rfl
      | _ => rfl
  | fatal => rfl
  | create p hp => simp [phaseNext, hp, phase, RunState.fresh]
  | load d => simp [phaseNext, phase, RunState.loaded]
  | joined s p hp =>
    simp only [List.foldl_cons, List.foldl_nil, Option.map_some]
    rw [phaseNext_joined rid _ p _ (fun d => join_not_generate s _ _ d), join_phase]
  | noRun => rfl
  | req s r => exact exec_phase rid s r
  | work => rfl
  | mark s e items ho =>
    cases s with
    | waiting => exact ho.elim
    | hasWork => simp [phaseNext, phase, RunState.markEnd]
    | done => simp [phaseNext, phase, RunState.markEnd]
    | cancelled => simp [phaseNext, phase, RunState.markEnd]
  | delivered => rfl
  | lost => rfl
  | storeFailed => rfl
  | progress s last h =>
    cases s with
    | waiting => simp [RunState.progress] at h
    | hasWork q b md act hh =>
      simp only [RunState.progress] at h ⊢
      split at h
      · rename_i hlt
        rw [if_pos hlt]
        rfl
      · cases h
    | done => rfl
    | cancelled => rfl
  | timeout s last =>
    cases s with
    | waiting => simp [RunState.timeoutWrite, RunState.progress, phaseNext, phase]
    | hasWork q b md act hh =>
      simp only [RunState.timeoutWrite, RunState.progress]
      split <;> simp [phaseNext, phase]
    | done => rfl
    | cancelled => rfl

theorem phaseNext_other {rid : RunId} {p : Option Spec.Phase} {ev : Event T} (h : ev.rid ≠ rid) :
    phaseNext rid p ev = p := by
  cases ev <;> simp only [Event.rid] at h
  case joined q a =>
    cases a with
    | fresh g d => cases g <;> simp [phaseNext, h]
    | _ => rfl
  case manifest r flat added => cases added <;> simp [phaseNext, h]
  case emptyManifest r b => cases b <;> simp [phaseNext, h]
  case work r e items b => cases b <;> simp [phaseNext, h]
  case cancel r e b => cases b <;> simp [phaseNext, h]
  case progress r l a => cases a <;> simp [phaseNext, h]
  all_goals simp [phaseNext, h]

theorem phaseAfter_filter (rid : RunId) (evs : List (Event T)) :
    phaseAfter rid (evs.filter (fun ev => ev.rid == rid)) = phaseAfter rid evs := by
  unfold phaseAfter
  generalize (none : Option Spec.Phase) = p
  induction evs generalizing p with
  | nil => rfl
  | cons ev evs ih =>
    rw [List.filter_cons]
    by_cases h : ev.rid = rid
    · rw [if_pos (by simpa using h)]
      exact ih _
    · rw [if_neg (by simpa using h), ih, List.foldl_cons, phaseNext_other h]

theorem phase_run (acts : List (RunsAct T)) (rid : RunId) :
    phaseOf ((init : Runs T).run acts) rid = phaseAfter rid ((init : Runs T).run acts).events := by
  rw [← phaseAfter_filter]
  refine init_proj_induction' (rid := rid)
    (I := fun L => L.s.map phase = phaseAfter rid L.evs) rfl ?_ acts
  intro L L' hb h hs
  obtain ⟨evs, h1, h2⟩ := hs.step1 hb
  have := step1_phase h1
  unfold phaseAfter at *
  rw [this, h2, List.foldl_append, ← h]

/-! ## Batch size and strategy -/

/-- The run was created by a worker that joined with these parameters. -/
def CreatedWith (rid : RunId) (b : Nat) (st : TestStrategy) (evs : List (Event T)) : Prop :=
  ∃ p, p.rid = rid ∧ (∃ d, .joined p (.fresh true d) ∈ evs) ∧ b = clampBatch p.hint.val ∧ st = p.strategy

def SplitOk (rid : RunId) (evs : List (Event T)) : Option (RunState T) → Prop
  | some (.waiting _ b st _) => CreatedWith rid b st evs
  | some (.hasWork q b _ _ _) => CreatedWith rid b q.strategy evs ∧
      (q.strategy = .byTopLevelGroup → Boundary q.queue q.ptr)
  | _ => True

theorem CreatedWith.mono {rid : RunId} {b : Nat} {st : TestStrategy} {evs new : List (Event T)}
    (h : CreatedWith rid b st evs) : CreatedWith rid b st (evs ++ new) := by
  obtain ⟨p, h1, ⟨d, h2⟩, h3⟩ := h
  exact ⟨p, h1, ⟨d, List.mem_append_left _ h2⟩, h3⟩

/-- What one bundle is, by strategy. -/
theorem getWork_split {T : Type} {q q' : JobQueue T} {tag : Tag} {n : Nat} {items : List T} (h : q.WF)
    (hn : 0 < n) (hg : q.getWork tag n = some (q', items)) :
    (q.strategy = .byTest → q'.ptr = min (q.ptr + n) q.queue.length) ∧
    (q.strategy = .byTopLevelGroup → q.ptr < q.queue.length →
      Boundary q.queue q'.ptr ∧ (q'.ptr - q.ptr ≥ n ∨ q'.ptr = q.queue.length) ∧
      ∀ p, q.ptr < p → p < q'.ptr → Boundary q.queue p → p - q.ptr < n) ∧
    (q.strategy = .byTopLevelGroup → q.queue.length ≤ q.ptr → q'.ptr = q.ptr) := by
  have hp := h.ptr
  have hptr : q'.ptr = (q.getBounds n).2 := by
    unfold JobQueue.getWork at hg
    dsimp only at hg
    split at hg
    · cases hg; rfl
    · cases hg
  rw [hptr]
  unfold JobQueue.getBounds
  refine ⟨fun hs => ?_, fun hs hlt => ?_, fun hs hge => ?_⟩
  · rw [hs]
    simp only [JobQueue.getBoundsByTest, byTestBounds]
    have h1 : ¬ q.ptr > q.queue.length := by omega
    simp only [h1, if_false]
    by_cases h2 : q.ptr + n > q.queue.length
    · simp only [h2, if_true]; omega
    · simp only [h2, if_false, Bool.false_eq_true]; omega
  · rw [hs]
    simp only [JobQueue.getBoundsByTopLevelGroup]
    cases hc : groupClosure q.queue n q.ptr with
    | none => have := groupClosure_none hc; omega
    | some e => exact groupClosure_spec hc
  · rw [hs]
    simp only [JobQueue.getBoundsByTopLevelGroup]
    cases hc : groupClosure q.queue n q.ptr with
    | none => rfl
    | some e => have := groupClosure_bounds hc; omega

theorem splitOk_change {rid : RunId} {w : Bool} {evs new : List (Event T)} {s s' : Option (RunState T)}
    (h : Change rid w s new s') (ho : StOk s) (hs : SplitOk rid evs s) : SplitOk rid (evs ++ new) s' := by
  cases h with
  | refl =>
    cases s with
    | none => trivial
    | some s =>
      cases s with
      | waiting => exact CreatedWith.mono hs
      | hasWork => exact ⟨CreatedWith.mono hs.1, hs.2⟩
      | done => trivial
      | cancelled => trivial
  | create p hp => exact ⟨p, hp, ⟨false, by simp⟩, rfl, rfl⟩
  | load d => trivial
  | waiting => exact CreatedWith.mono (b := _) hs
  | manifest flat md => exact ⟨CreatedWith.mono hs, fun _ => .inl rfl⟩
  | active => exact ⟨CreatedWith.mono hs.1, hs.2⟩
  | pull hq =>
    rename_i q q' b md act act' h e items
    have hp := JobQueue.getWork_pulled ho.2 ho.1 hq
    have hg := getWork_split ho.2 ho.1 hq
    refine ⟨?_, fun hst => ?_⟩
    · rw [hp.strategy]; exact CreatedWith.mono hs.1
    · rw [hp.strategy] at hst
      rw [hp.queue]
      rcases Nat.lt_or_ge q.ptr q.queue.length with hlt | hge
      · exact (hg.2.1 hst hlt).1
      · rw [hg.2.2 hst hge]; exact hs.2 hst
  | mark => trivial
  | seen => trivial
  | persisted => trivial
  | empty => trivial
  | cancelWaiting => trivial
  | cancelWork => trivial
  | cancelAgain => trivial

theorem split_run (acts : List (RunsAct T)) (rid : RunId) :
    SplitOk rid (proj ((init : Runs T).run acts) rid).evs (proj ((init : Runs T).run acts) rid).s :=
  init_proj_induction' (rid := rid) (I := fun L => SplitOk rid L.evs L.s) trivial
    (fun L L' hb h hs => by
      obtain ⟨w, evs', hc, he, -⟩ := hs.change
      rw [he]
      exact splitOk_change hc hb.st h) acts

/-! ## One step, with the request that made it -/

/-- What a step does to one run: nothing, what a request for it does, or what a continuation of
it does. -/
theorem step_get (σ : Runs T) (act : RunsAct T) (rid : RunId) :
    (σ.step act).get rid = σ.get rid ∨
    (∃ r s, act = .request rid r ∧ σ.get rid = some s ∧ (σ.step act).get rid = (exec rid s r).state ∧
      (σ.step act).events = σ.events ++ (exec rid s r).evs) ∨
    (∃ i ans ok p, act = .resume i ans ok ∧ σ.pending[i]? = some p ∧ p.rid = rid ∧
      (σ.step act).get rid = (contEff (σ.get rid) ans ok p).state ∧
      (σ.step act).events = σ.events ++ (contEff (σ.get rid) ans ok p).evs) := by
  have hget : ∀ (σ : Runs T) (r : RunId) (x : Eff T), (x.state = none → σ.get r = none) →
      (σ.apply r x).get rid = if rid = r then x.state else σ.get rid :=
    fun σ r x h => lookup_put σ.runs r rid x.state h
  cases act with
  | join p =>
    left
    simp only [step]
    rw [hget _ _ _ joinEff_state]
    split
    · rename_i h
      rw [h]
      cases σ.get p.rid <;> rfl
    · rfl
  | request r q =>
    simp only [step]
    split
    · exact .inl rfl
    · rw [hget _ _ _ reqEff_state]
      split
      · rename_i h
        subst h
        cases hs : σ.get rid with
        | none => exact .inl rfl
        | some s => exact .inr (.inl ⟨q, s, rfl, rfl, rfl, by simp [Runs.apply, reqEff]⟩)
      · exact .inl rfl
  | resume i ans ok =>
    simp only [step]
    split
    · exact .inl rfl
    · rename_i p hp
      split
      · exact .inl rfl
      · rw [hget { σ with pending := σ.pending.eraseIdx i } _ _
          (fun h => contEff_state (s := σ.get p.rid) h)]
        split
        · rename_i h
          subst h
          exact .inr (.inr ⟨i, ans, ok, p, rfl, hp, rfl, rfl, rfl⟩)
        · exact .inl rfl

end Abq.Runs
