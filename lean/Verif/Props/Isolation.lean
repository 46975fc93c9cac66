import Verif.Spec.Isolation
import Verif.Proof.AllRunsLocal
/-!
# Runs do not affect one another (C119)
-/

namespace Abq.Props
open Abq.Runs Abq.Spec.Isolation
variable {T : Type}

/-- `τ` is a queue that knows only run `rid`, and of that what `σ` knows. -/
structure Alone (rid : RunId) (σ τ : Runs T) : Prop where
  same : proj τ rid = proj σ rid
  pending : ∀ p ∈ τ.pending, p.rid = rid
  events : ∀ e ∈ τ.events, e.rid = rid
  runs : ∀ r, r ≠ rid → τ.get r = none

theorem Alone.pending_eq {rid : RunId} {σ τ : Runs T} (h : Alone rid σ τ) :
    τ.pending = σ.pending.filter (fun p => p.rid == rid) := by
  have h1 := congrArg Loc.ps h.same
  simp only [proj] at h1
  rw [← h1, List.filter_eq_self.mpr]
  intro p hp
  simpa using h.pending p hp

theorem Alone.events_eq {rid : RunId} {σ τ : Runs T} (h : Alone rid σ τ) :
    τ.events = σ.events.filter (fun p => p.rid == rid) := by
  have h1 := congrArg Loc.evs h.same
  simp only [proj] at h1
  rw [← h1, List.filter_eq_self.mpr]
  intro p hp
  simpa using h.events p hp

theorem alone_apply {rid : RunId} {σ τ : Runs T} (h : Alone rid σ τ) {x : Eff T} (hx : EffOn rid x)
    (hs : x.state = none → σ.get rid = none) : Alone rid (σ.apply rid x) (τ.apply rid x) := by
  have hg : τ.get rid = σ.get rid := congrArg Loc.s h.same
  refine ⟨?_, ?_, ?_, ?_⟩
  · rw [proj_apply _ _ _ hx hs, proj_apply _ _ _ hx (fun e => by rw [hg]; exact hs e), if_pos rfl, if_pos rfl, h.same]
  · intro p hp
    rcases List.mem_append.1 hp with hp | hp
    · exact h.pending p hp
    · exact hx.next p hp
  · intro e he
    rcases List.mem_append.1 he with he | he
    · exact h.events e he
    · exact hx.evs e he
  · intro r hr
    show List.lookup r (put τ.runs rid x.state) = none
    rw [lookup_put _ _ _ _ (fun e => by have := hs e; rw [← hg] at this; exact this), if_neg hr]
    exact h.runs r hr

theorem alone_other {rid r : RunId} {σ τ : Runs T} (h : Alone rid σ τ) (hr : rid ≠ r) {x : Eff T} (hx : EffOn r x)
    (hs : x.state = none → σ.get r = none) : Alone rid (σ.apply r x) τ := by
  refine ⟨?_, h.pending, h.events, h.runs⟩
  rw [proj_apply _ _ _ hx hs, if_neg hr, h.same]

theorem alone_locked {rid : RunId} {σ τ : Runs T} (h : Alone rid σ τ) : τ.readLocked rid = σ.readLocked rid := by
  have h1 := readLocked_iff σ rid
  have h2 := readLocked_iff τ rid
  rw [h.same, ← h1] at h2
  cases ha : σ.readLocked rid <;> cases hb : τ.readLocked rid <;> rw [ha, hb] at h2 <;> simp at h2 <;> rfl

theorem filter_eraseIdx {γ : Type} (f : γ → Bool) : ∀ (l : List γ) (i : Nat) (x : γ), l[i]? = some x → f x = true →
    (l.filter f)[((l.take i).filter f).length]? = some x ∧
    (l.eraseIdx i).filter f = (l.filter f).eraseIdx ((l.take i).filter f).length
  | [], i, x, h, _ => by simp at h
  | y :: l, 0, x, h, hf => by
    simp only [List.getElem?_cons_zero, Option.some.injEq] at h
    subst h
    simp [hf]
  | y :: l, i + 1, x, h, hf => by
    rw [List.getElem?_cons_succ] at h
    obtain ⟨h1, h2⟩ := filter_eraseIdx f l i x h hf
    by_cases hy : f y = true
    · simp [hy, h1, h2]
    · simp [hy, h1, h2]

theorem filter_eraseIdx_other {γ : Type} (f : γ → Bool) : ∀ (l : List γ) (i : Nat) (x : γ), l[i]? = some x → f x = false →
    (l.eraseIdx i).filter f = l.filter f
  | [], i, x, h, _ => by simp at h
  | y :: l, 0, x, h, hf => by
    simp only [List.getElem?_cons_zero, Option.some.injEq] at h
    subst h
    simp [hf]
  | y :: l, i + 1, x, h, hf => by
    rw [List.getElem?_cons_succ] at h
    have h1 := filter_eraseIdx_other f l i x h hf
    by_cases hy : f y = true
    · simp [hy, h1]
    · simp [hy, h1]

theorem alone_step {rid : RunId} {σ τ : Runs T} (h : Alone rid σ τ) (a : RunsAct T) :
    Alone rid (σ.step a) (τ.run (concerning rid σ a)) := by
  have hg : τ.get rid = σ.get rid := congrArg Loc.s h.same
  cases a with
  | join p =>
    simp only [concerning, Runs.step]
    by_cases hr : p.rid = rid
    · subst hr
      rw [if_pos rfl]
      show Alone _ _ (τ.step (.join p))
      simp only [Runs.step, hg]
      exact alone_apply h (joinEff_on _ _) joinEff_state
    · rw [if_neg hr]
      exact alone_other h (fun e => hr e.symm) (joinEff_on _ _) joinEff_state
  | request r q =>
    simp only [concerning, Runs.step]
    by_cases hr : r = rid
    · subst hr
      rw [if_pos rfl]
      show Alone _ _ (τ.step (.request r q))
      simp only [Runs.step, alone_locked h, hg]
      split
      · exact h
      · exact alone_apply h (reqEff_on _ _ _) reqEff_state
    · rw [if_neg hr]
      split
      · exact h
      · exact alone_other h (fun e => hr e.symm) (reqEff_on _ _ _) reqEff_state
  | resume i ans ok =>
    simp only [concerning, Runs.step]
    cases hp : σ.pending[i]? with
    | none => exact h
    | some p =>
      dsimp only
      by_cases hr : p.rid = rid
      · subst hr
        rw [if_pos rfl]
        show Alone _ _ (τ.step (.resume _ ans ok))
        obtain ⟨h1, h2⟩ := filter_eraseIdx (fun q : Pending T => q.rid == p.rid) σ.pending i p hp (by simp)
        rw [← h.pending_eq] at h1 h2
        simp only [Runs.step, h1, alone_locked h, hg]
        split
        · exact h
        · refine alone_apply (σ := { σ with pending := σ.pending.eraseIdx i })
            (τ := { τ with pending := τ.pending.eraseIdx _ }) ⟨?_, ?_, h.events, h.runs⟩
            (contEff_on (σ.get p.rid) ans ok p) (fun h => contEff_state (s := σ.get p.rid) h)
          · have h3 := h.same
            simp only [proj, Loc.mk.injEq] at h3 ⊢
            refine ⟨h3.1, ?_, h3.2.2⟩
            rw [h2, List.filter_eq_self.mpr]
            intro q hq
            simpa using h.pending q (List.mem_of_mem_eraseIdx hq)
          · intro q hq
            exact h.pending q (List.mem_of_mem_eraseIdx hq)
      · rw [if_neg hr]
        split
        · exact h
        · refine alone_other (σ := { σ with pending := σ.pending.eraseIdx i }) ⟨?_, h.pending, h.events, h.runs⟩
            (fun e => hr e.symm) (contEff_on (σ.get p.rid) ans ok p) (fun h => contEff_state (s := σ.get p.rid) h)
          have h3 := h.same
          simp only [proj, Loc.mk.injEq] at h3 ⊢
          refine ⟨h3.1, ?_, h3.2.2⟩
          rw [filter_eraseIdx_other (fun q : Pending T => q.rid == rid) σ.pending i p hp (by simpa using hr)]
          exact h3.2.1

theorem alone_run {rid : RunId} (acts : List (RunsAct T)) : ∀ {σ τ : Runs T}, Alone rid σ τ →
    Alone rid (σ.run acts) (τ.run (only rid σ acts)) := by
  induction acts with
  | nil => intro σ τ h; exact h
  | cons a acts ih =>
    intro σ τ h
    rw [only, run_append]
    exact ih (alone_step h a)

/-- **C119.** A queue that serves many runs does with each of them what a queue would do that served only this one: it gives the same
answers to what is asked about the run, in the same order, it has the same knowledge of it and the same still to do for it, and what it
stores for it is the same. -/
theorem C119_as_if_alone (rid : RunId) (acts : List (RunsAct T)) :
    let σ := (init : Runs T).run acts
    let τ := (init : Runs T).run (only rid init acts)
    τ.events = σ.events.filter (fun e => e.rid == rid) ∧
    τ.get rid = σ.get rid ∧
    τ.pending = σ.pending.filter (fun p => p.rid == rid) ∧
    (τ.store.filter (fun p => p.1 == rid)).map Prod.snd = (σ.store.filter (fun p => p.1 == rid)).map Prod.snd ∧
    (τ.remote.filter (fun p => p.1 == rid)).map Prod.snd = (σ.remote.filter (fun p => p.1 == rid)).map Prod.snd ∧
    ∀ r, r ≠ rid → τ.get r = none := by
  intro σ τ
  have h : Alone rid σ τ := alone_run acts ⟨rfl, (fun p hp => by cases hp), (fun e he => by cases he), fun r _ => rfl⟩
  exact ⟨h.events_eq, congrArg Loc.s h.same, h.pending_eq, congrArg Loc.store h.same, congrArg Loc.remote h.same, h.runs⟩

/-- **C119.** Hence, if what concerns a run is the same in two histories, then so are all answers about it. -/
theorem C119_answers_depend_on_run_only (rid : RunId) (acts acts' : List (RunsAct T))
    (h : only rid (init : Runs T) acts = only rid init acts') :
    ((init : Runs T).run acts).events.filter (fun e => e.rid == rid) =
      ((init : Runs T).run acts').events.filter (fun e => e.rid == rid) := by
  rw [← (C119_as_if_alone rid acts).1, ← (C119_as_if_alone rid acts').1, h]

/-! ## With restarts of the queue, and a store that all runs share -/

theorem step_events (σ : Runs T) (a : RunsAct T) : ∃ d, (σ.step a).events = σ.events ++ d := by
  cases a with
  | join p => exact ⟨_, rfl⟩
  | request r q =>
    simp only [Runs.step]
    split
    · exact ⟨[], by simp⟩
    · exact ⟨_, rfl⟩
  | resume i ans ok =>
    simp only [Runs.step]
    split
    · exact ⟨[], by simp⟩
    · split
      · exact ⟨[], by simp⟩
      · exact ⟨_, rfl⟩

/-- What is new for the run. -/
theorem alone_news {rid : RunId} {σ τ : Runs T} (h : Alone rid σ τ) (a : RunsAct T) :
    Restart.World.news τ (τ.run (concerning rid σ a)) = (Restart.World.news σ (σ.step a)).filter (about rid) := by
  have h1 := h.events_eq
  have h2 := (alone_step h a).events_eq
  obtain ⟨d, hd⟩ := step_events σ a
  rw [hd, List.filter_append, ← h1] at h2
  unfold Restart.World.news
  rw [h2, hd, List.drop_left, List.drop_left, List.filter_map]
  rfl

/-- `v` is a world in which only run `rid` is served, as it is in `w`. -/
structure AloneWorld (rid : RunId) (w v : Restart.World T) : Prop where
  queue : Alone rid w.queue v.queue
  objects : List.lookup rid v.objects = List.lookup rid w.objects
  log : v.log = w.log.filter (about rid)

theorem lookup_store (st : Restart.Strategy) (fault ok : Bool) (objects : List (RunId × Restart.Object)) (p : Pending T) (rid : RunId)
    (h : p.rid ≠ rid) : List.lookup rid (Restart.World.storeBy st fault ok objects p) = List.lookup rid objects := by
  cases p with
  | dumpState r d =>
    have hne : (rid == r) = false := by simpa [Pending.rid] using fun e : rid = r => h e.symm
    simp only [Restart.World.storeBy, Restart.store]
    cases st <;> cases fault <;> cases ok <;> simp [List.lookup_cons, hne]
  | _ => rfl

theorem lookup_store_same (st : Restart.Strategy) (fault ok : Bool) {objects objects' : List (RunId × Restart.Object)} (p : Pending T)
    (h : List.lookup p.rid objects = List.lookup p.rid objects') :
    List.lookup p.rid (Restart.World.storeBy st fault ok objects p) = List.lookup p.rid (Restart.World.storeBy st fault ok objects' p) := by
  cases p with
  | dumpState r d =>
    simp only [Pending.rid] at h
    simp only [Restart.World.storeBy, Restart.store, Pending.rid]
    cases st <;> cases fault <;> cases ok <;> simp [h]
  | _ => exact h

theorem storeObs_about (st : Restart.Strategy) (fault ok : Bool) (p : Pending T) (rid : RunId) :
    (Restart.World.storeObs st fault ok p).filter (about rid) = if p.rid = rid then Restart.World.storeObs st fault ok p else [] := by
  cases p with
  | dumpState r d =>
    simp only [Restart.World.storeObs, Pending.rid]
    by_cases hr : r = rid
    · subst hr
      cases st <;> cases fault <;> cases ok <;> simp [about]
    · have : (r == rid) = false := by simpa using hr
      cases st <;> cases fault <;> cases ok <;> simp [about, this, hr]
  | joinRemote q =>
    simp only [Restart.World.storeObs, Pending.rid]
    by_cases hr : q.rid = rid
    · cases fault <;> simp [about, hr]
    · cases fault <;> simp [about, hr]
  | _ => simp [Restart.World.storeObs]

theorem aloneWorld_step (st : Restart.Strategy) {rid : RunId} {w v : Restart.World T} (h : AloneWorld rid w v) (a : Restart.Act T) :
    AloneWorld rid (w.step st a) (v.run st (concerningWorld rid w a)) := by
  cases a with
  | join p =>
    have h1 := alone_step h.queue (.join p)
    have h2 := alone_news h.queue (.join p)
    simp only [concerningWorld, concerning] at h1 h2 ⊢
    by_cases hr : p.rid = rid
    · rw [if_pos hr] at h1 h2 ⊢
      refine ⟨h1, h.objects, ?_⟩
      show v.log ++ _ = List.filter _ (w.log ++ _)
      rw [List.filter_append, h.log]
      exact congrArg _ h2
    · rw [if_neg hr] at h1 h2 ⊢
      refine ⟨h1, h.objects, ?_⟩
      show v.log = List.filter _ (w.log ++ _)
      rw [List.filter_append, ← h2, ← h.log]
      simp [Restart.World.news, Runs.run]
  | request r q =>
    have h1 := alone_step h.queue (.request r q)
    have h2 := alone_news h.queue (.request r q)
    simp only [concerningWorld, concerning] at h1 h2 ⊢
    by_cases hr : r = rid
    · rw [if_pos hr] at h1 h2 ⊢
      refine ⟨h1, h.objects, ?_⟩
      show v.log ++ _ = List.filter _ (w.log ++ _)
      rw [List.filter_append, h.log]
      exact congrArg _ h2
    · rw [if_neg hr] at h1 h2 ⊢
      refine ⟨h1, h.objects, ?_⟩
      show v.log = List.filter _ (w.log ++ _)
      rw [List.filter_append, ← h2, ← h.log]
      simp [Restart.World.news, Runs.run]
  | restart =>
    refine ⟨⟨rfl, (fun p hp => by cases hp), (fun e he => by cases he), fun r _ => rfl⟩, h.objects, ?_⟩
    show v.log ++ _ = List.filter _ (w.log ++ _)
    rw [List.filter_append, h.log]
    rfl
  | resume i fault ok =>
    simp only [concerningWorld, Restart.World.step]
    cases hp : w.queue.pending[i]? with
    | none => exact h
    | some p =>
      dsimp only
      have h1 := alone_step h.queue (.resume i (Restart.load st (List.lookup p.rid w.objects) fault) (Restart.World.ioOk st fault ok p))
      have h2 := alone_news h.queue (.resume i (Restart.load st (List.lookup p.rid w.objects) fault) (Restart.World.ioOk st fault ok p))
      simp only [concerning, hp] at h1 h2
      by_cases hr : p.rid = rid
      · subst hr
        rw [if_pos rfl] at h1 h2 ⊢
        have hq := (filter_eraseIdx (fun q : Pending T => q.rid == p.rid) w.queue.pending i p hp (by simp)).1
        rw [← h.queue.pending_eq] at hq
        show AloneWorld _ _ (v.step st (.resume _ fault ok))
        simp only [Restart.World.step, hq]
        unfold Restart.World.resume
        dsimp only
        rw [h.objects]
        refine ⟨h1, lookup_store_same st fault ok p h.objects, ?_⟩
        show v.log ++ _ ++ _ = List.filter _ (w.log ++ _ ++ _)
        rw [List.filter_append, List.filter_append, h.log, storeObs_about, if_pos rfl]
        exact congrArg _ h2
      · rw [if_neg hr] at h1 h2 ⊢
        refine ⟨h1, ?_, ?_⟩
        · show _ = List.lookup rid (Restart.World.storeBy st fault ok w.objects p)
          rw [lookup_store st fault ok _ p rid hr]
          exact h.objects
        · show v.log = List.filter _ (w.log ++ _ ++ _)
          rw [List.filter_append, List.filter_append, storeObs_about, if_neg hr, ← h.log]
          rw [← h2]
          simp [Restart.World.news, Runs.run]

/-- **C119.** The same with queues that are restarted, and a remote store that all runs share: what is observed of a run is what would
be observed of it if all else that happens were left out, and the store held only what it has for this run. -/
theorem C119_as_if_alone_after_restarts (st : Restart.Strategy) (rid : RunId) (objects : List (RunId × Restart.Object))
    (acts : List (Restart.Act T)) :
    let w := (Restart.World.init objects : Restart.World T)
    let own := (Restart.World.init (objects.filter (fun o => o.1 == rid)) : Restart.World T)
    (own.run st (onlyWorld st rid w acts)).log = (w.run st acts).log.filter (about rid) ∧
    (own.run st (onlyWorld st rid w acts)).queue.get rid = (w.run st acts).queue.get rid := by
  intro w own
  have key : ∀ (acts : List (Restart.Act T)) {w v : Restart.World T}, AloneWorld rid w v →
      AloneWorld rid (w.run st acts) (v.run st (onlyWorld st rid w acts)) := by
    intro acts
    induction acts with
    | nil => intro w v h; exact h
    | cons a acts ih =>
      intro w v h
      have := ih (aloneWorld_step st h a)
      rw [onlyWorld]
      unfold Restart.World.run at this ⊢
      rw [List.foldl_append]
      exact this
  have h0 : AloneWorld rid w own := by
    refine ⟨⟨rfl, (fun p hp => by cases hp), (fun e he => by cases he), fun r _ => rfl⟩, ?_, rfl⟩
    show List.lookup rid (objects.filter _) = List.lookup rid objects
    induction objects with
    | nil => rfl
    | cons o os ih =>
      obtain ⟨r, o⟩ := o
      by_cases hr : r = rid
      · subst hr
        simp [List.lookup_cons]
      · have h1 : (r == rid) = false := by simpa using hr
        have h2 : (rid == r) = false := by simpa using fun e : rid = r => hr e.symm
        simp only [List.filter_cons, h1, List.lookup_cons, h2]
        exact ih
  have h := key acts h0
  exact ⟨h.log, congrArg Loc.s h.queue.same⟩

/-! ## Two runs at the same time -/

namespace TwoRuns

def worker (n : Nat) : Entity := ⟨n, .runner ⟨n, 1⟩⟩
def joins (rid : RunId) (n : Nat) : JoinParams := ⟨rid, worker n, ⟨2, by decide⟩, .byTest, "rspec"⟩

/-- Both runs are created; the first gets its tests while the other is cancelled. -/
def acts : List (RunsAct Nat) :=
  [.join (joins "a" 0), .join (joins "b" 1), .resume 1 .notFound true, .request "b" (.cancel (worker 1) .user),
   .resume 0 .notFound true, .request "a" (.addManifest [(10, 0), (11, 0), (12, 1)] "md"), .resume 1 .notFound true,
   .request "b" (.nextWork (worker 1)), .request "a" (.nextWork (worker 0)), .resume 3 .notFound true]

/-- What concerns the first of them. -/
example : only "a" (init : Runs Nat) acts =
    [.join (joins "a" 0), .resume 0 .notFound true, .request "a" (.addManifest [(10, 0), (11, 0), (12, 1)] "md"),
     .request "a" (.nextWork (worker 0)), .resume 1 .notFound true] := rfl

/-- It gets its first two tests. -/
example : ((init : Runs Nat).run acts).events.filter (fun e => e.rid == "a") =
    [.joined (joins "a" 0) (.fresh true false), .manifest "a" [(10, 0), (11, 0), (12, 1)] true,
     .pulled "a" (worker 0) [⟨10, 1⟩, ⟨11, 1⟩], .work "a" (worker 0) [⟨10, 1⟩, ⟨11, 1⟩] false] := rfl

end TwoRuns

end Abq.Props
