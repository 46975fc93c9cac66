import Verif.Proof.AllRunsActive
import Verif.Proof.AllRunsTasks
import Verif.Spec.Checks

/-! # What the checks of the queue mean in terms of the history -/

namespace Abq.Runs
open Spec WorkerSet Props
variable {T : Type}

/-! ## Whether the manifest is known -/

/-- The state of a run against its history. -/
def SetOk (rid : RunId) (evs : List (Event T)) : Option (RunState T) → Prop
  | none => settled rid evs = false ∧ inRegistry rid evs = false
  | some (.waiting ..) => settled rid evs = false ∧ createdHere rid evs = true
  | some (.hasWork ..) => settled rid evs = true ∧ inRegistry rid evs = true
  | some (.done ..) => settled rid evs = true ∧ inRegistry rid evs = true
  | some (.cancelled _) => inRegistry rid evs = true

theorem settled_append (rid : RunId) (a b : List (Event T)) :
    settled rid (a ++ b) = (settled rid a || settled rid b) := by simp [settled]

theorem createdHere_append (rid : RunId) (a b : List (Event T)) :
    createdHere rid (a ++ b) = (createdHere rid a || createdHere rid b) := by simp [createdHere]

theorem inRegistry_append (rid : RunId) (a b : List (Event T)) :
    inRegistry rid (a ++ b) = (inRegistry rid a || inRegistry rid b) := by simp [inRegistry]

theorem settled_one (rid : RunId) (ev : Event T) : settled rid [ev] = settles rid ev := by
  simp [settled]

theorem createdHere_one (rid : RunId) (ev : Event T) : createdHere rid [ev] = asksToGenerate rid ev := by
  simp [createdHere]

theorem inRegistry_one (rid : RunId) (ev : Event T) :
    inRegistry rid [ev] = (asksToGenerate rid ev || isLoad rid ev) := by
  simp [inRegistry]

theorem inRegistry_of_created {rid : RunId} {evs : List (Event T)} (h : createdHere rid evs = true) :
    inRegistry rid evs = true := by
  simp only [createdHere, inRegistry, List.any_eq_true, Bool.or_eq_true] at h ⊢
  obtain ⟨ev, h1, h2⟩ := h
  exact ⟨ev, h1, .inl h2⟩

/-- An event that changes neither. -/
theorem setOk_same {rid : RunId} {evs : List (Event T)} {s : Option (RunState T)} {ev : Event T}
    (h : SetOk rid evs s) (h1 : settles rid ev = false) (h2 : asksToGenerate rid ev = false)
    (h3 : isLoad rid ev = false) : SetOk rid (evs ++ [ev]) s := by
  cases s with
  | none =>
    simp only [SetOk, settled_append, inRegistry_append, settled_one, inRegistry_one] at h ⊢
    simp [h, h1, h2, h3]
  | some s =>
    cases s <;> simp only [SetOk, settled_append, createdHere_append, inRegistry_append, settled_one] at h ⊢ <;>
      simp [h, h1]

theorem join_phase_same {rid : RunId} {evs : List (Event T)} (s : RunState T) (e : Entity) (h : String)
    (ho : SetOk rid evs (some s)) : SetOk rid evs (some (s.join e h).1) := by
  cases s with
  | waiting => exact ho
  | hasWork => simp only [RunState.join]; split <;> exact ho
  | done => simp only [RunState.join]; split <;> exact ho
  | cancelled => exact ho

theorem setOk_step {rid : RunId} {s s' : Option (RunState T)} {ev : Event T} {evs : List (Event T)}
    (hok : StOk s) (h : Step1 rid s [ev] s') (hg : SetOk rid evs s) :
    SetOk rid (evs ++ [ev]) s' := by
  generalize hx : [ev] = l at h
  cases h with
  | silent => cases hx
  | setPersisted => cases hx
  | fatal s p hp => cases hx; exact setOk_same hg rfl rfl rfl
  | create p hp =>
    cases hx
    subst hp
    simp only [SetOk, RunState.fresh, settled_append, createdHere_append, settled_one, createdHere_one] at hg ⊢
    simp [hg, settles, asksToGenerate]
  | load d =>
    cases hx
    simp only [SetOk, RunState.loaded, settled_append, inRegistry_append] at hg ⊢
    simp [settled, settles, inRegistry, isLoad]
  | joined s p hp =>
    cases hx
    refine setOk_same (join_phase_same s _ _ hg) rfl ?_ rfl
    exact asks_joined (fun d => join_not_generate s _ _ d)
  | noRun b => cases hx; exact setOk_same hg rfl rfl rfl
  | work q b md act h e items hq => cases hx; exact setOk_same hg rfl rfl rfl
  | mark s e items hover =>
    cases hx
    refine setOk_same ?_ rfl rfl rfl
    cases s <;> exact hg
  | delivered s e items eow => cases hx; exact setOk_same hg rfl rfl rfl
  | lost s e items eow => cases hx; exact setOk_same hg rfl rfl rfl
  | progress s last h => cases hx; exact setOk_same hg rfl rfl rfl
  | storeFailed s => cases hx; exact setOk_same hg rfl rfl rfl
  | timeout s last =>
    cases hx
    refine setOk_same ?_ rfl rfl rfl
    simp only [RunState.timeoutWrite]
    split
    · cases s with
      | waiting => exact inRegistry_of_created hg.2
      | cancelled => exact hg
      | _ => exact hg.2
    · exact hg
  | req s r =>
    cases r <;> simp only [exec] at hx ⊢
    case nextWork e =>
      cases s with
      | hasWork q b md act h =>
        obtain ⟨q', items, hq, -⟩ := JobQueue.getWork_spec hok.2 e.tag hok.1
        simp only [RunState.pull, hq] at hx ⊢
        cases hx
        exact setOk_same (s := some (.hasWork ..)) hg rfl rfl rfl
      | done => simp only [RunState.pull] at hx ⊢; cases hx; exact setOk_same (s := some (.done ..)) hg rfl rfl rfl
      | _ => simp only [RunState.pull] at hx ⊢; cases hx; exact setOk_same hg rfl rfl rfl
    case addManifest flat md =>
      cases hx
      cases s with
      | waiting ws b st h =>
        have hr := inRegistry_of_created hg.2
        simp only [RunState.addManifest, SetOk, settled_append, inRegistry_append]
        simp [settled, settles, hr]
      | _ => exact setOk_same hg rfl rfl rfl
    case manifestFailed =>
      cases hx
      refine setOk_same ?_ rfl rfl rfl
      cases s with
      | waiting => exact inRegistry_of_created hg.2
      | _ => exact hg
    case emptyManifest =>
      cases hx
      cases s with
      | waiting ws b st h =>
        have hr := inRegistry_of_created hg.2
        simp only [RunState.emptyManifest, SetOk, settled_append, inRegistry_append]
        simp [settled, settles, hr]
      | _ => exact setOk_same hg rfl rfl rfl
    case initMetadata e =>
      cases hx
      refine setOk_same ?_ rfl rfl rfl
      cases s with
      | done x md seen m h => simp only [RunState.initMetadata]; split <;> exact hg
      | _ => exact hg
    case retryManifest e =>
      cases hx
      refine setOk_same ?_ rfl rfl rfl
      cases s with
      | done x md seen m h =>
        cases m with
        | cell b => cases b <;> exact hg
        | emptyManifest => exact hg
      | _ => exact hg
    case complete e time =>
      cases hx
      refine setOk_same ?_ rfl rfl rfl
      cases s <;> exact hg
    case cancel e reason =>
      cases hx
      refine setOk_same ?_ rfl rfl rfl
      cases s with
      | waiting => exact inRegistry_of_created hg.2
      | hasWork => exact hg.2
      | _ => exact hg
    all_goals cases hx; exact setOk_same hg rfl rfl rfl

theorem setOk_nil {rid : RunId} {s s' : Option (RunState T)} {evs : List (Event T)}
    (h : Step1 rid s [] s') (hg : SetOk rid evs s) : SetOk rid evs s' := by
  generalize hx : ([] : List (Event T)) = l at h
  cases h with
  | silent => exact hg
  | setPersisted s =>
    cases s with
    | none => exact hg
    | some s =>
      cases s with
      | done x md seen m h => cases m <;> exact hg
      | _ => exact hg
  | req s r =>
    cases r <;> simp only [exec] at hx
    case nextWork => split at hx <;> cases hx
    all_goals cases hx
  | _ => cases hx

theorem setOk_run (acts : List (RunsAct T)) (rid : RunId) :
    SetOk rid (proj ((init : Runs T).run acts) rid).evs (proj ((init : Runs T).run acts) rid).s := by
  refine init_proj_induction' (I := fun L => SetOk rid L.evs L.s) ?_ ?_ acts
  · simp [SetOk, Loc.init, settled, inRegistry]
  · intro L L' hb hi hs
    obtain ⟨evs, h1, h2⟩ := hs.step1 hb
    rcases h1.one with rfl | ⟨ev, rfl⟩
    · rw [h2, List.append_nil]; exact setOk_nil h1 hi
    · rw [h2]; exact setOk_step hb.st h1 hi

/-! ## What is recorded of a runner -/

/-- What is recorded of a runner that is waiting for the manifest. -/
def ofWaiting : Option (Entity × Unit) → Standing
  | none => .unknown
  | some (e, _) => .atWork e

/-- What is recorded of a runner in a run that is serving tests. -/
def ofActive : Option (Entity × Option Nat) → Standing
  | none => .unknown
  | some (e, none) => .atWork e
  | some (e, some _) => .finished e

/-- The record of a runner against its standing. -/
def StandOk (s : Option (RunState T)) (t : Tag) (x : Bool × Standing) : Prop :=
  match s with
  | none => x = (false, .unknown)
  | some (.waiting ws _ _ _) => x = (false, ofWaiting (lookup ws t))
  | some (.hasWork _ _ _ act _) => x = (true, ofActive (lookup act t))
  | _ => True

theorem lookup_insert {α : Type} (ws : WorkerSet α) (e : Entity) (v : α) (t : Tag) :
    lookup (ws.insertByTag e v).1 t = if t = e.tag then some (e, v) else lookup ws t :=
  (C30_insert_replaces ws e v).2 t

theorem lookup_foldl {α β : Type} (l : WorkerSet β) (f : β → α) (h : (tags l).Nodup) (t : Tag) :
    lookup (l.foldl (fun a p => (insertByTag a p.1 (f p.2)).1) []) t =
      (lookup l t).map (fun p => (p.1, f p.2)) := by
  rw [foldl_insert_map l [] f h (by simp [tags]), List.nil_append]
  unfold lookup
  rw [List.find?_map]
  rfl

theorem ofActive_map (o : Option (Entity × Unit)) :
    ofActive (o.map (fun p => (p.1, none))) = ofWaiting o := by
  cases o <;> rfl

theorem stand_step {rid : RunId} {s s' : Option (RunState T)} {ev : Event T} {x : Bool × Standing} {t : Tag}
    (hn : (recorded s).Nodup) (hok : StOk s) (h : Step1 rid s [ev] s') (hg : StandOk s t x) :
    StandOk s' t (standingEv rid t x ev) := by
  generalize hx : [ev] = evs at h
  cases h with
  | silent => cases hx
  | setPersisted => cases hx
  | fatal s p hp => cases hx; exact hg
  | create p hp =>
    cases hx
    subst hp
    simp only [StandOk] at hg
    subst hg
    simp only [RunState.fresh, StandOk, standingEv, true_and, lookup_insert]
    by_cases ht : t = p.entity.tag
    · rw [if_pos ht, if_pos ht.symm]; rfl
    · rw [if_neg ht, if_neg (fun h => ht h.symm)]; rfl
  | load d => cases hx; trivial
  | joined s p hp =>
    cases hx
    subst hp
    cases s with
    | waiting ws b st h =>
      simp only [StandOk] at hg
      subst hg
      simp only [RunState.join, StandOk, standingEv, true_and, lookup_insert]
      by_cases ht : t = p.entity.tag
      · rw [if_pos ht, if_pos ht.symm]; rfl
      · rw [if_neg ht, if_neg (fun h => ht h.symm)]
    | done x md seen m h =>
      simp only [RunState.join]
      split <;> trivial
    | cancelled r => trivial
    | hasWork q b md act h =>
      simp only [StandOk] at hg
      subst hg
      have h1 : ((RunState.hasWork q b md act h).join p.entity p.hash).1 =
          .hasWork q b md (act.insertByTag p.entity none).1 h := by
        simp only [RunState.join]; split <;> rfl
      have h2 : standingEv p.rid t (true, ofActive (lookup act t))
          (.joined p ((RunState.hasWork q b md act h).join p.entity p.hash).2 : Event T) =
          if p.entity.tag = t then (true, .atWork p.entity) else (true, ofActive (lookup act t)) := by
        simp only [RunState.join]; split <;> simp [standingEv]
      rw [h1, h2]
      simp only [StandOk, lookup_insert]
      by_cases ht : t = p.entity.tag
      · rw [if_pos ht, if_pos ht.symm]; rfl
      · rw [if_neg ht, if_neg (fun h => ht h.symm)]
  | noRun b => cases hx; exact hg
  | work q b md act h e items hq => cases hx; exact hg
  | mark s e items hover =>
    cases hx
    cases s with
    | hasWork q b md act h => trivial
    | _ => exact hg
  | delivered s e items eow => cases hx; exact hg
  | lost s e items eow => cases hx; exact hg
  | progress s last h => cases hx; exact hg
  | storeFailed s => cases hx; exact hg
  | timeout s last =>
    cases hx
    simp only [RunState.timeoutWrite]
    split
    · trivial
    · exact hg
  | req s r =>
    cases r <;> simp only [exec] at hx ⊢
    case nextWork e =>
      cases s with
      | waiting => simp only [RunState.pull] at hx ⊢; cases hx; exact hg
      | cancelled => simp only [RunState.pull] at hx ⊢; cases hx; exact hg
      | done x md seen m h => simp only [RunState.pull] at hx ⊢; cases hx; trivial
      | hasWork q b md act h =>
        obtain ⟨q', items, hq, -⟩ := JobQueue.getWork_spec hok.2 e.tag hok.1
        simp only [RunState.pull, hq] at hx ⊢
        cases hx
        simp only [StandOk] at hg
        subst hg
        simp only [StandOk, standingEv, true_and, C30_insert_if_missing]
        cases hl : lookup act t with
        | none =>
          by_cases ht : t = e.tag
          · rw [if_pos ⟨ht.symm, rfl⟩]; simp [ht, ofActive]
          · rw [if_neg (fun h => ht h.1.symm)]; simp [ht]
        | some p =>
          rw [if_neg]
          obtain ⟨e', v⟩ := p
          cases v <;> simp [ofActive]
    case addManifest flat md =>
      cases hx
      cases s with
      | waiting ws b st h =>
        simp only [StandOk] at hg
        subst hg
        simp only [RunState.addManifest, standingEv, StandOk, if_true]
        rw [lookup_foldl ws (fun _ => (none : Option Nat)) hn, ofActive_map]
      | _ => exact hg
    case manifestFailed =>
      cases hx
      cases s with
      | waiting ws b st h => trivial
      | _ => exact hg
    case emptyManifest =>
      cases hx
      cases s with
      | waiting ws b st h => trivial
      | _ => exact hg
    case initMetadata e =>
      cases hx
      cases s with
      | done x md seen m h =>
        simp only [RunState.initMetadata]
        split <;> trivial
      | _ => exact hg
    case retryManifest e =>
      cases hx
      cases s with
      | hasWork q b md act h =>
        simp only [StandOk] at hg
        subst hg
        simp only [RunState.retryManifest, StandOk, standingEv, lookup_insert, true_and]
        by_cases ht : t = e.tag
        · rw [if_pos ht, if_pos ht.symm]; rfl
        · rw [if_neg ht, if_neg (fun h => ht h.symm)]
      | done x md seen m h =>
        cases m with
        | emptyManifest => trivial
        | cell b => cases b <;> trivial
      | waiting => exact hg
      | cancelled => trivial
    case complete e time =>
      cases hx
      cases s with
      | hasWork q b md act h =>
        simp only [StandOk] at hg
        subst hg
        simp only [RunState.complete, StandOk, standingEv, lookup_insert, true_and, and_true]
        by_cases ht : t = e.tag
        · rw [if_pos ht, if_pos ht.symm]; rfl
        · rw [if_neg ht, if_neg (fun h => ht h.symm)]
      | waiting ws b st h =>
        simp only [StandOk] at hg
        subst hg
        simp [RunState.complete, StandOk, standingEv]
      | _ => trivial
    case cancel e reason => cases hx; cases s <;> trivial
    all_goals cases hx; exact hg

theorem stand_nil {rid : RunId} {s s' : Option (RunState T)} {t : Tag} {x : Bool × Standing}
    (h : Step1 rid s [] s') (hg : StandOk s t x) : StandOk s' t x := by
  generalize hx : ([] : List (Event T)) = evs at h
  cases h with
  | silent => exact hg
  | setPersisted s =>
    cases s with
    | none => exact hg
    | some s =>
      cases s with
      | done x md seen m h => cases m <;> exact hg
      | _ => exact hg
  | req s r =>
    cases r <;> simp only [exec] at hx
    case nextWork => split at hx <;> cases hx
    all_goals cases hx
  | _ => cases hx

theorem stand_run (acts : List (RunsAct T)) (rid : RunId) (t : Tag) :
    StandOk (proj ((init : Runs T).run acts) rid).s t
      ((proj ((init : Runs T).run acts) rid).evs.foldl (standingEv rid t) (false, .unknown)) := by
  refine (init_proj_induction' (I := fun L => Track rid L ∧
    StandOk L.s t (L.evs.foldl (standingEv rid t) (false, .unknown))) ?_ ?_ acts).2
  · exact ⟨⟨by simp [recorded, Loc.init], by simp [Loc.init], by simp [recorded, Loc.init]⟩, rfl⟩
  · intro L L' hb ⟨htr, hi⟩ hs
    refine ⟨track_step hb htr hs, ?_⟩
    obtain ⟨evs, h1, h2⟩ := hs.step1 hb
    rcases h1.one with rfl | ⟨ev, rfl⟩
    · rw [h2, List.append_nil]
      exact stand_nil h1 hi
    · rw [h2, List.foldl_append]
      exact stand_step htr.nodup hb.st h1 hi

/-! ## A plan comes with the last bundle -/

/-- A plan is only kept for an answer that carries the end-of-work mark. -/
def PlanEnd : Pending T → Prop
  | .respond _ _ _ eow (some _) => eow = true
  | _ => True

theorem planEnd_subIf (rid : RunId) (b : Bool) : ∀ p ∈ (subIf rid b : List (Pending T)), PlanEnd p := by
  unfold subIf; split <;> simp [PlanEnd]

theorem planEnd_rearm (rid : RunId) (x : Progress) : ∀ p ∈ (rearm rid x : List (Pending T)), PlanEnd p := by
  unfold rearm; split <;> simp [PlanEnd]

theorem planEnd_cont (s : Option (RunState T)) (ans : RemoteAns) (ok : Bool) (p : Pending T) :
    ∀ q ∈ (contEff s ans ok p).next, PlanEnd q := by
  cases p <;> simp only [contEff]
  case joinRemote p => cases ans <;> cases s <;> simp [loadRemote, createFresh, PlanEnd]
  case joinRead => cases s <;> simp
  case pulled rid e items => split <;> simp [PlanEnd]
  case markEnd rid e items =>
    cases s with
    | none => simp
    | some s =>
      intro q hq
      rcases List.mem_cons.1 hq with rfl | hq
      · cases s.markEnd.2 <;> simp [PlanEnd]
      · exact planEnd_subIf _ _ q hq
  case respond rid e items eow plan =>
    split
    · cases plan <;> simp [planTasks, PlanEnd]
    · simp
  case sub => simp
  case dumpManifest => split <;> simp [PlanEnd]
  case setPersisted => simp
  case dumpState => split <;> simp
  case timer rid last =>
    cases s with
    | none => simp
    | some s =>
      simp only [timerEff]
      split
      · simp [PlanEnd]
      · exact planEnd_rearm _ _
  case timeoutWrite rid last =>
    cases s with
    | none => simp
    | some s =>
      intro q hq
      rcases List.mem_append.1 hq with hq | hq
      · exact planEnd_rearm _ _ q hq
      · exact planEnd_subIf _ _ q hq

theorem planEnd_req (rid : RunId) (s : Option (RunState T)) (r : Req T) :
    ∀ q ∈ (reqEff rid s r).next, PlanEnd q := by
  cases s with
  | none => simp [reqEff]
  | some s =>
    simp only [reqEff]
    cases r <;> simp only [exec]
    case nextWork e => split <;> simp [PlanEnd]
    all_goals first
      | exact planEnd_subIf _ _
      | simp

theorem planEnd_run (acts : List (RunsAct T)) :
    ∀ p ∈ ((init : Runs T).run acts).pending, PlanEnd p := by
  suffices h : ∀ (acts : List (RunsAct T)) (σ : Runs T), (∀ p ∈ σ.pending, PlanEnd p) →
      ∀ p ∈ (σ.run acts).pending, PlanEnd p from h acts init (by simp [init])
  intro acts
  induction acts with
  | nil => exact fun σ h => h
  | cons x acts ih =>
    intro σ h
    refine ih (σ.step x) ?_
    cases x with
    | join p =>
      intro q hq
      rcases List.mem_append.1 hq with hq | hq
      · exact h q hq
      · revert hq; cases σ.get p.rid <;> simp [joinEff] <;> rintro rfl <;> trivial
    | request rid r =>
      simp only [step]
      split
      · exact h
      · intro q hq
        rcases List.mem_append.1 hq with hq | hq
        · exact h q hq
        · exact planEnd_req _ _ _ q hq
    | resume i ans ok =>
      simp only [step]
      split
      · exact h
      · split
        · exact h
        · intro q hq
          rcases List.mem_append.1 hq with hq | hq
          · exact h q (List.mem_of_mem_eraseIdx hq)
          · exact planEnd_cont _ _ _ _ q hq

/-! ## From the history of a run to that of the queue -/

theorem settled_filter (rid : RunId) (evs : List (Event T)) :
    settled rid (evs.filter (fun ev => ev.rid == rid)) = settled rid evs := by
  refine any_filter _ rid ?_ _
  intro ev h
  cases ev <;> simp only [Event.rid] at h <;> simp [settles, h]
  case manifest r f a => cases a <;> simp [h]
  case emptyManifest r a => cases a <;> simp [h]

theorem asks_other {rid : RunId} {ev : Event T} (h : ev.rid ≠ rid) : asksToGenerate rid ev = false := by
  cases ev <;> simp only [Event.rid] at h <;> simp [asksToGenerate]
  case joined p a =>
    cases a with
    | fresh g d => cases g <;> simp [h]
    | _ => simp

theorem createdHere_filter (rid : RunId) (evs : List (Event T)) :
    createdHere rid (evs.filter (fun ev => ev.rid == rid)) = createdHere rid evs :=
  any_filter _ rid (fun _ h => asks_other h) _

theorem inRegistry_filter (rid : RunId) (evs : List (Event T)) :
    inRegistry rid (evs.filter (fun ev => ev.rid == rid)) = inRegistry rid evs := by
  refine any_filter _ rid ?_ _
  intro ev h
  rw [asks_other h]
  cases ev <;> simp only [Event.rid] at h <;> simp [isLoad, h]

theorem standing_filter (rid : RunId) (t : Tag) (evs : List (Event T)) :
    (evs.filter (fun ev => ev.rid == rid)).foldl (standingEv rid t) (false, .unknown) =
      evs.foldl (standingEv rid t) (false, .unknown) := by
  refine foldl_filter _ rid ?_ _ _
  intro b ev h
  cases ev <;> simp only [Event.rid] at h <;> simp [standingEv, h]
  case joined p a => cases a <;> simp [h]
  case manifest r f a => cases a <;> simp [h]
  case retry r e a => cases a <;> simp [h]

theorem empty_filter (rid : RunId) (evs : List (Event T)) :
    (evs.filter (fun ev => ev.rid == rid)).any (isEmptyManifest rid) = evs.any (isEmptyManifest rid) := by
  refine any_filter _ rid ?_ _
  intro ev h
  cases ev <;> simp only [Event.rid] at h <;> simp [isEmptyManifest]
  case emptyManifest r a => cases a <;> simp [h]

theorem setOk_global (acts : List (RunsAct T)) (rid : RunId) :
    SetOk rid ((init : Runs T).run acts).events (((init : Runs T).run acts).get rid) := by
  have h := setOk_run acts rid
  revert h
  simp only [proj]
  cases ((init : Runs T).run acts).get rid with
  | none => simp only [SetOk, settled_filter, inRegistry_filter]; exact id
  | some s =>
    cases s <;> simp only [SetOk, settled_filter, inRegistry_filter, createdHere_filter] <;> exact id

theorem stand_global (acts : List (RunsAct T)) (rid : RunId) (t : Tag) :
    StandOk (((init : Runs T).run acts).get rid) t
      (((init : Runs T).run acts).events.foldl (standingEv rid t) (false, .unknown)) := by
  have h := stand_run acts rid t
  simp only [proj, standing_filter] at h
  exact h

end Abq.Runs
