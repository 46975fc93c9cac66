import Verif.Spec.Restart
import Verif.Proof.AllRunsPersist
import Verif.Props.AllRunsJoin

/-! # Runs whose state is about to be stored, and runs whose state was stored -/

namespace Abq.Runs
open Spec WorkerSet
variable {T : Type}

/-- The state a continuation may write to the remote store. -/
def planOf : Pending T → Option RunDoc
  | .respond _ _ _ _ (some pl) => some pl.doc
  | .dumpState _ d => some d
  | _ => none

/-- The run came to its end with state `d`. -/
def Ended (d : RunDoc) : Option (RunState T) → Prop
  | some (.done x _ seen _ _) => x = d.exit ∧ ∀ e ∈ d.seen, e.tag ∈ tags seen
  | _ => False

theorem ended_exec {rid : RunId} {s : RunState T} {d : RunDoc} (h : Ended d (some s)) (r : Req T) :
    Ended d (exec rid s r).state ∧ (∀ p a, .joined p a ∉ (exec rid s r).evs) ∧
      (exec rid s r).next.filterMap planOf = [] := by
  cases s with
  | done x md seen m hh =>
    obtain ⟨h1, h2⟩ := h
    have hi : ∀ (e : Entity) (b : Bool), ∀ e' ∈ d.seen, e'.tag ∈ tags (seen.insertByTag e b).1 :=
      fun e b e' he => mem_tags_insertByTag.2 (Or.inl (h2 e' he))
    cases r <;> simp only [exec, RunState.addManifest, RunState.manifestFailed, RunState.emptyManifest,
        RunState.initMetadata, RunState.pull, RunState.retryManifest, RunState.complete,
        RunState.cancel, subIf]
    case initMetadata e =>
      cases hc : seen.containsByTag e
      · exact ⟨⟨h1, h2⟩, by simp, rfl⟩
      · exact ⟨⟨h1, hi e true⟩, by simp, rfl⟩
    case nextWork e =>
      exact ⟨⟨h1, fun e' he => mem_tags_insertByTagIfMissing.2 (Or.inl (h2 e' he))⟩, by simp, rfl⟩
    case retryManifest e =>
      cases m with
      | cell c =>
        cases c
        · exact ⟨⟨h1, h2⟩, by simp, rfl⟩
        · exact ⟨⟨h1, hi e true⟩, by simp, rfl⟩
      | emptyManifest => exact ⟨⟨h1, h2⟩, by simp, rfl⟩
    case complete e t => exact ⟨⟨h1, hi e false⟩, by simp, rfl⟩
    case cancel e reason => exact ⟨⟨h1, hi e false⟩, by simp, rfl⟩
    all_goals exact ⟨⟨h1, h2⟩, by simp, rfl⟩
  | _ => exact h.elim

theorem ended_cont {s : RunState T} {d : RunDoc} (h : Ended d (some s)) (p : Pending T)
    (ans : RemoteAns) (ok : Bool) :
    Ended d (contEff (some s) ans ok p).state ∧
    (∀ q a, .joined q a ∈ (contEff (some s) ans ok p).evs →
      (a = .fatal ∧ ans = .error ∧ p = .joinRemote q) ∨ (∃ b, a = .retry b) ∨
      (a = .alreadyDone d.exit ∧ ∀ e ∈ d.seen, e.tag ≠ q.entity.tag)) ∧
    ((contEff (some s) ans ok p).next.filterMap planOf).length ≤ (planOf p).toList.length ∧
    ∀ x ∈ (contEff (some s) ans ok p).next.filterMap planOf, x ∈ (planOf p).toList := by
  cases s with
  | done x md seen m hh =>
    obtain ⟨h1, h2⟩ := h
    cases p
    case joinRemote p =>
      cases ans <;> simp [contEff, loadRemote, createFresh, Ended, planOf, h1]
      all_goals exact h2
    case joinRead p =>
      simp only [contEff, RunState.join]
      cases hc : seen.containsByTag p.entity
      · refine ⟨⟨h1, h2⟩, ?_, by simp, by simp⟩
        intro q a hq
        simp only [Bool.false_eq_true, if_false, List.mem_singleton, Event.joined.injEq] at hq
        obtain ⟨rfl, rfl⟩ := hq
        refine Or.inr (Or.inr ⟨by rw [h1], ?_⟩)
        intro e he hee
        have := containsByTag_iff.2 (hee ▸ h2 e he)
        rw [hc] at this
        cases this
      · refine ⟨⟨h1, h2⟩, ?_, by simp, by simp⟩
        intro q a hq
        simp only [if_true, List.mem_singleton, Event.joined.injEq] at hq
        obtain ⟨rfl, rfl⟩ := hq
        exact Or.inr (Or.inl ⟨_, rfl⟩)
    case pulled rid e items =>
      simp [contEff, RunState.atEnd, Ended, h1]
      exact h2
    case markEnd rid e items =>
      simp [contEff, RunState.markEnd, Ended, h1, subIf, planOf]
      exact h2
    case respond rid e items eow pl =>
      cases ok
      · simp [contEff, Ended, h1, planTasks, planOf]
        exact h2
      · cases pl with
        | none => simp [contEff, Ended, h1, planTasks, planOf]; exact h2
        | some pl =>
          simp [contEff, Ended, h1, planTasks, planOf]
          exact ⟨h2, by simp [List.filterMap_cons, planOf]⟩
    case dumpManifest => cases ok <;> (simp [contEff, Ended, h1, planOf]; exact h2)
    case setPersisted rid =>
      cases m <;> (simp [contEff, RunState.setPersisted, Ended, h1, planOf]; exact h2)
    case dumpState => cases ok <;> (simp [contEff, Ended, h1, planOf]; exact h2)
    case sub => simp [contEff, Ended, h1, planOf]; exact h2
    case timer => simp [contEff, timerEff, RunState.progress, rearm, Ended, h1, planOf]; exact h2
    case timeoutWrite =>
      simp [contEff, RunState.timeoutWrite, RunState.progress, rearm, subIf, Ended, h1, planOf]
      exact h2
  | _ => exact h.elim

/-- At most one state of the run waits to be stored, and then the run ended with it. -/
structure Plans (L : Loc T) : Prop where
  fits : ∀ d ∈ L.ps.filterMap planOf, Ended d L.s
  one : (L.ps.filterMap planOf).length ≤ 1

theorem ended_of_mark (s : RunState T) (pl : Plan T) (h : s.markEnd.2 = some pl) :
    Ended pl.doc (some s.markEnd.1) := by
  cases s with
  | hasWork q b md act hh =>
    simp only [RunState.markEnd, Option.some.injEq] at h
    subst h
    refine ⟨rfl, ?_⟩
    intro e he
    exact List.mem_map.2 (by
      obtain ⟨p, hp, rfl⟩ := List.mem_map.1 he
      exact ⟨p, hp, rfl⟩)
  | _ => simp [RunState.markEnd] at h

theorem exec_plans (rid : RunId) (s : RunState T) (r : Req T) :
    (exec rid s r).next.filterMap planOf = [] := by
  cases r <;> simp only [exec, subIf]
  case nextWork e => split <;> simp [planOf]
  all_goals first
    | (split <;> simp [planOf])
    | simp [planOf]

/-- What a continuation adds when the run has not ended. -/
theorem cont_plans (s : Option (RunState T)) (ans : RemoteAns) (ok : Bool) (p : Pending T)
    (hp : planOf p = none) :
    (contEff s ans ok p).next.filterMap planOf = [] ∨
    ∃ rid e items pl s0, p = .markEnd rid e items ∧ s = some s0 ∧ s0.markEnd.2 = some pl ∧
      (contEff s ans ok p).next.filterMap planOf = [pl.doc] ∧
      (contEff s ans ok p).state = some s0.markEnd.1 := by
  cases p <;> simp only [contEff]
  case joinRemote p => left; cases ans <;> cases s <;> simp [loadRemote, createFresh, planOf]
  case joinRead => left; cases s <;> simp
  case pulled => left; split <;> simp [planOf]
  case markEnd rid e items =>
    cases s with
    | none => left; simp
    | some s =>
      cases hm : s.markEnd.2 with
      | none => left; simp [hm, planOf, subIf]
      | some pl => right; exact ⟨rid, e, items, pl, s, rfl, rfl, hm, by simp [hm, planOf, subIf], by simp⟩
  case respond rid e items eow pl =>
    left
    cases pl with
    | none => cases ok <;> simp [planTasks]
    | some => simp [planOf] at hp
  case sub => left; simp
  case dumpManifest => left; cases ok <;> simp [planOf]
  case setPersisted => left; simp
  case dumpState => simp [planOf] at hp
  case timer =>
    left
    cases s with
    | none => simp
    | some s =>
      simp only [timerEff]
      split
      · simp [planOf]
      · simp only [rearm]; split <;> simp [planOf]
  case timeoutWrite rid last =>
    left
    cases s with
    | none => simp
    | some s =>
      simp only [rearm, subIf]
      split <;> split <;> simp [planOf]

theorem plans_step {rid : RunId} {L L' : Loc T} (h : Plans L) (hs : LStep rid L L') : Plans L' := by
  cases hs with
  | join p hp =>
    have hx : (joinEff L.s p).state = L.s ∧ (joinEff L.s p).next.filterMap planOf = [] := by
      cases L.s <;> simp [joinEff, planOf]
    constructor
    · simp only [Loc.app, List.filterMap_append, hx.1, hx.2, List.append_nil]; exact h.fits
    · simp only [Loc.app, List.filterMap_append, hx.2, List.append_nil]; exact h.one
  | req r hr =>
    cases hL : L.s with
    | none =>
      constructor
      · intro d hd
        simp only [Loc.app, reqEff, List.append_nil] at hd
        have := h.fits d hd
        rw [hL] at this
        exact this.elim
      · simpa [Loc.app, reqEff] using h.one
    | some s =>
      have hx := exec_plans rid s r
      constructor
      · simp only [Loc.app, reqEff, List.filterMap_append, hx, List.append_nil]
        intro d hd
        have := h.fits d hd
        rw [hL] at this
        exact (ended_exec this r).1
      · simpa [Loc.app, reqEff, hx] using h.one
  | cont p a b ans ok hp hm hr =>
    have hsub : ∀ d ∈ (a ++ b).filterMap planOf, d ∈ L.ps.filterMap planOf := by
      intro d hd
      rw [hm]
      simp only [List.filterMap_append, List.filterMap_cons, List.mem_append] at hd ⊢
      rcases hd with hd | hd
      · exact Or.inl hd
      · right
        split
        · exact hd
        · exact List.mem_cons_of_mem _ hd
    have hlen : ((a ++ b).filterMap planOf).length + (planOf p).toList.length ≤ 1 := by
      have := h.one
      rw [hm] at this
      simp only [List.filterMap_append, List.filterMap_cons, List.length_append] at this ⊢
      cases hpp : planOf p <;>
        simp only [hpp, Option.toList_none, Option.toList_some, List.length_cons, List.length_nil] at this ⊢ <;>
        omega
    by_cases hpl : ∃ d, planOf p = some d
    · obtain ⟨d, hd⟩ := hpl
      have hed : Ended d L.s := h.fits d (by rw [hm]; simp [hd])
      have hnil : (a ++ b).filterMap planOf = [] := by
        rw [hd] at hlen
        simp only [Option.toList_some, List.length_singleton] at hlen
        exact List.length_eq_zero_iff.1 (by omega)
      cases hL : L.s with
      | none => rw [hL] at hed; exact hed.elim
      | some s =>
        rw [hL] at hed
        obtain ⟨h1, -, h3, h4⟩ := ended_cont hed p ans ok
        constructor
        · simp only [List.filterMap_append] at hnil
          simp only [Loc.app, List.filterMap_append, hnil, List.nil_append]
          intro d' hd'
          have := h4 d' hd'
          rw [hd] at this
          simp only [Option.toList_some, List.mem_singleton] at this
          subst this
          exact h1
        · simp only [List.filterMap_append] at hnil
          simp only [Loc.app, List.filterMap_append, hnil, List.nil_append]
          rw [hd] at h3
          exact h3
    · have hpn : planOf p = none := by
        cases hpp : planOf p with
        | none => rfl
        | some d => exact absurd ⟨d, hpp⟩ hpl
      rcases cont_plans L.s ans ok p hpn with hx | ⟨r, e, items, pl, s0, rfl, hs0, hmk, hx, hst⟩
      · constructor
        · rw [show (Loc.app { L with ps := a ++ b } (contEff L.s ans ok p)).ps.filterMap planOf =
              (a ++ b).filterMap planOf by simp [Loc.app, hx]]
          intro d hd
          have hed := h.fits d (hsub d hd)
          cases hL : L.s with
          | none => rw [hL] at hed; exact hed.elim
          | some s => rw [hL] at hed; exact (ended_cont hed p ans ok).1
        · rw [show (Loc.app { L with ps := a ++ b } (contEff L.s ans ok p)).ps.filterMap planOf =
              (a ++ b).filterMap planOf by simp [Loc.app, hx]]
          omega
      · have hnil : (a ++ b).filterMap planOf = [] := by
          cases hab : (a ++ b).filterMap planOf with
          | nil => rfl
          | cons d l =>
            have hed := h.fits d (hsub d (by rw [hab]; simp))
            rw [hs0] at hed
            cases s0 with
            | done => simp [RunState.markEnd] at hmk
            | _ => exact hed.elim
        have hps : (Loc.app { L with ps := a ++ b } (contEff L.s ans ok (.markEnd r e items))).ps.filterMap
            planOf = [pl.doc] := by
          simp only [List.filterMap_append] at hnil
          simp only [Loc.app, List.filterMap_append, hnil, List.nil_append]
          exact hx
        constructor
        · rw [hps]
          intro d hd
          rw [List.mem_singleton.1 hd]
          show Ended pl.doc (contEff L.s ans ok (.markEnd r e items)).state
          rw [hst]
          exact ended_of_mark s0 pl hmk
        · rw [hps]; simp

theorem plans_run (acts : List (RunsAct T)) (rid : RunId) :
    Plans (proj ((init : Runs T).run acts) rid) :=
  init_proj_induction (I := Plans) ⟨by simp [Loc.init], by simp [Loc.init]⟩
    (fun _ _ h hs => plans_step h hs) acts

end Abq.Runs

namespace Abq.Restart
open Abq Runs Spec Spec.Restart WorkerSet
variable {T : Type}

/-- What holds of the run once its state `d` was stored, and no state is going to replace it. -/
structure Kept (d : RunDoc) (L : Loc T) : Prop where
  st : L.s = none ∨ Ended d L.s
  ps : L.ps.filterMap planOf = []

/-- The answers to workers among the events fit. -/
def Answers (d : RunDoc) (failed : Bool) (evs : List (Event T)) : Prop :=
  ∀ p a, .joined p a ∈ evs → FitsEnded d p a ∧ (a = .fatal → failed = true)

theorem ended_loaded (d : RunDoc) : Ended d (some (RunState.loaded d : RunState T)) := by
  refine ⟨rfl, ?_⟩
  intro e he
  have := (foldl_insert_tags (α := Bool) (d.seen.map (fun e => (e, false))) [] (fun b => b) e.tag).2
    (Or.inr (by simp only [tags, List.map_map, List.mem_map]; exact ⟨e, he, rfl⟩))
  exact this

theorem kept_join {d : RunDoc} {L : Loc T} (h : Kept d L) (p : JoinParams) :
    Kept d (L.app (joinEff L.s p)) ∧ Answers d false (joinEff L.s p).evs := by
  have hx : (joinEff L.s p).state = L.s ∧ (joinEff L.s p).evs = [] ∧
      (joinEff L.s p).next.filterMap planOf = [] := by
    cases L.s <;> simp [joinEff, planOf]
  refine ⟨⟨?_, ?_⟩, ?_⟩
  · show (joinEff L.s p).state = none ∨ _
    rw [hx.1]
    show L.s = none ∨ Ended d (joinEff L.s p).state
    rw [hx.1]
    exact h.st
  · simp only [Loc.app, List.filterMap_append, hx.2.2, h.ps, List.append_nil]
  · rw [hx.2.1]; intro p a hm; exact absurd hm List.not_mem_nil

theorem kept_req {d : RunDoc} {L : Loc T} (h : Kept d L) (rid : RunId) (r : Req T) :
    Kept d (L.app (reqEff rid L.s r)) ∧ Answers d false (reqEff rid L.s r).evs := by
  rcases h.st with hs | hs
  · rw [hs]
    refine ⟨⟨Or.inl rfl, ?_⟩, ?_⟩
    · simp only [Loc.app, reqEff, List.append_nil]; exact h.ps
    · intro p a hm
      simp [reqEff] at hm
  · cases hL : L.s with
    | none => rw [hL] at hs; exact hs.elim
    | some s =>
      rw [hL] at hs
      obtain ⟨h1, h2, h3⟩ := ended_exec (rid := rid) hs r
      refine ⟨⟨Or.inr h1, ?_⟩, fun p a hm => absurd hm (h2 p a)⟩
      simp only [Loc.app, reqEff, List.filterMap_append, h.ps, h3, List.append_nil]

theorem kept_cont {d : RunDoc} {L : Loc T} (hb : Base L) (h : Kept d L) (p : Pending T)
    (a b : List (Pending T)) (hm : L.ps = a ++ p :: b) (ans : RemoteAns) (ok failed : Bool)
    (ha : ∀ q, p = .joinRemote q → ans = .found d ∨ (ans = .error ∧ failed = true)) :
    Kept d ({ L with ps := a ++ b }.app (contEff L.s ans ok p)) ∧
      Answers d failed (contEff L.s ans ok p).evs := by
  have hps := h.ps
  rw [hm] at hps
  have hpn : planOf p = none := by
    cases hpp : planOf p with
    | none => rfl
    | some x => simp [hpp] at hps
  have hab : (a ++ b).filterMap planOf = [] := by
    rw [List.filterMap_append] at hps ⊢
    rw [List.filterMap_cons, hpn] at hps
    exact hps
  have hpo := hb.ps p (by rw [hm]; simp)
  have hkeep : ∀ x : Eff T, x.next.filterMap planOf = [] →
      ({ L with ps := a ++ b }.app x).ps.filterMap planOf = [] := by
    intro x hx
    simp only [Loc.app]
    rw [List.filterMap_append, hab, hx, List.append_nil]
  rcases h.st with hs | hs
  · rw [hs] at hpo ⊢
    cases p
    case joinRemote q =>
      rcases ha q rfl with rfl | ⟨rfl, rfl⟩
      · refine ⟨⟨Or.inr (ended_loaded d), hkeep _ (by simp [contEff, loadRemote, planOf])⟩, ?_⟩
        intro p a hm
        simp [contEff, loadRemote] at hm
      · refine ⟨⟨Or.inl rfl, hkeep _ (by simp [contEff])⟩, ?_⟩
        intro p a hm
        simp only [contEff, List.mem_singleton, Event.joined.injEq] at hm
        obtain ⟨rfl, rfl⟩ := hm
        exact ⟨Or.inr (Or.inr rfl), fun _ => rfl⟩
    case respond r e items eow pl =>
      cases pl with
      | none => exact absurd rfl hpo
      | some => exact hpo.elim
    all_goals first
      | exact absurd rfl hpo
      | exact hpo.elim
  · cases hL : L.s with
    | none => rw [hL] at hs; exact hs.elim
    | some s =>
      rw [hL] at hs
      obtain ⟨h1, h2, h3, -⟩ := ended_cont hs p ans ok
      rw [hpn] at h3
      refine ⟨⟨Or.inr h1, hkeep _ (List.length_eq_zero_iff.1 (by simpa using h3))⟩, ?_⟩
      intro q a hq
      rcases h2 q a hq with ⟨rfl, h4, h5⟩ | ⟨x, rfl⟩ | h4
      · refine ⟨Or.inr (Or.inr rfl), fun _ => ?_⟩
        rcases ha q h5 with h6 | h6
        · rw [h6] at h4; cases h4
        · exact h6.2
      · exact ⟨Or.inl ⟨x, rfl⟩, fun h => by cases h⟩
      · exact ⟨Or.inr (Or.inl h4), fun h => by rw [h4.1] at h; cases h⟩

/-- The registry of a world is one that a queue reaches. -/
theorem reach (st : Strategy) (objects : List (RunId × Object)) (acts : List (Act T)) :
    ∃ acts', ((World.init objects).run st acts).queue = (Runs.init : Runs T).run acts' := by
  suffices h : ∀ w : World T, (∃ acts', w.queue = (Runs.init : Runs T).run acts') →
      ∃ acts', (w.run st acts).queue = (Runs.init : Runs T).run acts' from h _ ⟨[], rfl⟩
  induction acts with
  | nil => exact fun w h => h
  | cons a acts ih =>
    intro w ⟨l, hl⟩
    refine ih _ ?_
    have hstep : ∀ x, w.queue.step x = (Runs.init : Runs T).run (l ++ [x]) := by
      intro x; rw [run_append, hl]; rfl
    cases a with
    | join p => exact ⟨_, hstep (.join p)⟩
    | request rid r => exact ⟨_, hstep (.request rid r)⟩
    | resume i fault ok =>
      simp only [World.step]
      split
      · exact ⟨l, hl⟩
      · rename_i p hp
        exact ⟨_, hstep (.resume i (load st (List.lookup p.rid w.objects) fault) (World.ioOk st fault ok p))⟩
    | restart => exact ⟨[], rfl⟩

theorem news_self (σ : Runs T) : World.news σ σ = [] := by simp [World.news]

theorem news_apply (σ σ' : Runs T) (rid : RunId) (x : Eff T) (h : σ'.events = σ.events) :
    World.news σ (σ'.apply rid x) = x.evs.map .queue := by
  simp [World.news, Runs.apply, h]

/-- One step keeps it that way. -/
theorem kept_step (st : Strategy) (w : World T) (acts' : List (RunsAct T))
    (hw : w.queue = (Runs.init : Runs T).run acts') (a : Act T) (rid : RunId) (d : RunDoc)
    (ho : List.lookup rid w.objects = some (.state d)) (hk : Kept d (proj w.queue rid)) :
    ∃ chunk, (w.step st a).log = w.log ++ chunk ∧
      ((st = .s3 ∨ (st = .custom ∧ .unreachable rid ∉ chunk)) →
        List.lookup rid (w.step st a).objects = some (.state d) ∧
        Kept d (proj (w.step st a).queue rid) ∧ (∀ d', .stored rid d' ∉ chunk) ∧
        ∀ p x, p.rid = rid → .queue (.joined p x) ∈ chunk →
          FitsEnded d p x ∧ (x = .fatal → .unreachable rid ∈ chunk)) := by
  have hbase : Base (proj w.queue rid) := by rw [hw]; exact base_run acts' rid
  -- an effect on another run
  have other : ∀ (r : RunId) (x : Eff T), EffOn r x → r ≠ rid →
      ∀ p y, p.rid = rid → (Obs.queue (.joined p y)) ∉ x.evs.map Obs.queue := by
    intro r x hx hr p y hp hm
    obtain ⟨ev, h1, h2⟩ := List.mem_map.1 hm
    cases h2
    exact hr ((hx.evs _ h1).symm.trans hp)
  have noStored : ∀ (x : Eff T) d', (Obs.stored rid d') ∉ x.evs.map Obs.queue := by
    intro x d' hm
    obtain ⟨ev, h1, h2⟩ := List.mem_map.1 hm
    cases h2
  cases a with
  | join p =>
    refine ⟨_, rfl, fun hst => ⟨ho, ?_⟩⟩
    have hn : World.news w.queue (w.queue.step (.join p)) =
        (joinEff (w.queue.get p.rid) p).evs.map .queue := news_apply _ _ _ _ rfl
    rw [hn]
    show Kept d (proj (w.queue.apply p.rid (joinEff (w.queue.get p.rid) p)) rid) ∧ _
    rw [proj_apply _ _ _ (joinEff_on _ _) joinEff_state]
    by_cases hr : rid = p.rid
    · subst hr
      rw [if_pos rfl]
      obtain ⟨h1, h2⟩ := kept_join hk p
      refine ⟨h1, noStored _, ?_⟩
      intro q x hq hm
      obtain ⟨ev, h3, h4⟩ := List.mem_map.1 hm
      cases h4
      exact ⟨(h2 q x h3).1, fun h => by cases (h2 q x h3).2 h⟩
    · rw [if_neg hr]
      exact ⟨hk, noStored _, fun q x hq hm =>
        absurd hm (other _ _ (joinEff_on _ _) (fun h => hr h.symm) q x hq)⟩
  | request r req =>
    refine ⟨_, rfl, fun hst => ⟨ho, ?_⟩⟩
    show Kept d (proj (w.queue.step (.request r req)) rid) ∧ _
    by_cases hbl : (req.writes && w.queue.readLocked r) = true
    · have hs : w.queue.step (.request r req) = w.queue := by simp only [Runs.step, if_pos hbl]
      rw [hs, news_self]
      exact ⟨hk, fun _ => List.not_mem_nil, fun _ _ _ hm => absurd hm List.not_mem_nil⟩
    · have hs : w.queue.step (.request r req) = w.queue.apply r (reqEff r (w.queue.get r) req) := by
        simp only [Runs.step, if_neg hbl]
      rw [hs, news_apply _ _ _ _ rfl, proj_apply _ _ _ (reqEff_on _ _ _) reqEff_state]
      by_cases hr : rid = r
      · subst hr
        rw [if_pos rfl]
        obtain ⟨h1, h2⟩ := kept_req hk rid req
        refine ⟨h1, noStored _, ?_⟩
        intro q x hq hm
        obtain ⟨ev, h3, h4⟩ := List.mem_map.1 hm
        cases h4
        exact ⟨(h2 q x h3).1, fun h => by cases (h2 q x h3).2 h⟩
      · rw [if_neg hr]
        exact ⟨hk, noStored _, fun q x hq hm =>
          absurd hm (other _ _ (reqEff_on _ _ _) (fun h => hr h.symm) q x hq)⟩
  | restart =>
    refine ⟨[.restarted], rfl, fun _ => ⟨ho, ⟨Or.inl rfl, rfl⟩, by simp, by simp⟩⟩
  | resume i fault ok =>
    cases hp : w.queue.pending[i]? with
    | none =>
      have hs : w.step st (.resume i fault ok) = w := by simp only [World.step, hp]
      exact ⟨[], by rw [hs]; simp, fun _ => ⟨by rw [hs]; exact ho, by rw [hs]; exact hk, by simp, by simp⟩⟩
    | some p =>
      have hs0 : w.step st (.resume i fault ok) = World.resume st w i fault ok p := by
        simp only [World.step, hp]
      have hmem : p ∈ w.queue.pending := List.mem_of_getElem? hp
      have hplan : p.rid = rid → planOf p = none := by
        intro hr
        cases hpp : planOf p with
        | none => rfl
        | some x =>
          have : x ∈ (proj w.queue rid).ps.filterMap planOf :=
            List.mem_filterMap.2 ⟨p, List.mem_filter.2 ⟨hmem, by simpa using hr⟩, hpp⟩
          rw [hk.ps] at this
          exact absurd this List.not_mem_nil
      rw [hs0]
      clear hs0
      refine ⟨World.storeObs st fault ok p ++ World.news w.queue (World.resume st w i fault ok p).queue,
        by simp [World.resume], fun hst => ?_⟩
      have hobj : List.lookup rid (World.storeBy st fault ok w.objects p) = some (.state d) := by
        cases p
        case dumpState r d' =>
          have hr : rid ≠ r := by
            intro h
            have := hplan h.symm
            simp [planOf] at this
          have hbf : (rid == r) = false := by simpa using hr
          have hc : List.lookup rid ((r, Object.state d') :: w.objects) = List.lookup rid w.objects := by
            rw [List.lookup_cons, hbf]
          simp only [World.storeBy, store]
          cases st <;> simp only
          · exact ho
          · split
            · exact ho
            · rw [hc]; exact ho
          · split
            · exact ho
            · rw [hc]; exact ho
        all_goals exact ho
      have hso : ∀ d', .stored rid d' ∉ World.storeObs st fault ok p := by
        intro d' hm
        cases p <;> simp only [World.storeObs] at hm
        case dumpState r d'' =>
          split at hm
          · simp only [List.mem_singleton, Obs.stored.injEq] at hm
            have := hplan hm.1.symm
            simp [planOf] at this
          · exact absurd hm List.not_mem_nil
        case joinRemote q =>
          split at hm
          · simp at hm
          · exact absurd hm List.not_mem_nil
        all_goals exact absurd hm List.not_mem_nil
      have hsq : ∀ e, (Obs.queue e) ∉ World.storeObs st fault ok p := by
        intro e hm
        cases p <;> simp only [World.storeObs] at hm
        case dumpState r d'' =>
          split at hm
          · simp at hm
          · exact absurd hm List.not_mem_nil
        case joinRemote q =>
          split at hm
          · simp at hm
          · exact absurd hm List.not_mem_nil
        all_goals exact absurd hm List.not_mem_nil
      refine ⟨hobj, ?_⟩
      have hq : (World.resume st w i fault ok p).queue = w.queue.step
        (.resume i (load st (List.lookup p.rid w.objects) fault) (World.ioOk st fault ok p)) := rfl
      rw [hq]
      -- the events of the step, given what they are
      have close : ∀ (evs : List (Event T)),
          (∀ q x, q.rid = rid → .joined q x ∈ evs →
            FitsEnded d q x ∧ (x = .fatal → .unreachable rid ∈ World.storeObs st fault ok p)) →
          (∀ d', .stored rid d' ∉ World.storeObs st fault ok p ++ evs.map Obs.queue) ∧
          ∀ q x, q.rid = rid →
            .queue (.joined q x) ∈ World.storeObs st fault ok p ++ evs.map Obs.queue →
            FitsEnded d q x ∧
              (x = .fatal → .unreachable rid ∈ World.storeObs st fault ok p ++ evs.map Obs.queue) := by
        intro evs hevs
        constructor
        · intro d' hm
          rcases List.mem_append.1 hm with hm | hm
          · exact hso d' hm
          · obtain ⟨ev, h1, h2⟩ := List.mem_map.1 hm
            cases h2
        · intro q x hqr hm
          rcases List.mem_append.1 hm with hm | hm
          · exact absurd hm (hsq _)
          · obtain ⟨ev, h1, h2⟩ := List.mem_map.1 hm
            cases h2
            obtain ⟨h3, h4⟩ := hevs q x hqr h1
            exact ⟨h3, fun h => List.mem_append_left _ (h4 h)⟩
      have hnr : st = .custom → .unreachable rid ∉ World.storeObs st fault ok p := by
        intro h hm
        rcases hst with h' | ⟨-, h'⟩
        · rw [h] at h'; cases h'
        · exact h' (List.mem_append_left _ hm)
      have hsc : st = .s3 ∨ st = .custom := hst.imp id And.left
      clear hst
      generalize World.ioOk st fault ok p = io
      by_cases hbl : (p.writes && w.queue.readLocked p.rid) = true
      · have hs : w.queue.step (.resume i (load st (List.lookup p.rid w.objects) fault) io) = w.queue := by
          simp only [Runs.step, hp, if_pos hbl]
        rw [hs, news_self]
        exact ⟨hk, close [] (fun _ _ _ hm => absurd hm List.not_mem_nil)⟩
      · have hs : w.queue.step (.resume i (load st (List.lookup p.rid w.objects) fault) io) =
            { w.queue with pending := w.queue.pending.eraseIdx i }.apply p.rid
              (contEff (w.queue.get p.rid) (load st (List.lookup p.rid w.objects) fault) io p) := by
          simp only [Runs.step, hp, if_neg hbl]
        have hn := news_apply w.queue { w.queue with pending := w.queue.pending.eraseIdx i } p.rid
          (contEff (w.queue.get p.rid) (load st (List.lookup p.rid w.objects) fault) io p) rfl
        rw [hs, hn,
          proj_apply { w.queue with pending := w.queue.pending.eraseIdx i } p.rid _
            (contEff_on (w.queue.get p.rid) _ io p) (fun h => contEff_state (s := w.queue.get p.rid) h)]
        obtain ⟨a, b, h1, h2⟩ := eraseIdx_split hp
        by_cases hr : rid = p.rid
        · subst hr
          rw [if_pos rfl]
          have hps : (proj w.queue p.rid).ps = a.filter (fun q => q.rid == p.rid) ++ p ::
              b.filter (fun q => q.rid == p.rid) := by
            simp [proj, h1]
          have he : proj { w.queue with pending := w.queue.pending.eraseIdx i } p.rid =
              { proj w.queue p.rid with
                ps := a.filter (fun q => q.rid == p.rid) ++
                  b.filter (fun q => q.rid == p.rid) } := by
            simp [proj, h2, Runs.get]
          rw [he]
          have hl : ∀ q, p = .joinRemote q →
              load st (List.lookup p.rid w.objects) fault = .found d ∨
              (load st (List.lookup p.rid w.objects) fault = .error ∧ fault = true) := by
            intro q hpq
            rw [ho]
            rcases hsc with rfl | rfl
            · cases fault
              · exact Or.inl rfl
              · exact Or.inr ⟨rfl, rfl⟩
            · cases fault
              · exact Or.inl rfl
              · refine absurd ?_ (hnr rfl)
                subst hpq
                simp [World.storeObs, Pending.rid]
          obtain ⟨h3, h4⟩ := kept_cont hbase hk p _ _ hps
            (load st (List.lookup p.rid w.objects) fault) io fault hl
          refine ⟨h3, close _ ?_⟩
          intro q x hqr hm
          obtain ⟨h5, h6⟩ := h4 q x hm
          refine ⟨h5, fun hx => ?_⟩
          have hf := h6 hx
          subst hx
          cases p
          case joinRemote q' => simp [World.storeObs, hf, Pending.rid]
          case joinRead q' =>
            exfalso
            revert hm
            show _ ∈ (contEff (w.queue.get q'.rid) _ io _).evs → False
            cases w.queue.get q'.rid with
            | none => simp [contEff]
            | some s =>
              simp only [contEff, List.mem_singleton, Event.joined.injEq, not_and]
              rintro ⟨-, h⟩
              cases s with
              | waiting => simp [RunState.join] at h
              | hasWork =>
                simp only [RunState.join] at h
                split at h <;> simp at h
              | done =>
                simp only [RunState.join] at h
                split at h <;> simp at h
              | cancelled => simp [RunState.join] at h
          all_goals
            exfalso
            revert hm
            simp only [contEff]
            repeat' split
            all_goals simp
            all_goals (try (unfold timerEff; split <;> simp))
        · rw [if_neg hr]
          have hpr : (p.rid == rid) = false := by simpa using fun h => hr h.symm
          have hf : (a ++ b).filter (fun q => q.rid == rid) =
              w.queue.pending.filter (fun q => q.rid == rid) := by
            rw [h1]; simp [hpr]
          have he : proj { w.queue with pending := w.queue.pending.eraseIdx i } rid = proj w.queue rid := by
            simp only [proj, h2, hf, Runs.get]
          rw [he]
          refine ⟨hk, close _ ?_⟩
          intro q x hqr hm
          exact absurd ((contEff_on (w.queue.get p.rid) _ io p).evs _ hm |>.symm.trans hqr)
            (fun h => hr h.symm)

end Abq.Restart
