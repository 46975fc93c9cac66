import Verif.Proof.AllRunsHist

/-! # The effect of one step on the state and the history of one run -/

namespace Abq.Runs
open Spec
variable {T : Type}

/-- The effect of one step on the state of a run with the events of the step. -/
inductive Step1 (rid : RunId) : Option (RunState T) → List (Event T) → Option (RunState T) → Prop where
  | silent (s) : Step1 rid s [] s
  | setPersisted (s) : Step1 rid s [] (Option.map RunState.setPersisted s)
  | fatal (s) (p : JoinParams) (hp : p.rid = rid) : Step1 rid s [.joined p .fatal] s
  | create (p : JoinParams) (hp : p.rid = rid) :
      Step1 rid none [.joined p (.fresh true false)] (some (.fresh p))
  | load (d : RunDoc) : Step1 rid none [.loaded rid d] (some (.loaded d))
  | joined (s : RunState T) (p : JoinParams) (hp : p.rid = rid) :
      Step1 rid (some s) [.joined p (s.join p.entity p.hash).2] (some (s.join p.entity p.hash).1)
  | noRun (b : Bool) : Step1 rid none [.noRun rid b] none
  | req (s : RunState T) (r : Req T) :
      Step1 rid (some s) (exec rid s r).evs (exec rid s r).state
  | work (q b md act h) (e : Entity) (items : List (WorkerTest T)) (hq : q.isAtEnd = false) :
      Step1 rid (some (.hasWork q b md act h)) [.work rid e items false]
        (some (.hasWork q b md act h))
  | mark (s : RunState T) (e : Entity) (items : List (WorkerTest T)) (ho : Over (some s)) :
      Step1 rid (some s) [.work rid e items true] (some s.markEnd.1)
  | delivered (s) (e : Entity) (items : List (WorkerTest T)) (eow : Bool) :
      Step1 rid s [.delivered rid e items eow] s
  | lost (s) (e : Entity) (items : List (WorkerTest T)) (eow : Bool) :
      Step1 rid s [.lost rid e items eow] s
  | storeFailed (s : RunState T) : Step1 rid (some s) [.storeFailed rid] (some s)
  | progress (s : RunState T) (last : Nat) (h : (s.progress last).2 = false) :
      Step1 rid (some s) [.progress rid last (s.progress last).1] (some s)
  | timeout (s : RunState T) (last : Nat) :
      Step1 rid (some s) [.progress rid last (s.timeoutWrite last).2.1] (some (s.timeoutWrite last).1)

theorem LStep.step1 {rid : RunId} {L L' : Loc T} (hb : Base L) (hs : LStep rid L L') :
    ∃ evs, Step1 rid L.s evs L'.s ∧ L'.evs = L.evs ++ evs := by
  cases hs with
  | join p hp =>
    refine ⟨[], ?_, ?_⟩ <;> cases h : L.s <;> simp [Loc.app, joinEff, h]
    · exact .silent _
    · exact .silent _
  | req r hr =>
    refine ⟨_, ?_, rfl⟩
    cases h : L.s with
    | none => exact .noRun _
    | some s => exact .req s r
  | cont p a b ans ok hp hm hr =>
    refine ⟨_, ?_, rfl⟩
    have hpo := hb.ps p (by rw [hm]; simp)
    simp only [Loc.app]
    cases p <;> simp only [Pending.rid] at hp <;> simp only [contEff]
    case joinRemote p =>
      cases ans <;> cases h : L.s <;> simp only [loadRemote, createFresh]
      all_goals first
        | (rw [hp]; exact .load _)
        | exact .fatal _ _ hp
        | exact .create _ hp
        | exact .silent _
    case joinRead p =>
      cases h : L.s with
      | none => exact absurd h hpo
      | some s => exact .joined s p hp
    case pulled r e items =>
      subst hp
      cases h : L.s with
      | none => rw [h] at hpo; exact absurd hpo (by simp [PsOk, IsWork])
      | some s =>
        rw [h] at hpo
        cases s with
        | hasWork q b md act hh =>
          cases hq : q.isAtEnd
          · simp only [Option.bind_some, RunState.atEnd, hq]
            exact .work _ _ _ _ _ _ _ hq
          · simp only [Option.bind_some, RunState.atEnd, hq]
            exact .silent _
        | _ => exact absurd hpo (by simp [PsOk, IsWork])
    case markEnd r e items =>
      subst hp
      cases h : L.s with
      | none => rw [h] at hpo; exact absurd hpo (by simp [PsOk, Over])
      | some s => rw [h] at hpo; exact .mark _ _ _ hpo
    case respond r e items eow plan =>
      subst hp
      split
      · exact .delivered _ _ _ _
      · exact .lost _ _ _ _
    case sub => exact .silent _
    case dumpManifest r v =>
      subst hp
      cases h : L.s with
      | none => rw [h] at hpo; exact absurd hpo (by simp [PsOk, HasCell])
      | some s =>
        split
        · exact .silent _
        · exact .storeFailed _
    case setPersisted => exact .setPersisted _
    case dumpState r v =>
      subst hp
      cases h : L.s with
      | none => rw [h] at hpo; exact absurd hpo (by simp [PsOk, HasCell])
      | some s =>
        split
        · exact .silent _
        · exact .storeFailed _
    case timer r last =>
      subst hp
      cases h : L.s with
      | none => exact absurd h hpo
      | some s =>
        simp only [timerEff]
        split
        · exact .silent _
        · rename_i hh
          exact .progress _ _ (by simpa using hh)
    case timeoutWrite r last =>
      subst hp
      cases h : L.s with
      | none => exact absurd h hpo
      | some s => exact .timeout _ _

/-- Every step adds at most one event. -/
theorem Step1.one {rid : RunId} {s s' : Option (RunState T)} {evs : List (Event T)}
    (h : Step1 rid s evs s') : evs = [] ∨ ∃ ev, evs = [ev] := by
  cases h with
  | req s r =>
    right
    cases r <;> simp only [exec]
    case nextWork => split <;> exact ⟨_, rfl⟩
    all_goals exact ⟨_, rfl⟩
  | _ => simp

/-- A statement about every event and the history before it. -/
def Always (P : List (Event T) → Event T → Prop) (evs : List (Event T)) : Prop :=
  ∀ a ev b, evs = a ++ ev :: b → P a ev

theorem always_nil {P : List (Event T) → Event T → Prop} : Always P [] := by
  intro a ev b h
  simp at h

theorem always_snoc {P : List (Event T) → Event T → Prop} {evs : List (Event T)} {ev : Event T}
    (h : Always P evs) (hp : P evs ev) : Always P (evs ++ [ev]) := by
  intro a ev' b he
  rcases List.eq_nil_or_concat b with rfl | ⟨b', x, rfl⟩
  · have := List.append_inj' he (by simp)
    obtain ⟨rfl, h2⟩ := this
    cases h2
    exact hp
  · have h3 : evs ++ [ev] = (a ++ ev' :: b') ++ [x] := by simpa using he
    obtain ⟨rfl, -⟩ := List.append_inj' h3 (by simp)
    exact h a ev' b' rfl

/-- Induction over the history of one run, event by event. -/
theorem always_run {rid : RunId} {P : List (Event T) → Event T → Prop} {I : Loc T → Prop}
    (hI : ∀ acts, I (proj ((init : Runs T).run acts) rid))
    (hs : ∀ L L' ev, Base L → I L → LStep rid L L' → L'.evs = L.evs ++ [ev] → P L.evs ev)
    (acts : List (RunsAct T)) : Always P (proj ((init : Runs T).run acts) rid).evs := by
  suffices h : ∀ acts : List (RunsAct T), Always P (proj ((init : Runs T).run acts.reverse) rid).evs by
    have := h acts.reverse
    rwa [List.reverse_reverse] at this
  intro acts
  induction acts with
  | nil => exact always_nil
  | cons x acts ih =>
    rw [List.reverse_cons, run_append]
    have hst := step_proj ((init : Runs T).run acts.reverse) x rid
    show Always P (proj (((init : Runs T).run acts.reverse).step x) rid).evs
    rcases hst with hst | hst
    · rw [hst]; exact ih
    · obtain ⟨evs, h1, h2⟩ := hst.step1 (base_run _ rid)
      rcases h1.one with h | ⟨ev, h⟩
      · subst h; rw [h2, List.append_nil]; exact ih
      · subst h
        rw [h2]
        exact always_snoc ih (hs _ _ _ (base_run _ rid) (hI _) hst h2)

/-- From an event of the queue to the history of its run. -/
theorem always_global {rid : RunId} {P : List (Event T) → Event T → Prop} {evs : List (Event T)}
    (h : Always P (evs.filter (fun ev => ev.rid == rid))) {a b : List (Event T)} {ev : Event T}
    (he : evs = a ++ ev :: b) (hr : ev.rid = rid) : P (a.filter (fun ev => ev.rid == rid)) ev := by
  refine h _ ev (b.filter (fun ev => ev.rid == rid)) ?_
  rw [he, List.filter_append, List.filter_cons, if_pos (by simpa using hr)]

theorem flatMap_filter {β : Type} (f : Event T → List β) (rid : RunId)
    (hf : ∀ ev, ev.rid ≠ rid → f ev = []) (evs : List (Event T)) :
    (evs.filter (fun ev => ev.rid == rid)).flatMap f = evs.flatMap f := by
  induction evs with
  | nil => rfl
  | cons ev evs ih =>
    rw [List.filter_cons]
    split
    · simp [ih]
    · rename_i h
      rw [List.flatMap_cons, hf ev (by simpa using h), ih, List.nil_append]

theorem filterMap_filter {β : Type} (f : Event T → Option β) (rid : RunId)
    (hf : ∀ ev, ev.rid ≠ rid → f ev = none) (evs : List (Event T)) :
    (evs.filter (fun ev => ev.rid == rid)).filterMap f = evs.filterMap f := by
  induction evs with
  | nil => rfl
  | cons ev evs ih =>
    rw [List.filter_cons]
    split
    · simp [List.filterMap_cons, ih]
    · rename_i h
      rw [List.filterMap_cons, hf ev (by simpa using h), ih]

theorem any_filter (f : Event T → Bool) (rid : RunId)
    (hf : ∀ ev, ev.rid ≠ rid → f ev = false) (evs : List (Event T)) :
    (evs.filter (fun ev => ev.rid == rid)).any f = evs.any f := by
  induction evs with
  | nil => rfl
  | cons ev evs ih =>
    rw [List.filter_cons]
    split
    · simp [ih]
    · rename_i h
      rw [List.any_cons, hf ev (by simpa using h), ih, Bool.false_or]

theorem foldl_filter {β : Type} (f : β → Event T → β) (rid : RunId)
    (hf : ∀ b ev, ev.rid ≠ rid → f b ev = b) (evs : List (Event T)) (b : β) :
    (evs.filter (fun ev => ev.rid == rid)).foldl f b = evs.foldl f b := by
  induction evs generalizing b with
  | nil => rfl
  | cons ev evs ih =>
    rw [List.filter_cons]
    split
    · rw [List.foldl_cons, List.foldl_cons, ih]
    · rename_i h
      rw [List.foldl_cons, hf b ev (by simpa using h), ih]

theorem handedOut_proj (σ : Runs T) (rid : RunId) :
    handedOut rid (proj σ rid).evs = handedOut rid σ.events :=
  flatMap_filter _ rid (by intro ev h; cases ev <;> simp_all [pulledIn, Event.rid]) _

theorem handedOut_filter (rid : RunId) (evs : List (Event T)) :
    handedOut rid (evs.filter (fun ev => ev.rid == rid)) = handedOut rid evs :=
  flatMap_filter _ rid (by intro ev h; cases ev <;> simp_all [pulledIn, Event.rid]) _

theorem handedTo_filter (rid : RunId) (t : Tag) (evs : List (Event T)) :
    handedTo rid t (evs.filter (fun ev => ev.rid == rid)) = handedTo rid t evs :=
  flatMap_filter _ rid (by intro ev h; cases ev <;> simp_all [pulledBy, Event.rid]) _

theorem manifests_filter (rid : RunId) (evs : List (Event T)) :
    manifests rid (evs.filter (fun ev => ev.rid == rid)) = manifests rid evs :=
  filterMap_filter _ rid (by
    intro ev h
    cases ev <;> simp_all [manifestIn, Event.rid]
    rename_i b
    cases b <;> simp [manifestIn, h]) _

theorem owes_filter (rid : RunId) (t : Tag) (evs : List (Event T)) :
    owes rid t (evs.filter (fun ev => ev.rid == rid)) = owes rid t evs := by
  refine foldl_filter _ rid ?_ _ _
  intro b ev h
  cases ev <;> simp only [Event.rid] at h <;> simp [h]
  case retry r e a => cases a <;> simp [h]
  case cancel r e a => cases a <;> simp [h]

theorem finished_filter (rid : RunId) (t : Tag) (evs : List (Event T)) :
    finished rid t (evs.filter (fun ev => ev.rid == rid)) = finished rid t evs := by
  refine foldl_filter _ rid ?_ _ _
  intro b ev h
  cases ev <;> simp only [Event.rid] at h <;> simp [h]
  case joined p a => cases a <;> simp [h]

theorem gone_filter (rid : RunId) (t : Tag) (evs : List (Event T)) :
    gone rid t (evs.filter (fun ev => ev.rid == rid)) = gone rid t evs := by
  refine foldl_filter _ rid ?_ _ _
  intro b ev h
  cases ev <;> simp only [Event.rid] at h <;> simp [h]
  case joined p a => cases a <;> simp [h]
  case manifest r f a => cases a <;> simp [h]
  case emptyManifest r a => cases a <;> simp [h]
  case retry r e a => cases a <;> simp [h]
  case cancel r e a => cases a <;> simp [h]
  case initMeta r e a => cases a <;> simp [h]

theorem known_filter (rid : RunId) (t : Tag) (evs : List (Event T)) :
    known rid t (evs.filter (fun ev => ev.rid == rid)) = known rid t evs := by
  refine any_filter _ rid ?_ _
  intro ev h
  cases ev <;> simp only [Event.rid] at h <;> simp [tookPart, asked, loadedWith, h]
  case joined p a => cases a <;> simp [tookPart, h]

theorem tookPart_filter (rid : RunId) (t : Tag) (evs : List (Event T)) :
    (evs.filter (fun ev => ev.rid == rid)).any (tookPart rid t) = evs.any (tookPart rid t) := by
  refine any_filter _ rid ?_ _
  intro ev h
  cases ev <;> simp only [Event.rid] at h <;> simp [tookPart, h]
  case joined p a => cases a <;> simp [tookPart, h]

end Abq.Runs
