import Verif.Props.AllRuns

/-!
# C11, C12, C13: joining a run, cancelled runs, and cancelling an exhausted run
-/

namespace Abq.Props
open Abq Runs Spec WorkerSet
variable {T : Type}

/-! ## What one step does to the history -/

theorem apply_get (σ : Runs T) (rid : RunId) (x : Eff T) (r : RunId)
    (h : x.state = none → σ.get rid = none) :
    (σ.apply rid x).get r = if r = rid then x.state else σ.get r :=
  lookup_put σ.runs rid r x.state h

theorem step_events (σ : Runs T) (act : RunsAct T) :
    ∃ new, (σ.step act).events = σ.events ++ new := by
  cases act with
  | join p => exact ⟨_, rfl⟩
  | request rid r =>
    simp only [step]
    split
    · exact ⟨[], by simp⟩
    · exact ⟨_, rfl⟩
  | resume i ans ok =>
    simp only [step]
    split
    · exact ⟨[], by simp⟩
    · split
      · exact ⟨[], by simp⟩
      · exact ⟨_, rfl⟩

theorem run_events (σ : Runs T) (acts : List (RunsAct T)) :
    ∃ new, (σ.run acts).events = σ.events ++ new := by
  induction acts generalizing σ with
  | nil => exact ⟨[], by simp [run]⟩
  | cons a acts ih =>
    obtain ⟨n1, h1⟩ := step_events σ a
    obtain ⟨n2, h2⟩ := ih (σ.step a)
    refine ⟨n1 ++ n2, ?_⟩
    show ((σ.step a).run acts).events = _
    rw [h2, h1, List.append_assoc]

theorem step_request (σ : Runs T) (rid : RunId) (r : Req T)
    (h : r.writes = true → σ.readLocked rid = false) :
    σ.step (.request rid r) = σ.apply rid (reqEff rid (σ.get rid) r) := by
  simp only [step]
  rw [if_neg]
  cases hw : r.writes
  · simp
  · simp [h hw]

theorem answer_eq (σ : Runs T) (rid : RunId) (r : Req T)
    (h : r.writes = true → σ.readLocked rid = false) :
    answer σ rid r = (reqEff rid (σ.get rid) r).evs := by
  unfold answer
  rw [step_request σ rid r h]
  simp [Runs.apply]

theorem step_resume (σ : Runs T) (i : Nat) (ans : RemoteAns) (ok : Bool) (p : Pending T)
    (hp : σ.pending[i]? = some p) (h : p.writes = true → σ.readLocked p.rid = false) :
    σ.step (.resume i ans ok) =
      { σ with pending := σ.pending.eraseIdx i }.apply p.rid (contEff (σ.get p.rid) ans ok p) := by
  simp only [step, hp]
  rw [if_neg]
  cases hw : p.writes
  · simp
  · simp [h hw]

theorem phaseOf_some {σ : Runs T} {rid : RunId} {p : Spec.Phase} (h : phaseOf σ rid = some p) :
    ∃ s, σ.get rid = some s ∧ phase s = p := by
  unfold phaseOf at h
  cases hs : σ.get rid with
  | none => rw [hs] at h; cases h
  | some s => rw [hs] at h; exact ⟨s, rfl, by simpa using h⟩

/-- Only runs that are serving tests have requests holding their lock. -/
theorem not_locked (acts : List (RunsAct T)) (rid : RunId) (p : Spec.Phase)
    (h : phaseOf ((init : Runs T).run acts) rid = some p) (hp : p ≠ .serving) :
    ((init : Runs T).run acts).readLocked rid = false := by
  have hb := base_run acts rid (T := T)
  unfold readLocked
  rw [List.any_eq_false]
  intro q hq hc
  simp only [Bool.and_eq_true, beq_iff_eq] at hc
  have := hb.ps q (List.mem_filter.2 ⟨hq, by simpa using hc.1⟩)
  obtain ⟨s, h1, h2⟩ := phaseOf_some h
  have h1' : (proj ((init : Runs T).run acts) rid).s = some s := h1
  rw [h1'] at this
  cases q <;> simp only [Pending.reads, Bool.false_eq_true, and_false] at hc
  cases s <;> simp only [PsOk, IsWork] at this
  exact hp h2.symm

/-! ## C11 -/

theorem empty_state (acts : List (RunsAct T)) (rid : RunId) :
    ∀ x md seen h, (proj ((init : Runs T).run acts) rid).s = some (.done x md seen .emptyManifest h) →
      (proj ((init : Runs T).run acts) rid).evs.any (isEmptyManifest rid) = true := by
  refine init_proj_induction' (I := fun L => ∀ x md seen h,
    L.s = some (.done x md seen .emptyManifest h) → L.evs.any (isEmptyManifest rid) = true) ?_ ?_ acts
  · intro x md seen h h'; cases h'
  · intro L L' hb ih hs x md seen h hL'
    obtain ⟨w, evs, hc, he, -⟩ := hs.change
    rw [he, List.any_append, Bool.or_eq_true]
    rw [hL'] at hc
    generalize hL : L.s = s0 at hc
    generalize hy : some (RunState.done x md seen .emptyManifest h) = s1 at hc
    cases hc with
    | refl => subst hy; exact Or.inl (ih _ _ _ _ hL)
    | seen => cases hy; exact Or.inl (ih _ _ _ _ hL)
    | empty => right; simp [isEmptyManifest]
    | _ => cases hy

theorem exit_state (acts : List (RunsAct T)) (rid : RunId) :
    ∀ x md seen m h, (proj ((init : Runs T).run acts) rid).s = some (.done x md seen m h) →
      x = 0 ∨ ∃ d, .loaded rid d ∈ (proj ((init : Runs T).run acts) rid).evs ∧ d.exit = x := by
  refine init_proj_induction' (I := fun L => ∀ x md seen m h,
    L.s = some (.done x md seen m h) → x = 0 ∨ ∃ d, .loaded rid d ∈ L.evs ∧ d.exit = x) ?_ ?_ acts
  · intro x md seen m h h'; cases h'
  · intro L L' hb ih hs x md seen m h hL'
    obtain ⟨w, evs, hc, he, -⟩ := hs.change
    have keep : (x = 0 ∨ ∃ d, .loaded rid d ∈ L.evs ∧ d.exit = x) →
        x = 0 ∨ ∃ d, .loaded rid d ∈ L'.evs ∧ d.exit = x := by
      rintro (h | ⟨d, h1, h2⟩)
      · exact Or.inl h
      · exact Or.inr ⟨d, by rw [he]; exact List.mem_append_left _ h1, h2⟩
    rw [hL'] at hc
    generalize hL : L.s = s0 at hc
    generalize hy : some (RunState.done x md seen m h) = s1 at hc
    cases hc with
    | refl => subst hy; exact keep (ih _ _ _ _ _ hL)
    | seen => cases hy; exact keep (ih _ _ _ _ _ hL)
    | persisted => cases hy; exact keep (ih _ _ _ _ _ hL)
    | empty => cases hy; exact Or.inl rfl
    | mark => cases hy; exact Or.inl rfl
    | load d => cases hy; exact Or.inr ⟨d, by rw [he]; simp, rfl⟩
    | _ => cases hy

theorem mem_recorded {α : Type} (ws : WorkerSet α) (e : Entity) :
    ws.containsByTag e = true ↔ e.tag ∈ tags ws := by
  simp [containsByTag, tags, List.any_eq_true]

/-- C11: when the join of a worker is answered for a run that exists, the answer is determined
by the phase of the run and by whether the worker took part in it:
waiting: fresh, not generating; serving: fresh for a new worker, retry for one that took part;
exhausted: retry for one that took part, already-done for an unknown one; cancelled: cancelled. -/
theorem C11_join_by_phase (acts : List (RunsAct T)) (i : Nat) (ans : RemoteAns) (ok : Bool)
    (p : JoinParams)
    (hp : ((init : Runs T).run acts).pending[i]? = some (.joinRead p)) :
    ∃ a, (((init : Runs T).run acts).step (.resume i ans ok)).events =
        ((init : Runs T).run acts).events ++ [.joined p a] ∧
      match phaseOf ((init : Runs T).run acts) p.rid with
      | none => False
      | some .waiting => ∃ d, a = .fresh false d
      | some .serving =>
        (∃ d, a = .fresh false d ∨ a = .retry d) ∧
        (((init : Runs T).run acts).events.any (tookPart p.rid p.entity.tag) = true →
          ∃ d, a = .retry d) ∧
        (known p.rid p.entity.tag ((init : Runs T).run acts).events = false →
          ∃ d, a = .fresh false d)
      | some .exhausted =>
        ((∃ d, a = .retry d) ∨ ∃ x, a = .alreadyDone x) ∧
        (((init : Runs T).run acts).events.any (tookPart p.rid p.entity.tag) = true →
          ((init : Runs T).run acts).events.any (isEmptyManifest p.rid) = false →
          ∃ d, a = .retry d) ∧
        (known p.rid p.entity.tag ((init : Runs T).run acts).events = false →
          ∃ x, a = .alreadyDone x)
      | some .cancelled => ∃ r, a = .cancelled r := by
  have hmem : (.joinRead p : Pending T) ∈ ((init : Runs T).run acts).pending :=
    List.mem_of_getElem? hp
  have hb := (base_run acts p.rid (T := T)).ps (.joinRead p)
    (List.mem_filter.2 ⟨hmem, by simp [Pending.rid]⟩)
  have htr := track_run acts p.rid (T := T)
  rw [step_resume _ _ _ _ _ hp (by simp [Pending.writes])]
  cases hs : ((init : Runs T).run acts).get p.rid with
  | none => exact absurd hs hb
  | some s =>
    refine ⟨(s.join p.entity p.hash).2, ?_, ?_⟩
    · show ((init : Runs T).run acts).events ++ _ = _
      simp only [Pending.rid, hs, contEff]
    · have hL : (proj ((init : Runs T).run acts) p.rid).s = some s := hs
      have htook := htr.took
      have hknown := htr.known p.entity.tag
      rw [hL] at htook hknown
      have e1 : (proj ((init : Runs T).run acts) p.rid).evs.any (tookPart p.rid p.entity.tag) =
          ((init : Runs T).run acts).events.any (tookPart p.rid p.entity.tag) := tookPart_filter _ _ _
      have e2 : known p.rid p.entity.tag (proj ((init : Runs T).run acts) p.rid).evs =
          known p.rid p.entity.tag ((init : Runs T).run acts).events := known_filter _ _ _
      have e3 : (proj ((init : Runs T).run acts) p.rid).evs.any (isEmptyManifest p.rid) = true →
          ((init : Runs T).run acts).events.any (isEmptyManifest p.rid) = true := by
        simp only [List.any_eq_true]
        rintro ⟨ev, h1, h2⟩
        exact ⟨ev, (List.mem_filter.1 h1).1, h2⟩
      rw [e2] at hknown
      simp only [phaseOf, hs, Option.map_some]
      cases s with
      | waiting ws b st h => exact ⟨_, rfl⟩
      | cancelled r => exact ⟨_, rfl⟩
      | hasWork q b md act h =>
        simp only [phase]
        have hi : (act.insertByTag p.entity none).2 = none ↔ p.entity.tag ∉ tags act := by
          rw [← insertByTag_old (ws := act) (e := p.entity) (v := none)]
          cases (act.insertByTag p.entity none).2 <;> simp
        simp only [RunState.join]
        refine ⟨?_, fun ht => ?_, fun hk => ?_⟩
        · split
          · exact ⟨_, Or.inl rfl⟩
          · exact ⟨_, Or.inr rfl⟩
        · have := htook trivial p.entity.tag (by rw [e1]; exact ht)
          split
          · rename_i hn; exact absurd this (hi.1 hn)
          · exact ⟨_, rfl⟩
        · split
          · exact ⟨_, rfl⟩
          · rename_i v hn
            have hm : p.entity.tag ∈ tags act := by
              apply Classical.byContradiction
              intro hc
              rw [hi.2 hc] at hn
              cases hn
            rw [hknown hm] at hk
            cases hk
      | done x md seen m h =>
        simp only [phase, RunState.join]
        refine ⟨?_, fun ht hne => ?_, fun hk => ?_⟩
        · split
          · exact Or.inl ⟨_, rfl⟩
          · exact Or.inr ⟨_, rfl⟩
        · have hrec : Recording (some (RunState.done (T := T) x md seen m h)) := by
            cases m with
            | cell => trivial
            | emptyManifest =>
              have := e3 (empty_state acts p.rid _ _ _ _ hL)
              rw [hne] at this
              cases this
          have := htook hrec p.entity.tag (by rw [e1]; exact ht)
          rw [if_pos ((mem_recorded seen p.entity).2 this)]
          exact ⟨_, rfl⟩
        · split
          · rename_i hc
            rw [hknown ((mem_recorded seen p.entity).1 hc)] at hk
            cases hk
          · exact ⟨_, rfl⟩

/-- C11: the exit code of an already-done answer is success, or the one kept in the remote
store. -/
theorem C11_exit_code (acts : List (RunsAct T)) (a b : List (Event T)) (p : JoinParams) (x : Int)
    (h : ((init : Runs T).run acts).events = a ++ .joined p (.alreadyDone x) :: b) :
    x = 0 ∨ ∃ d, .loaded p.rid d ∈ a ∧ d.exit = x := by
  have hall := always_run (rid := p.rid)
    (I := fun L => ∀ x md seen m h, L.s = some (.done x md seen m h) →
      x = 0 ∨ ∃ d, .loaded p.rid d ∈ L.evs ∧ d.exit = x)
    (P := fun a ev => ev = (.joined p (.alreadyDone x) : Event T) →
      x = 0 ∨ ∃ d, .loaded p.rid d ∈ a ∧ d.exit = x)
    (fun acts => exit_state acts p.rid)
    (by
      intro L L' ev hb hI hs he hev
      subst hev
      obtain ⟨evs, h1, h2⟩ := hs.step1 hb
      rw [he] at h2
      have h3 := List.append_cancel_left h2
      rw [← h3] at h1
      clear hs hb he h2
      generalize hL : L.s = s0 at h1
      generalize L'.s = s1 at h1
      generalize hx : [(.joined p (.alreadyDone x) : Event T)] = evs' at h1
      cases h1 with
      | joined s q hq =>
        simp only [List.cons.injEq, Event.joined.injEq, and_true] at hx
        have := hx.2
        cases s with
        | hasWork qq b md act h =>
          simp only [RunState.join] at this
          split at this <;> cases this
        | done x' md seen m h =>
          simp only [RunState.join] at this
          split at this
          · cases this
          · cases this
            exact hI _ _ _ _ _ hL
        | _ => cases this
      | req s r =>
        cases r <;> simp only [exec] at hx
        case nextWork => split at hx <;> cases hx
        all_goals cases hx
      | _ => cases hx) acts
  rcases always_global hall h rfl rfl with h | ⟨d, h1, h2⟩
  · exact Or.inl h
  · exact Or.inr ⟨d, (List.mem_filter.1 h1).1, h2⟩

/-- C11 (and C46): a worker admitted to a run it did not create is told that its command differs
exactly when the hash of its command is not the one the run was created with; a run taken over
from a store entry without a hash never differs. -/
theorem C11_command_differs (acts : List (RunsAct T)) (i : Nat) (ans : RemoteAns) (ok : Bool)
    (p : JoinParams) (d : Bool)
    (hp : ((init : Runs T).run acts).pending[i]? = some (.joinRead p))
    (h : (((init : Runs T).run acts).step (.resume i ans ok)).events =
        ((init : Runs T).run acts).events ++ [.joined p (.fresh false d)] ∨
      (((init : Runs T).run acts).step (.resume i ans ok)).events =
        ((init : Runs T).run acts).events ++ [.joined p (.retry d)]) :
    ∃ x ∈ ((init : Runs T).run acts).events,
      (asksToGenerate p.rid x = true ∨ isLoad p.rid x = true) ∧
      (d = true ↔ ∃ c, commandOf x = some c ∧ c ≠ p.hash) := by
  have hmem : (.joinRead p : Pending T) ∈ ((init : Runs T).run acts).pending :=
    List.mem_of_getElem? hp
  have hb := (base_run acts p.rid (T := T)).ps (.joinRead p)
    (List.mem_filter.2 ⟨hmem, by simp [Pending.rid]⟩)
  have ho := origin_run acts p.rid (T := T)
  rw [step_resume _ _ _ _ _ hp (by simp [Pending.writes])] at h
  cases hs : ((init : Runs T).run acts).get p.rid with
  | none => exact absurd hs hb
  | some s =>
    have hL : (proj ((init : Runs T).run acts) p.rid).s = some s := hs
    unfold Origin at ho
    rw [hL] at ho
    obtain ⟨a, x, b, e1, -, e3, -, e5⟩ := ho
    refine ⟨x, (List.mem_filter.1 (e1 ▸ List.mem_append_right a List.mem_cons_self :
      x ∈ (proj ((init : Runs T).run acts) p.rid).evs)).1, e3, ?_⟩
    have hj : (s.join p.entity p.hash).2 = .fresh false d ∨ (s.join p.entity p.hash).2 = .retry d := by
      simp only [Runs.apply, Pending.rid, hs, contEff, List.append_cancel_left_eq,
        List.cons.injEq, Event.joined.injEq, true_and, and_true] at h
      exact h
    clear h
    cases s with
    | waiting ws bb st c =>
      simp only [RunState.join, Assigned.fresh.injEq, true_and, reduceCtorEq, or_false] at hj
      simp only [HashOk] at e5
      subst hj
      simp [e5]
    | hasWork q bb md act c =>
      simp only [HashOk] at e5
      have : (c != p.hash) = d := by
        simp only [RunState.join] at hj
        split at hj <;> simpa using hj
      subst this
      simp [e5]
    | done xx md seen m c =>
      simp only [HashOk] at e5
      simp only [RunState.join] at hj
      split at hj
      · simp only [reduceCtorEq, Assigned.retry.injEq, false_or] at hj
        rw [e5]
        cases c with
        | none => subst hj; simp
        | some c => subst hj; simp
      · simp at hj
    | cancelled r => simp [RunState.join] at hj

example : ((init : Runs Nat).run (Sample.joins.take 4)).pending[1]? = some (.joinRead (Sample.jp 2)) := rfl

example : phaseOf ((init : Runs Nat).run (Sample.serving ++ [.join (Sample.jp 2)])) "run" =
    some .serving ∧
    ((init : Runs Nat).run (Sample.serving ++ [.join (Sample.jp 2)])).pending[1]? =
      some (.joinRead (Sample.jp 2)) ∧
    ((init : Runs Nat).run (Sample.serving ++ [.join (Sample.jp 2)])).events.any
      (tookPart "run" (Sample.jp 2).entity.tag) = true := ⟨rfl, rfl, rfl⟩

example : ((init : Runs Nat).run (Sample.pulls ++ [.join (Sample.jp 3), .resume 3 .notFound true])).events.getLast?
    = some (.joined (Sample.jp 3) (.alreadyDone 0)) := rfl

/-- C11: a join of a run that is not known consults the remote store: a stored run is taken over
as exhausted and the join is then answered for it, an absent or unreadable one is created with
this worker generating its manifest, and an error of the store is answered with an error. -/
theorem C11_unknown_run (acts : List (RunsAct T)) (i : Nat) (ans : RemoteAns) (ok : Bool)
    (p : JoinParams)
    (hp : ((init : Runs T).run acts).pending[i]? = some (.joinRemote p))
    (hn : phaseOf ((init : Runs T).run acts) p.rid = none) :
    match ans with
    | .found d =>
      phaseOf (((init : Runs T).run acts).step (.resume i ans ok)) p.rid = some .exhausted ∧
      (((init : Runs T).run acts).step (.resume i ans ok)).events =
        ((init : Runs T).run acts).events ++ [.loaded p.rid d] ∧
      .joinRead p ∈ (((init : Runs T).run acts).step (.resume i ans ok)).pending
    | .error =>
      phaseOf (((init : Runs T).run acts).step (.resume i ans ok)) p.rid = none ∧
      (((init : Runs T).run acts).step (.resume i ans ok)).events =
        ((init : Runs T).run acts).events ++ [.joined p .fatal]
    | _ =>
      phaseOf (((init : Runs T).run acts).step (.resume i ans ok)) p.rid = some .waiting ∧
      (((init : Runs T).run acts).step (.resume i ans ok)).events =
        ((init : Runs T).run acts).events ++ [.joined p (.fresh true false)] := by
  rw [step_resume _ _ _ _ _ hp (by simp [Pending.writes])]
  have hs : ((init : Runs T).run acts).get p.rid = none := by
    unfold phaseOf at hn
    cases h : ((init : Runs T).run acts).get p.rid with
    | none => rfl
    | some s => rw [h] at hn; cases hn
  have hg : ∀ x : Eff T, phaseOf (({ (init : Runs T).run acts with
      pending := ((init : Runs T).run acts).pending.eraseIdx i }).apply p.rid x) p.rid =
      x.state.map phase := by
    intro x
    unfold phaseOf
    rw [apply_get { (init : Runs T).run acts with
      pending := ((init : Runs T).run acts).pending.eraseIdx i } _ _ _ (fun _ => hs), if_pos rfl]
  simp only [Pending.rid, hs]
  cases ans <;> simp only [contEff, loadRemote, createFresh, hg] <;>
    simp [Runs.apply, phase, RunState.loaded, RunState.fresh]

/-! ## C12 -/

/-- The invariant of a cancelled run. -/
structure Gone (rid : RunId) (L0 L : Loc T) : Prop where
  st : ∃ r, L.s = some (.cancelled r)
  evs : ∃ new, L.evs = L0.evs ++ new ∧ ∀ ev ∈ new, cancelledAnswer rid ev = true ∨
    ∃ e items, ev = .work rid e items true ∧ .markEnd rid e items ∈ L0.ps
  ps : ∀ r e items, .markEnd r e items ∈ L.ps → .markEnd r e items ∈ L0.ps

theorem subIf_not_markEnd (rid : RunId) (b : Bool) (r : RunId) (e : Entity) (items : List (WorkerTest T)) :
    .markEnd r e items ∉ (subIf rid b : List (Pending T)) := by
  unfold subIf; split <;> simp

theorem gone_step {rid : RunId} {L0 L L' : Loc T} (hb : Base L) (h : Gone rid L0 L)
    (hs : LStep rid L L') : Gone rid L0 L' := by
  obtain ⟨⟨r0, hr0⟩, ⟨new, hn1, hn2⟩, hps⟩ := h
  have build : ∀ (x : Eff T) (ps : List (Pending T)) (r : CancelReason), x.state = some (.cancelled r) →
      (∀ ev ∈ x.evs, cancelledAnswer rid ev = true ∨
        ∃ e items, ev = .work rid e items true ∧ .markEnd rid e items ∈ L0.ps) →
      (∀ q ∈ ps, q ∈ L.ps) → (∀ r e items, .markEnd r e items ∉ x.next) →
      Gone rid L0 ({ L with ps := ps }.app x) := by
    intro x ps r h1 h2 h3 h4
    refine ⟨⟨r, h1⟩, ⟨new ++ x.evs, by simp [Loc.app, hn1], ?_⟩, ?_⟩
    · intro ev hev
      rcases List.mem_append.1 hev with hev | hev
      · exact hn2 ev hev
      · exact h2 ev hev
    · intro r e items hm
      rcases List.mem_append.1 hm with hm | hm
      · exact hps r e items (h3 _ hm)
      · exact absurd hm (h4 r e items)
  cases hs with
  | join p hp =>
    refine build _ L.ps r0 ?_ ?_ (fun _ h => h) ?_ <;> simp [joinEff, hr0]
  | req r hr =>
    rw [hr0]
    cases r <;> simp only [reqEff, exec]
    case nextWork e =>
      refine build _ L.ps r0 ?_ ?_ (fun _ h => h) ?_ <;> simp [RunState.pull, cancelledAnswer]
    case cancel e reason =>
      refine build _ L.ps reason ?_ ?_ (fun _ h => h) ?_
      · simp [RunState.cancel]
      · simp [RunState.cancel, cancelledAnswer]
      · intro r e items h
        exact subIf_not_markEnd rid _ r e items (by simpa only using h)
    case manifestFailed =>
      refine build _ L.ps r0 ?_ ?_ (fun _ h => h) ?_
      · simp [RunState.manifestFailed]
      · simp [cancelledAnswer]
      · intro r e items h
        exact subIf_not_markEnd rid _ r e items (by simpa only using h)
    case emptyManifest =>
      refine build _ L.ps r0 ?_ ?_ (fun _ h => h) ?_
      · simp [RunState.emptyManifest]
      · simp [RunState.emptyManifest, cancelledAnswer]
      · intro r e items h
        exact subIf_not_markEnd rid _ r e items (by simpa only using h)
    case readCell =>
      refine build _ L.ps r0 ?_ ?_ (fun _ h => h) ?_
      · simp
      · cases r0 <;> simp [RunState.readCell, cancelledAnswer]
      · simp
    all_goals
      refine build _ L.ps r0 ?_ ?_ (fun _ h => h) ?_ <;>
        simp [RunState.addManifest, RunState.initMetadata, RunState.retryManifest, RunState.complete,
          RunState.writeCell, RunState.status, cancelledAnswer]
  | cont p a b ans ok hp hm hr =>
    have hpo := hb.ps p (by rw [hm]; simp)
    have hsub : ∀ q ∈ a ++ b, q ∈ L.ps := by
      intro q hq
      rw [hm]
      rcases List.mem_append.1 hq with hq | hq
      · exact List.mem_append_left _ hq
      · exact List.mem_append_right _ (List.mem_cons_of_mem _ hq)
    rw [hr0] at hpo ⊢
    cases p <;> simp only [Pending.rid] at hp
    case joinRemote p =>
      cases ans <;> refine build _ _ r0 ?_ ?_ hsub ?_ <;>
        simp [contEff, loadRemote, createFresh, cancelledAnswer]
    case joinRead p =>
      refine build _ _ r0 ?_ ?_ hsub ?_ <;> simp [contEff, RunState.join, cancelledAnswer]
    case pulled => exact absurd hpo (by simp [PsOk, IsWork])
    case markEnd r e items =>
      subst hp
      refine build _ _ r0 ?_ ?_ hsub ?_
      · simp [contEff, RunState.markEnd]
      · intro ev hev
        simp only [contEff, List.mem_singleton] at hev
        exact Or.inr ⟨e, items, hev, hps _ _ _ (by rw [hm]; simp)⟩
      · intro r e items
        simp [contEff, RunState.markEnd, subIf]
    case respond r e items eow plan =>
      cases plan with
      | some => exact absurd hpo (by simp [PsOk, HasCell])
      | none =>
        cases ok <;> refine build _ _ r0 ?_ ?_ hsub ?_ <;> simp [contEff, cancelledAnswer, planTasks]
    case sub => refine build _ _ r0 ?_ ?_ hsub ?_ <;> simp [contEff]
    case dumpManifest => exact absurd hpo (by simp [PsOk, HasCell])
    case setPersisted => exact absurd hpo (by simp [PsOk, HasCell])
    case dumpState => exact absurd hpo (by simp [PsOk, HasCell])
    case timer r last =>
      refine build _ _ r0 ?_ ?_ hsub ?_ <;>
        simp [contEff, timerEff, RunState.progress, cancelledAnswer, rearm]
    case timeoutWrite r last =>
      refine build _ _ r0 ?_ ?_ hsub ?_ <;>
        simp [contEff, RunState.timeoutWrite, RunState.progress, cancelledAnswer, rearm, subIf]

theorem cancelledAnswer_other {rid : RunId} {ev : Event T} (h : ev.rid ≠ rid) :
    cancelledAnswer rid ev = true := by
  cases ev <;> simp only [Event.rid] at h
  case joined p a => cases a <;> simp [cancelledAnswer, h]
  case initMeta r e a =>
    cases a <;> simp [cancelledAnswer, h]
    rename_i c
    cases c <;> simp [cancelledAnswer, h]
  case retry r e a => cases a <;> simp [cancelledAnswer, h]
  all_goals simp [cancelledAnswer, h]

/-- C12: once a run is cancelled, everything the queue answers about it from then on fits a
cancelled run: no tests, no metadata, no admission, no retry manifest, no results. The one
exception are requests for tests that had already taken the last tests from the queue when the
run was cancelled: these are still answered with the tests they took. -/
theorem C12_nothing_after_cancellation (acts more : List (RunsAct T)) (rid : RunId)
    (h : phaseOf ((init : Runs T).run acts) rid = some .cancelled) :
    ∃ new, ((init : Runs T).run (acts ++ more)).events = ((init : Runs T).run acts).events ++ new ∧
      ∀ ev ∈ new, cancelledAnswer rid ev = true ∨
        ∃ e items, ev = .work rid e items true ∧
          .markEnd rid e items ∈ ((init : Runs T).run acts).pending := by
  obtain ⟨s, hs, hph⟩ := phaseOf_some h
  have hs' : ∃ r, (proj ((init : Runs T).run acts) rid).s = some (.cancelled r) := by
    cases s with
    | cancelled r => exact ⟨r, hs⟩
    | _ => cases hph
  have hg := run_proj_induction' (rid := rid)
    (I := Gone rid (proj ((init : Runs T).run acts) rid))
    (fun L L' hb h hs => gone_step hb h hs) acts more
    ⟨hs', ⟨[], by simp, by simp⟩, fun _ _ _ h => h⟩
  obtain ⟨new, hnew⟩ := run_events ((init : Runs T).run acts) more
  have hrun : (init : Runs T).run (acts ++ more) = ((init : Runs T).run acts).run more := by
    simp [run]
  refine ⟨new, by rw [hrun]; exact hnew, ?_⟩
  intro ev hev
  by_cases hr : ev.rid = rid
  · obtain ⟨new', h1, h2⟩ := hg.evs
    have h3 : new.filter (fun ev => ev.rid == rid) = new' := by
      have : (proj ((init : Runs T).run (acts ++ more)) rid).evs =
          (proj ((init : Runs T).run acts) rid).evs ++ new.filter (fun ev => ev.rid == rid) := by
        show ((init : Runs T).run (acts ++ more)).events.filter _ = _
        rw [hrun, hnew, List.filter_append]
        rfl
      rw [this] at h1
      exact List.append_cancel_left h1
    rcases h2 ev (by rw [← h3]; exact List.mem_filter.2 ⟨hev, by simpa using hr⟩) with h4 | ⟨e, items, h4, h5⟩
    · exact Or.inl h4
    · exact Or.inr ⟨e, items, h4, (List.mem_filter.1 h5).1⟩
  · exact Or.inl (cancelledAnswer_other hr)

/-- Worker 1 cancels the run while worker 2, which took the last test, is being answered. -/
example : phaseOf ((init : Runs Nat).run (Sample.serving ++
    [.request "run" (.nextWork (Sample.w 1)), .resume 1 .notFound true, .resume 1 .notFound true,
     .request "run" (.nextWork (Sample.w 2)), .resume 1 .notFound true,
     .request "run" (.cancel (Sample.w 1) .user)])) "run" = some .cancelled := by decide

/-! ## C13 -/

/-- C13: cancelling a run whose tests have all been handed out is refused: the run stays
exhausted, other runs, the tasks in flight, the stores and the count of active runs are as
before, and whatever any worker other than the canceller asks is answered as before. -/
theorem C13_cancel_when_exhausted (acts : List (RunsAct T)) (rid : RunId) (e : Entity)
    (reason : CancelReason)
    (h : phaseOf ((init : Runs T).run acts) rid = some .exhausted) :
    answer ((init : Runs T).run acts) rid (.cancel e reason) = [.cancel rid e true] ∧
    phaseOf (((init : Runs T).run acts).step (.request rid (.cancel e reason))) rid = some .exhausted ∧
    (∀ r, r ≠ rid → (((init : Runs T).run acts).step (.request rid (.cancel e reason))).get r =
      ((init : Runs T).run acts).get r) ∧
    (((init : Runs T).run acts).step (.request rid (.cancel e reason))).pending =
      ((init : Runs T).run acts).pending ∧
    (((init : Runs T).run acts).step (.request rid (.cancel e reason))).store =
      ((init : Runs T).run acts).store ∧
    (((init : Runs T).run acts).step (.request rid (.cancel e reason))).estimateNumActiveRuns =
      ((init : Runs T).run acts).estimateNumActiveRuns ∧
    (∀ e', answer (((init : Runs T).run acts).step (.request rid (.cancel e reason))) rid
        (.retryManifest e') = answer ((init : Runs T).run acts) rid (.retryManifest e')) ∧
    (∀ e', answer (((init : Runs T).run acts).step (.request rid (.cancel e reason))) rid
        (.nextWork e') = answer ((init : Runs T).run acts) rid (.nextWork e')) ∧
    (∀ e', e'.tag ≠ e.tag →
      answer (((init : Runs T).run acts).step (.request rid (.cancel e reason))) rid
        (.initMetadata e') = answer ((init : Runs T).run acts) rid (.initMetadata e')) ∧
    answer (((init : Runs T).run acts).step (.request rid (.cancel e reason))) rid .writeCell =
      answer ((init : Runs T).run acts) rid .writeCell := by
  have hnl := not_locked acts rid _ h (by simp)
  obtain ⟨s, hs, hph⟩ := phaseOf_some h
  cases s with
  | done x md seen m hh =>
    have hstep := step_request ((init : Runs T).run acts) rid (.cancel e reason) (fun _ => hnl)
    have hget : ∀ r, (((init : Runs T).run acts).step (.request rid (.cancel e reason))).get r =
        if r = rid then some (.done x md (seen.insertByTag e false).1 m hh)
        else ((init : Runs T).run acts).get r := by
      intro r
      rw [hstep, apply_get]
      · rw [hs]; rfl
      · rw [hs]; simp [reqEff, exec, RunState.cancel]
    have hrid := hget rid
    rw [if_pos rfl] at hrid
    refine ⟨?_, ?_, ?_, ?_, ?_, ?_, ?_, ?_, ?_, ?_⟩
    · rw [answer_eq _ _ _ (fun _ => hnl), hs]; rfl
    · unfold phaseOf; rw [hrid]; rfl
    · intro r hr; rw [hget, if_neg hr]
    · rw [hstep, hs]; simp [Runs.apply, reqEff, exec, RunState.cancel, subIf]
    · rw [hstep, hs]; simp [Runs.apply, reqEff, exec]
    · have hlt := (counter_run acts (T := T)).bound
      rw [hstep, hs]
      simp only [estimateNumActiveRuns, Runs.apply, reqEff, exec, count]
      simp [Nat.mod_eq_of_lt hlt]
    · intro e'
      rw [answer_eq _ _ _ (by simp [Req.writes]), answer_eq _ _ _ (by simp [Req.writes]), hrid, hs]
      cases m with
      | cell b => cases b <;> rfl
      | emptyManifest => rfl
    · intro e'
      rw [answer_eq _ _ _ (by simp [Req.writes]), answer_eq _ _ _ (by simp [Req.writes]), hrid, hs]
      rfl
    · intro e' he
      rw [answer_eq _ _ _ (by simp [Req.writes]), answer_eq _ _ _ (by simp [Req.writes]), hrid, hs]
      simp only [reqEff, exec, RunState.initMetadata]
      have : (seen.insertByTag e false).1.containsByTag e' = seen.containsByTag e' := by
        rw [Bool.eq_iff_iff, mem_recorded, mem_recorded, mem_tags_insertByTag]
        simp [he]
      rw [this]
      split <;> rfl
    · rw [answer_eq _ _ _ (by simp [Req.writes]), answer_eq _ _ _ (by simp [Req.writes]), hrid, hs]
      rfl
  | _ => cases hph

example : phaseOf ((init : Runs Nat).run Sample.pulls) "run" = some .exhausted := by decide

end Abq.Props
