import Verif.Model.AllRuns
import Verif.Proof.WorkerSet

/-!
# Projecting the registry on one run

Every step of the registry concerns one run. `proj σ rid` is what belongs to run `rid`, and each
step of the registry either leaves it alone or is a step `LStep` of that run.
-/

namespace Abq.Runs
variable {T : Type}

/-- The part of the registry that belongs to one run. -/
structure Loc (T : Type) where
  s : Option (RunState T)
  ps : List (Pending T)
  evs : List (Event T)
  store : List (ManifestView (WorkerTest T))
  remote : List RunDoc

/-- Nothing is known about the run. -/
def Loc.init : Loc T := { s := none, ps := [], evs := [], store := [], remote := [] }

/-- An effect on the run. -/
def Loc.app (L : Loc T) (x : Eff T) : Loc T :=
  { s := x.state
    ps := L.ps ++ x.next
    evs := L.evs ++ x.evs
    store := x.stored.toList ++ L.store
    remote := x.remoted.toList ++ L.remote }

/-- A step of one run. -/
inductive LStep (rid : RunId) (L : Loc T) : Loc T → Prop where
  | join (p : JoinParams) (hp : p.rid = rid) : LStep rid L (L.app (joinEff L.s p))
  | req (r : Req T) (h : r.writes = true → ∀ q ∈ L.ps, q.reads = false) :
      LStep rid L (L.app (reqEff rid L.s r))
  | cont (p : Pending T) (a b : List (Pending T)) (ans : RemoteAns) (ok : Bool)
      (hp : p.rid = rid) (hm : L.ps = a ++ p :: b)
      (h : p.writes = true → ∀ q ∈ L.ps, q.reads = false) :
      LStep rid L ({ L with ps := a ++ b }.app (contEff L.s ans ok p))

/-- What belongs to run `rid`. -/
def proj (σ : Runs T) (rid : RunId) : Loc T :=
  { s := σ.get rid
    ps := σ.pending.filter (fun p => p.rid == rid)
    evs := σ.events.filter (fun p => p.rid == rid)
    store := (σ.store.filter (fun p => p.1 == rid)).map Prod.snd
    remote := (σ.remote.filter (fun p => p.1 == rid)).map Prod.snd }

theorem lookup_map_set (l : List (RunId × RunState T)) (rid r : RunId) (s : RunState T) :
    List.lookup r (l.map (fun p => if p.1 == rid then (rid, s) else p)) =
      if r = rid then (List.lookup r l).map (fun _ => s) else List.lookup r l := by
  induction l with
  | nil => simp
  | cons p l ih =>
    obtain ⟨k, v⟩ := p
    rw [List.map_cons]
    by_cases hk : k = rid
    · subst hk
      simp only [beq_self_eq_true, if_true]
      rw [List.lookup_cons, List.lookup_cons, ih]
      by_cases hr : r = k
      · subst hr; simp
      · have : (r == k) = false := by simpa using hr
        simp [hr, this]
    · have hkf : (k == rid) = false := by simpa using hk
      simp only [hkf, Bool.false_eq_true, if_false]
      rw [List.lookup_cons, List.lookup_cons, ih]
      by_cases hr : r = rid
      · subst hr
        have : (r == k) = false := by simpa using fun h => hk h.symm
        simp [this]
      · simp [hr]

theorem lookup_snoc (l : List (RunId × RunState T)) (rid r : RunId) (s : RunState T)
    (h : List.lookup rid l = none) :
    List.lookup r (l ++ [(rid, s)]) = if r = rid then some s else List.lookup r l := by
  induction l with
  | nil =>
    simp only [List.nil_append, List.lookup_cons, List.lookup_nil]
    by_cases hr : r = rid
    · simp [hr]
    · have : (r == rid) = false := by simpa using hr
      simp [hr, this]
  | cons p l ih =>
    obtain ⟨k, v⟩ := p
    rw [List.lookup_cons] at h
    by_cases hk : rid = k
    · subst hk; simp at h
    · have hkf : (rid == k) = false := by simpa using hk
      rw [hkf] at h
      rw [List.cons_append, List.lookup_cons, List.lookup_cons, ih h]
      by_cases hr : r = rid
      · subst hr; simp [hkf]
      · simp [hr]

theorem lookup_put (l : List (RunId × RunState T)) (rid r : RunId) (s : Option (RunState T))
    (h : s = none → List.lookup rid l = none) :
    List.lookup r (put l rid s) = if r = rid then s else List.lookup r l := by
  cases s with
  | none =>
    simp only [put]
    by_cases hr : r = rid
    · subst hr; simp [h rfl]
    · simp [hr]
  | some s =>
    simp only [put]
    split
    · rename_i hl
      exact lookup_snoc l rid r s hl
    · rename_i s0 hl
      rw [lookup_map_set]
      by_cases hr : r = rid
      · subst hr; simp [hl]
      · simp [hr]

/-- No step removes a run. -/
theorem exec_state (rid : RunId) (s : RunState T) (r : Req T) : (exec rid s r).state ≠ none := by
  cases r <;> simp [exec]
  split <;> simp

theorem reqEff_state {rid : RunId} {s : Option (RunState T)} {r : Req T}
    (h : (reqEff rid s r).state = none) : s = none := by
  cases s with
  | none => rfl
  | some s => exact absurd h (exec_state rid s r)

theorem joinEff_state {s : Option (RunState T)} {p : JoinParams}
    (h : (joinEff s p).state = none) : s = none := by
  cases s with
  | none => rfl
  | some s => simp [joinEff] at h

theorem contEff_state {s : Option (RunState T)} {ans : RemoteAns} {ok : Bool} {p : Pending T}
    (h : (contEff s ans ok p).state = none) : s = none := by
  cases s with
  | none => rfl
  | some s =>
    exfalso
    revert h
    cases p <;> simp only [contEff]
    case joinRemote p => cases ans <;> simp [loadRemote, createFresh]
    case joinRead => simp
    case pulled => split <;> simp
    case markEnd => simp
    case respond => split <;> simp
    case sub => simp
    case dumpManifest => split <;> simp
    case setPersisted => simp
    case dumpState => split <;> simp
    case timer => unfold timerEff; split <;> simp
    case timeoutWrite => simp

/-- The events and continuations of an effect belong to its run. -/
structure EffOn (rid : RunId) (x : Eff T) : Prop where
  evs : ∀ e ∈ x.evs, e.rid = rid
  next : ∀ p ∈ x.next, p.rid = rid

theorem subIf_on (rid : RunId) (b : Bool) : ∀ p ∈ (subIf rid b : List (Pending T)), p.rid = rid := by
  intro p hp
  unfold subIf at hp
  split at hp
  · simp only [List.mem_singleton] at hp
    subst hp; rfl
  · simp at hp

theorem rearm_on (rid : RunId) (x : Progress) :
    ∀ p ∈ (rearm rid x : List (Pending T)), p.rid = rid := by
  intro p hp
  unfold rearm at hp
  split at hp
  · simp only [List.mem_singleton] at hp
    subst hp; rfl
  · simp at hp

theorem joinEff_on (s : Option (RunState T)) (p : JoinParams) : EffOn p.rid (joinEff s p) := by
  cases s <;> constructor <;> simp [joinEff, Pending.rid]

theorem exec_on (rid : RunId) (s : RunState T) (r : Req T) : EffOn rid (exec rid s r) := by
  cases r <;> simp only [exec]
  case nextWork e =>
    split <;> constructor <;> simp [Event.rid, Pending.rid]
  all_goals
    constructor
    · simp [Event.rid]
    · first
        | exact subIf_on _ _
        | simp

theorem reqEff_on (rid : RunId) (s : Option (RunState T)) (r : Req T) :
    EffOn rid (reqEff rid s r) := by
  cases s with
  | none => constructor <;> simp [reqEff, Event.rid]
  | some s => exact exec_on rid s r

theorem contEff_on (s : Option (RunState T)) (ans : RemoteAns) (ok : Bool) (p : Pending T) :
    EffOn p.rid (contEff s ans ok p) := by
  cases p <;> simp only [contEff]
  case joinRemote p =>
    cases ans <;> cases s <;> constructor <;>
      simp [loadRemote, createFresh, Event.rid, Pending.rid]
  case joinRead => cases s <;> constructor <;> simp [Event.rid, Pending.rid]
  case pulled => split <;> constructor <;> simp [Event.rid, Pending.rid]
  case markEnd =>
    cases s
    · constructor <;> simp [Event.rid, Pending.rid]
    · constructor
      · simp [Event.rid, Pending.rid]
      · intro q hq
        rcases List.mem_cons.1 hq with rfl | hq
        · rfl
        · exact subIf_on _ _ q hq
  case respond rid e items eow plan =>
    split
    · constructor
      · simp [Event.rid, Pending.rid]
      · cases plan <;> simp [planTasks, Pending.rid]
    · constructor <;> simp [Event.rid, Pending.rid]
  case sub => constructor <;> simp
  case dumpManifest => split <;> constructor <;> simp [Event.rid, Pending.rid]
  case setPersisted => constructor <;> simp
  case dumpState => split <;> constructor <;> simp [Event.rid, Pending.rid]
  case timer =>
    cases s
    · constructor <;> simp [Event.rid, Pending.rid]
    · unfold timerEff
      simp only
      split
      · constructor <;> simp [Event.rid, Pending.rid]
      · constructor
        · simp [Event.rid, Pending.rid]
        · exact rearm_on _ _
  case timeoutWrite =>
    cases s
    · constructor <;> simp [Event.rid, Pending.rid]
    · constructor
      · simp [Event.rid, Pending.rid]
      · intro q hq
        rcases List.mem_append.1 hq with hq | hq
        · exact rearm_on _ _ q hq
        · exact subIf_on _ _ q hq

theorem filter_on {γ : Type} (f : γ → RunId) (l : List γ) (rid : RunId) (h : ∀ x ∈ l, f x = rid)
    (r : RunId) : l.filter (fun x => f x == r) = if r = rid then l else [] := by
  by_cases hr : r = rid
  · subst hr
    rw [if_pos rfl, List.filter_eq_self]
    intro x hx
    simpa using h x hx
  · rw [if_neg hr, List.filter_eq_nil_iff]
    intro x hx
    simp only [beq_iff_eq]
    rw [h x hx]
    exact fun h => hr h.symm

theorem filter_pair {γ : Type} (rid r : RunId) (o : Option γ) :
    ((o.toList.map (fun v => (rid, v))).filter (fun p => p.1 == r)).map Prod.snd =
      if r = rid then o.toList else [] := by
  cases o with
  | none => simp
  | some v =>
    by_cases hr : r = rid
    · subst hr; simp
    · have : (rid == r) = false := by simpa using fun h => hr h.symm
      simp [hr, this]

theorem proj_apply (σ : Runs T) (rid : RunId) (x : Eff T) (hx : EffOn rid x)
    (hs : x.state = none → σ.get rid = none) (r : RunId) :
    proj (σ.apply rid x) r = if r = rid then (proj σ r).app x else proj σ r := by
  have h1 := lookup_put σ.runs rid r x.state hs
  have h2 := filter_on Pending.rid x.next rid hx.next r
  have h3 := filter_on Event.rid x.evs rid hx.evs r
  have h4 := filter_pair rid r x.stored
  have h5 := filter_pair rid r x.remoted
  by_cases hr : r = rid
  · rw [if_pos hr] at h1 h2 h3 h4 h5 ⊢
    simp only [proj, apply, get, Loc.app, List.filter_append, List.map_append, h1, h2, h3, h4, h5]
  · rw [if_neg hr] at h1 h2 h3 h4 h5 ⊢
    simp only [proj, apply, get, List.filter_append, List.map_append, h1, h2, h3, h4, h5,
      List.append_nil, List.nil_append]

theorem readLocked_iff (σ : Runs T) (rid : RunId) :
    σ.readLocked rid = false ↔ ∀ q ∈ (proj σ rid).ps, q.reads = false := by
  simp only [readLocked, proj, List.any_eq_false, List.mem_filter, Bool.and_eq_true, not_and,
    and_imp, Bool.not_eq_true, beq_iff_eq]

theorem eraseIdx_split {γ : Type} {l : List γ} {i : Nat} {x : γ} (h : l[i]? = some x) :
    ∃ a b, l = a ++ x :: b ∧ l.eraseIdx i = a ++ b := by
  obtain ⟨hi, hx⟩ := List.getElem?_eq_some_iff.1 h
  refine ⟨l.take i, l.drop (i + 1), ?_, ?_⟩
  · rw [← hx, ← List.drop_eq_getElem_cons hi, List.take_append_drop]
  · rw [List.eraseIdx_eq_take_drop_succ]

/-- Each step of the registry is, for each run, nothing or a step of that run. -/
theorem step_proj (σ : Runs T) (a : RunsAct T) (rid : RunId) :
    proj (σ.step a) rid = proj σ rid ∨ LStep rid (proj σ rid) (proj (σ.step a) rid) := by
  cases a with
  | join p =>
    simp only [step]
    rw [proj_apply _ _ _ (joinEff_on _ _) joinEff_state]
    by_cases hr : rid = p.rid
    · subst hr
      rw [if_pos rfl]
      exact Or.inr (.join p rfl)
    · rw [if_neg hr]; exact Or.inl rfl
  | request r req =>
    simp only [step]
    split
    · exact Or.inl rfl
    · rename_i hb
      rw [proj_apply _ _ _ (reqEff_on _ _ _) reqEff_state]
      by_cases hr : rid = r
      · subst hr
        rw [if_pos rfl]
        refine Or.inr (.req req ?_)
        intro hw
        rw [← readLocked_iff]
        simpa [hw] using hb
      · rw [if_neg hr]; exact Or.inl rfl
  | resume i ans ok =>
    simp only [step]
    split
    · exact Or.inl rfl
    · rename_i p hp
      split
      · exact Or.inl rfl
      · rename_i hb
        rw [proj_apply { σ with pending := σ.pending.eraseIdx i } p.rid _
          (contEff_on (σ.get p.rid) ans ok p) (fun h => contEff_state (s := σ.get p.rid) h)]
        obtain ⟨a, b, h1, h2⟩ := eraseIdx_split hp
        by_cases hr : rid = p.rid
        · subst hr
          rw [if_pos rfl]
          refine Or.inr ?_
          have hps : (proj σ p.rid).ps = a.filter (fun q => q.rid == p.rid) ++ p ::
              b.filter (fun q => q.rid == p.rid) := by
            simp [proj, h1]
          have := LStep.cont (L := proj σ p.rid) p _ _ ans ok rfl hps ?_
          · have he : proj { σ with pending := σ.pending.eraseIdx i } p.rid =
                { proj σ p.rid with
                  ps := a.filter (fun q => q.rid == p.rid) ++
                    b.filter (fun q => q.rid == p.rid) } := by
              simp [proj, h2, get]
            rw [he]
            exact this
          · intro hw
            rw [← readLocked_iff]
            simpa [hw] using hb
        · rw [if_neg hr]
          refine Or.inl ?_
          have hpr : (p.rid == rid) = false := by simpa using fun h => hr h.symm
          have hf : (a ++ b).filter (fun q => q.rid == rid) =
              σ.pending.filter (fun q => q.rid == rid) := by
            rw [h1]; simp [hpr]
          simp only [proj, h2, hf, get]

theorem run_append (σ : Runs T) (a b : List (RunsAct T)) : σ.run (a ++ b) = (σ.run a).run b := by
  simp [run, List.foldl_append]

/-- Induction over the history of one run, from any state of the registry. -/
theorem run_proj_induction {rid : RunId} {I : Loc T → Prop}
    (hs : ∀ L L', I L → LStep rid L L' → I L') (σ : Runs T) (h0 : I (proj σ rid))
    (acts : List (RunsAct T)) : I (proj (σ.run acts) rid) := by
  induction acts generalizing σ with
  | nil => exact h0
  | cons a acts ih =>
    refine ih (σ.step a) ?_
    rcases step_proj σ a rid with h | h
    · rw [h]; exact h0
    · exact hs _ _ h0 h

theorem proj_init (rid : RunId) : proj (init : Runs T) rid = Loc.init := rfl

/-- Induction over the history of one run, from the start of the queue. -/
theorem init_proj_induction {rid : RunId} {I : Loc T → Prop} (h0 : I Loc.init)
    (hs : ∀ L L', I L → LStep rid L L' → I L') (acts : List (RunsAct T)) :
    I (proj ((init : Runs T).run acts) rid) :=
  run_proj_induction hs init h0 acts

end Abq.Runs
