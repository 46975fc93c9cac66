import Verif.Spec.Replay
import Verif.Proof.AllRunsTasks

/-! # Proofs about replays -/

namespace Abq.Replay
open Abq.Runs
variable {T : Type}

/-- Tags and whether they are at work. -/
def flags (ws : WorkerSet Bool) : List (Tag × Bool) := ws.map fun p => (p.1.tag, p.2)

def putFlag (l : List (Tag × Bool)) (t : Tag) (v : Bool) : List (Tag × Bool) :=
  match l.findIdx? (fun p => p.1 == t) with
  | some i => l.set i (t, v)
  | none => l ++ [(t, v)]

theorem findIdx_flags (ws : WorkerSet Bool) (t : Tag) :
    (flags ws).findIdx? (fun p => p.1 == t) = ws.findIdx? (fun p => p.1.tag == t) := by
  rw [flags, List.findIdx?_map]; rfl

theorem flags_insert (ws : WorkerSet Bool) (e : Entity) (v : Bool) :
    flags (ws.insertByTag e v).1 = putFlag (flags ws) e.tag v := by
  rw [putFlag, findIdx_flags, WorkerSet.insertByTag]
  cases ws.findIdx? (fun p => p.1.tag == e.tag) with
  | none => simp [flags]
  | some i => simp [flags, List.map_set]

theorem contains_flags (ws : WorkerSet Bool) (e : Entity) : ws.containsByTag e = (flags ws).any (fun p => p.1 == e.tag) := by
  simp [flags, WorkerSet.containsByTag, List.any_map, Function.comp_def]

theorem flags_missing (ws : WorkerSet Bool) (e : Entity) (v : Bool) :
    flags (ws.insertByTagIfMissing e v) =
      if (flags ws).any (fun p => p.1 == e.tag) then flags ws else flags ws ++ [(e.tag, v)] := by
  rw [WorkerSet.insertByTagIfMissing, ← contains_flags, WorkerSet.containsByTag]
  split <;> simp [flags]

theorem active_flags (ws : WorkerSet Bool) :
    (ws.filter (fun p => p.2)).map (fun p => p.1.tag) = ((flags ws).filter (·.2)).map (·.1) := by
  induction ws with
  | nil => rfl
  | cons p ws ih =>
    have hc : flags (p :: ws) = (p.1.tag, p.2) :: flags ws := rfl
    rw [hc]
    cases h : p.2 <;> simp [List.filter_cons, h, ih]

theorem count_flags (ws : WorkerSet Bool) :
    (ws.filter (fun p => p.2)).length = ((flags ws).filter (·.2)).length := by
  have := congrArg List.length (active_flags ws)
  simpa using this

/-! ## States that cannot be told apart -/

inductive Alike : Option (RunState T) → Option (RunState T) → Prop where
  | refl (s) : Alike s s
  | done (x md m h) (a b : WorkerSet Bool) (hf : flags a = flags b) :
      Alike (some (.done x md a m h)) (some (.done x md b m h))

/-- Effects that differ at most in what cannot be told apart. -/
structure EffAlike (x y : Eff T) : Prop where
  state : Alike x.state y.state
  evs : x.evs = y.evs
  next : x.next = y.next
  added : x.added = y.added
  subbed : x.subbed = y.subbed
  stored : x.stored = y.stored
  remoted : x.remoted = y.remoted

theorem EffAlike.rfl (x : Eff T) : EffAlike x x := ⟨.refl _, by rfl, by rfl, by rfl, by rfl, by rfl, by rfl⟩

theorem reqEff_alike {s s' : Option (RunState T)} (h : Alike s s') (rid : RunId) (r : Req T) :
    EffAlike (reqEff rid s r) (reqEff rid s' r) := by
  cases h with
  | refl => exact .rfl _
  | done x md m h a b hf =>
    cases r with
    | addManifest flat md' => exact ⟨.done _ _ _ _ _ _ hf, rfl, rfl, rfl, rfl, rfl, rfl⟩
    | manifestFailed => exact ⟨.done _ _ _ _ _ _ hf, rfl, rfl, rfl, rfl, rfl, rfl⟩
    | emptyManifest => exact ⟨.done _ _ _ _ _ _ hf, rfl, rfl, rfl, rfl, rfl, rfl⟩
    | initMetadata e =>
      have hc : a.containsByTag e = b.containsByTag e := by rw [contains_flags, contains_flags, hf]
      have e1 : ∀ w : WorkerSet Bool, RunState.initMetadata (T := T) (.done x md w m h) e =
          if w.containsByTag e then (.done x md (w.insertByTag e true).1 m h, .metadata md)
          else (.done x md w m h, .alreadyCompleted false) := fun w => rfl
      refine ⟨?_, ?_, rfl, rfl, rfl, rfl, rfl⟩
      · show Alike (some (RunState.initMetadata _ e).1) (some (RunState.initMetadata _ e).1)
        rw [e1, e1, hc]
        split
        · exact .done _ _ _ _ _ _ (by rw [flags_insert, flags_insert, hf])
        · exact .done _ _ _ _ _ _ hf
      · show [Event.initMeta rid e (RunState.initMetadata _ e).2] = [Event.initMeta rid e (RunState.initMetadata _ e).2]
        rw [e1, e1, hc]
        split <;> rfl
    | nextWork e => exact ⟨.done _ _ _ _ _ _ (by rw [flags_missing, flags_missing, hf]), rfl, rfl, rfl, rfl, rfl, rfl⟩
    | retryManifest e =>
      cases m with
      | emptyManifest => exact ⟨.done _ _ _ _ _ _ hf, rfl, rfl, rfl, rfl, rfl, rfl⟩
      | cell v =>
        cases v with
        | false => exact ⟨.done _ _ _ _ _ _ hf, rfl, rfl, rfl, rfl, rfl, rfl⟩
        | true => exact ⟨.done _ _ _ _ _ _ (by rw [flags_insert, flags_insert, hf]), rfl, rfl, rfl, rfl, rfl, rfl⟩
    | complete e time =>
      exact ⟨.done _ _ _ _ _ _ (by rw [flags_insert, flags_insert, hf]), rfl, rfl, rfl, rfl, rfl, rfl⟩
    | cancel e reason =>
      exact ⟨.done _ _ _ _ _ _ (by rw [flags_insert, flags_insert, hf]), rfl, rfl, rfl, rfl, rfl, rfl⟩
    | writeCell => exact ⟨.done _ _ _ _ _ _ hf, rfl, rfl, rfl, rfl, rfl, rfl⟩
    | readCell =>
      refine ⟨.done _ _ _ _ _ _ hf, ?_, rfl, rfl, rfl, rfl, rfl⟩
      have e1 : ∀ w : WorkerSet Bool, RunState.readCell (T := T) (.done x md w m h) =
          if (((flags w).filter (·.2)).map (·.1)).isEmpty then .readFromCell
          else .inProgress (((flags w).filter (·.2)).map (·.1)) := fun w => by
        rw [← active_flags]; rfl
      show [Event.read rid (RunState.readCell _)] = [Event.read rid (RunState.readCell _)]
      rw [e1, e1, hf]
    | status =>
      refine ⟨.done _ _ _ _ _ _ hf, ?_, rfl, rfl, rfl, rfl, rfl⟩
      have e1 : ∀ w : WorkerSet Bool, RunState.status (T := T) (.done x md w m h) =
          .manifestDone (((flags w).filter (·.2)).length) := fun w => by
        rw [← count_flags]; rfl
      show [Event.status rid (RunState.status _)] = [Event.status rid (RunState.status _)]
      rw [e1, e1, hf]

theorem joinEff_alike {s s' : Option (RunState T)} (h : Alike s s') (p : JoinParams) :
    EffAlike (joinEff s p) (joinEff s' p) := by
  cases h with
  | refl => exact .rfl _
  | done x md m h a b hf => exact ⟨.done _ _ _ _ _ _ hf, rfl, rfl, rfl, rfl, rfl, rfl⟩

theorem contEff_alike {s s' : Option (RunState T)} (h : Alike s s') (ans : RemoteAns) (ok : Bool) (p : Pending T) :
    EffAlike (contEff s ans ok p) (contEff s' ans ok p) := by
  cases h with
  | refl => exact .rfl _
  | done x md m h a b hf =>
    cases p with
    | joinRemote p => cases ans <;> exact ⟨.done _ _ _ _ _ _ hf, rfl, rfl, rfl, rfl, rfl, rfl⟩
    | joinRead p =>
      have hc : a.containsByTag p.entity = b.containsByTag p.entity := by rw [contains_flags, contains_flags, hf]
      have e1 : ∀ w : WorkerSet Bool, RunState.join (T := T) (.done x md w m h) p.entity p.hash =
          if w.containsByTag p.entity then (.done x md w m h, .retry (match h with | some h => h != p.hash | none => false))
          else (.done x md w m h, .alreadyDone x) := fun w => rfl
      refine ⟨?_, ?_, rfl, rfl, rfl, rfl, rfl⟩
      · show Alike (some (RunState.join _ p.entity p.hash).1) (some (RunState.join _ p.entity p.hash).1)
        rw [e1, e1, hc]
        split <;> exact .done _ _ _ _ _ _ hf
      · show [Event.joined p (RunState.join _ p.entity p.hash).2] = [Event.joined p (RunState.join _ p.entity p.hash).2]
        rw [e1, e1, hc]
        split <;> rfl
    | pulled rid e items => exact ⟨.done _ _ _ _ _ _ hf, rfl, rfl, rfl, rfl, rfl, rfl⟩
    | markEnd rid e items => exact ⟨.done _ _ _ _ _ _ hf, rfl, rfl, rfl, rfl, rfl, rfl⟩
    | respond rid e items eow plan => cases ok <;> exact ⟨.done _ _ _ _ _ _ hf, rfl, rfl, rfl, rfl, rfl, rfl⟩
    | sub => exact ⟨.done _ _ _ _ _ _ hf, rfl, rfl, rfl, rfl, rfl, rfl⟩
    | dumpManifest => cases ok <;> exact ⟨.done _ _ _ _ _ _ hf, rfl, rfl, rfl, rfl, rfl, rfl⟩
    | setPersisted => cases m <;> exact ⟨.done _ _ _ _ _ _ hf, rfl, rfl, rfl, rfl, rfl, rfl⟩
    | dumpState => cases ok <;> exact ⟨.done _ _ _ _ _ _ hf, rfl, rfl, rfl, rfl, rfl, rfl⟩
    | timer => exact ⟨.done _ _ _ _ _ _ hf, rfl, rfl, rfl, rfl, rfl, rfl⟩
    | timeoutWrite => exact ⟨.done _ _ _ _ _ _ hf, rfl, rfl, rfl, rfl, rfl, rfl⟩

/-! ## Registries that cannot be told apart -/

structure Twins (σ τ : Runs T) : Prop where
  pending : σ.pending = τ.pending
  numActive : σ.numActive = τ.numActive
  store : σ.store = τ.store
  remote : σ.remote = τ.remote
  get : ∀ r, Alike (σ.get r) (τ.get r)

theorem get_apply (σ : Runs T) (rid r : RunId) (x : Eff T) (hs : x.state = none → σ.get rid = none) :
    (σ.apply rid x).get r = if r = rid then x.state else σ.get r := by
  have := lookup_put σ.runs rid r x.state hs
  by_cases hr : r = rid
  · rw [if_pos hr] at this ⊢; exact this
  · rw [if_neg hr] at this ⊢; exact this

theorem twins_apply {σ τ : Runs T} (h : Twins σ τ) {x y : Eff T} (hxy : EffAlike x y) (rid : RunId)
    (hx : x.state = none → σ.get rid = none) (hy : y.state = none → τ.get rid = none) :
    Twins (σ.apply rid x) (τ.apply rid y) ∧
      (σ.apply rid x).events = σ.events ++ x.evs ∧ (τ.apply rid y).events = τ.events ++ x.evs := by
  refine ⟨⟨?_, ?_, ?_, ?_, fun r => ?_⟩, rfl, ?_⟩
  · simp only [apply]; rw [h.pending, hxy.next]
  · simp only [apply]; rw [h.numActive, hxy.added, hxy.subbed]
  · simp only [apply]; rw [h.store, hxy.stored]
  · simp only [apply]; rw [h.remote, hxy.remoted]
  · rw [get_apply _ _ _ _ hx, get_apply _ _ _ _ hy]
    split
    · exact hxy.state
    · exact h.get r
  · simp only [apply]; rw [hxy.evs]

theorem twins_locked {σ τ : Runs T} (h : Twins σ τ) (rid : RunId) : σ.readLocked rid = τ.readLocked rid := by
  simp only [readLocked, h.pending]

theorem twins_step {σ τ : Runs T} (h : Twins σ τ) (a : RunsAct T) :
    Twins (σ.step a) (τ.step a) ∧
      ∃ evs, (σ.step a).events = σ.events ++ evs ∧ (τ.step a).events = τ.events ++ evs := by
  cases a with
  | join p =>
    obtain ⟨h1, h2, h3⟩ := twins_apply h (joinEff_alike (h.get p.rid) p) p.rid joinEff_state joinEff_state
    exact ⟨h1, _, h2, h3⟩
  | request rid r =>
    simp only [step, ← twins_locked h]
    split
    · exact ⟨h, [], by simp, by simp⟩
    · obtain ⟨h1, h2, h3⟩ := twins_apply h (reqEff_alike (h.get rid) rid r) rid reqEff_state reqEff_state
      exact ⟨h1, _, h2, h3⟩
  | resume i ans ok =>
    simp only [step, ← h.pending]
    cases hp : σ.pending[i]? with
    | none => exact ⟨h, [], by simp, by simp⟩
    | some p =>
      simp only [← twins_locked h]
      split
      · exact ⟨h, [], by simp, by simp⟩
      · have h' : Twins { σ with pending := σ.pending.eraseIdx i } { τ with pending := σ.pending.eraseIdx i } :=
          ⟨rfl, h.numActive, h.store, h.remote, h.get⟩
        obtain ⟨h1, h2, h3⟩ := twins_apply h' (contEff_alike (h.get p.rid) ans ok p) p.rid
          (fun e => contEff_state (s := σ.get p.rid) e) (fun e => contEff_state (s := τ.get p.rid) e)
        exact ⟨h1, _, h2, h3⟩

theorem twins_run {σ τ : Runs T} (h : Twins σ τ) (acts : List (RunsAct T)) :
    Twins (σ.run acts) (τ.run acts) ∧
      ∃ evs, (σ.run acts).events = σ.events ++ evs ∧ (τ.run acts).events = τ.events ++ evs := by
  induction acts generalizing σ τ with
  | nil => exact ⟨h, [], by simp [run], by simp [run]⟩
  | cons a acts ih =>
    obtain ⟨h1, e1, h2, h3⟩ := twins_step h a
    obtain ⟨h4, e2, h5, h6⟩ := ih h1
    refine ⟨h4, e1 ++ e2, ?_, ?_⟩
    · show ((σ.step a).run acts).events = _
      rw [h5, h2, List.append_assoc]
    · show ((τ.step a).run acts).events = _
      rw [h6, h3, List.append_assoc]

/-! ## During a replay -/

/-- Flags of the same tags, where only tags `t` with `w t ≠ none` may have changed, and are off if `w t = some false`. -/
structure Changed (w : Tag → Option Bool) (l l' : List (Tag × Bool)) : Prop where
  tags : l'.map (·.1) = l.map (·.1)
  keep : ∀ i, l'[i]? = l[i]? ∨ ∃ t, l.findIdx? (fun p => p.1 == t) = some i ∧ w t ≠ none
  off : ∀ t i, l.findIdx? (fun p => p.1 == t) = some i → w t = some false → l'[i]? = some (t, false)

theorem findIdx_tags (l l' : List (Tag × Bool)) (h : l'.map (·.1) = l.map (·.1)) (t : Tag) :
    l'.findIdx? (fun p => p.1 == t) = l.findIdx? (fun p => p.1 == t) := by
  have e : ∀ k : List (Tag × Bool), k.findIdx? (fun p => p.1 == t) = (k.map (·.1)).findIdx? (· == t) := fun k => by
    rw [List.findIdx?_map]; rfl
  rw [e, e, h]

theorem changed_refl (l : List (Tag × Bool)) : Changed (fun _ => none) l l :=
  ⟨rfl, fun _ => .inl rfl, fun _ _ _ h => nomatch h⟩

theorem findIdx_inj {l : List (Tag × Bool)} {t u : Tag} {i : Nat} (h1 : l.findIdx? (fun p => p.1 == t) = some i)
    (h2 : l.findIdx? (fun p => p.1 == u) = some i) : t = u := by
  rw [List.findIdx?_eq_some_iff_getElem] at h1 h2
  obtain ⟨h, ht, -⟩ := h1
  obtain ⟨_, hu, -⟩ := h2
  have a : l[i].1 = t := by simpa using ht
  have b : l[i].1 = u := by simpa using hu
  rw [← a, ← b]

theorem changed_put {w w' : Tag → Option Bool} {l l' : List (Tag × Bool)} (h : Changed w l l') {t : Tag} {v : Bool}
    (ht : t ∈ l.map (·.1)) (hw : ∀ u, u ≠ t → w' u = w u) (hv : w' t = some v) : Changed w' l (putFlag l' t v) := by
  obtain ⟨i, hi⟩ : ∃ i, l.findIdx? (fun p => p.1 == t) = some i := by
    cases hf : l.findIdx? (fun p => p.1 == t) with
    | some i => exact ⟨i, rfl⟩
    | none =>
      rw [List.findIdx?_eq_none_iff] at hf
      obtain ⟨p, hp, rfl⟩ := List.mem_map.1 ht
      simpa using hf p hp
  have hi' := hi
  rw [← findIdx_tags l l' h.tags] at hi'
  have hlt : i < l'.length := by
    rw [List.findIdx?_eq_some_iff_getElem] at hi'
    exact hi'.1
  have e : putFlag l' t v = l'.set i (t, v) := by rw [putFlag, hi']
  rw [e]
  have hti : l'[i].1 = t := by
    rw [List.findIdx?_eq_some_iff_getElem] at hi'
    obtain ⟨_, hp, -⟩ := hi'
    simpa using hp
  refine ⟨?_, ?_, ?_⟩
  · rw [← h.tags, List.map_set]
    apply List.ext_getElem?
    intro j
    rw [List.getElem?_set]
    by_cases hj : i = j
    · subst hj; simp [hlt, hti]
    · simp [hj]
  · intro j
    rw [List.getElem?_set]
    by_cases hj : i = j
    · subst hj
      exact .inr ⟨t, hi, by rw [hv]; simp⟩
    · rw [if_neg hj]
      rcases h.keep j with h1 | ⟨u, h1, h2⟩
      · exact .inl h1
      · refine .inr ⟨u, h1, ?_⟩
        rw [hw u]
        · exact h2
        · rintro rfl
          rw [hi] at h1
          exact hj (Option.some.inj h1)
  · intro u j hu hoff
    rw [List.getElem?_set]
    by_cases hut : u = t
    · subst hut
      rw [hi] at hu
      cases hu
      rw [hv] at hoff
      cases hoff
      rw [if_pos rfl, if_pos hlt]
    · have hj : i ≠ j := by
        rintro rfl
        exact hut (findIdx_inj hu hi)
      rw [if_neg hj]
      rw [hw u hut] at hoff
      exact h.off u j hu hoff

theorem changed_weaken {w w' : Tag → Option Bool} {l l' : List (Tag × Bool)} (h : Changed w l l') {t : Tag}
    (hw : ∀ u, u ≠ t → w' u = w u) (hv : w' t = some true) : Changed w' l l' := by
  refine ⟨h.tags, fun i => ?_, fun u i hu hoff => ?_⟩
  · rcases h.keep i with h1 | ⟨u, h1, h2⟩
    · exact .inl h1
    · refine .inr ⟨u, h1, ?_⟩
      by_cases hut : u = t
      · rw [hut, hv]; simp
      · rw [hw u hut]; exact h2
  · have hut : u ≠ t := by
      rintro rfl
      rw [hv] at hoff; cases hoff
    rw [hw u hut] at hoff
    exact h.off u i hu hoff

/-- All ended, and all were off: nothing changed. -/
theorem changed_ended {w : Tag → Option Bool} {l l' : List (Tag × Bool)} (h : Changed w l l') (hw : ∀ t, w t ≠ some true)
    (hoff : ∀ p ∈ l, p.2 = false) : l' = l := by
  apply List.ext_getElem?
  intro i
  rcases h.keep i with h1 | ⟨t, h1, h2⟩
  · exact h1
  · have h3 : w t = some false := by
      cases hx : w t with
      | none => exact (h2 hx).elim
      | some b =>
        cases b with
        | false => rfl
        | true => exact (hw t hx).elim
    rw [h.off t i h1 h3]
    rw [List.findIdx?_eq_some_iff_getElem] at h1
    obtain ⟨hlt, hp, -⟩ := h1
    rw [List.getElem?_eq_getElem hlt]
    have e1 : l[i].1 = t := by simpa using hp
    have e2 := hoff l[i] (List.getElem_mem hlt)
    rw [← e1, ← e2]

/-- What a replay leaves pending. -/
def Inert (rid : RunId) : Pending T → Prop
  | .joinRead p => p.rid = rid
  | .respond r _ _ _ none => r = rid
  | _ => False

structure During (rid : RunId) (x : Int) (md : String) (seen : WorkerSet Bool) (m : ManifestPersistence) (h : Option String)
    (σ σ' : Runs T) (w : Tag → Option Bool) : Prop where
  state : ∃ seen', σ'.get rid = some (.done x md seen' m h) ∧ Changed w (flags seen) (flags seen')
  others : ∀ r, r ≠ rid → σ'.get r = σ.get r
  pending : ∃ extra, σ'.pending = σ.pending ++ extra ∧ ∀ p ∈ extra, Inert rid p
  numActive : σ'.numActive = σ.numActive
  store : σ'.store = σ.store
  remote : σ'.remote = σ.remote

theorem lastWord_snoc (rid : RunId) (t : Tag) (acts : List (RunsAct T)) (a : RunsAct T) :
    lastWord rid t (acts ++ [a]) = (word rid t a).or (lastWord rid t acts) := by
  induction acts with
  | nil => simp [lastWord]
  | cons b acts ih => rw [List.cons_append, lastWord, ih, lastWord, Option.or_assoc]

/-- An effect on a run that is over that leaves everything but the flags. -/
theorem during_apply {rid : RunId} {x : Int} {md : String} {seen : WorkerSet Bool} {m : ManifestPersistence} {h : Option String}
    {σ σ' : Runs T} {w w' : Tag → Option Bool} (hd : During rid x md seen m h σ σ' w) (hn : σ.numActive < 2 ^ 64) (y : Eff T)
    (seen' : WorkerSet Bool) (hy : y.state = some (.done x md seen' m h)) (hc : Changed w' (flags seen) (flags seen'))
    (hnext : ∀ p ∈ y.next, Inert rid p) (ha : y.added = false) (hsub : y.subbed = false) (hst : y.stored = none)
    (hre : y.remoted = none) : During rid x md seen m h σ (σ'.apply rid y) w' := by
  have hg : ∀ r, (σ'.apply rid y).get r = if r = rid then y.state else σ'.get r := fun r =>
    get_apply _ _ _ _ (by rw [hy]; intro e; cases e)
  obtain ⟨extra, he, hi⟩ := hd.pending
  refine ⟨⟨seen', ?_, hc⟩, fun r hr => ?_, ⟨extra ++ y.next, ?_, ?_⟩, ?_, ?_, ?_⟩
  · rw [hg, if_pos rfl, hy]
  · rw [hg, if_neg hr, hd.others r hr]
  · simp only [apply]; rw [he, List.append_assoc]
  · intro p hp
    rcases List.mem_append.1 hp with h1 | h1
    · exact hi p h1
    · exact hnext p h1
  · simp only [apply, count, ha, hsub, hd.numActive]
    simpa using Nat.mod_eq_of_lt hn
  · simp only [apply, hst, hd.store]; rfl
  · simp only [apply, hre, hd.remote]; rfl

theorem join_done (x : Int) (md : String) (w : WorkerSet Bool) (m : ManifestPersistence) (h : Option String) (e : Entity)
    (k : String) : (RunState.join (T := T) (.done x md w m h) e k).1 = .done x md w m h := by
  simp only [RunState.join]
  split <;> rfl

theorem during_step {rid : RunId} {x : Int} {md : String} {seen : WorkerSet Bool} {m : ManifestPersistence} {h : Option String}
    {σ : Runs T} (hσ : σ.get rid = some (.done x md seen m h)) (hl : σ.readLocked rid = false) (hn : σ.numActive < 2 ^ 64)
    {acts : List (RunsAct T)} {a : RunsAct T} (hd : During rid x md seen m h σ (σ.run acts) fun t => lastWord rid t acts)
    (ha : Act σ rid a) : During rid x md seen m h σ (σ.run (acts ++ [a])) fun t => lastWord rid t (acts ++ [a]) := by
  have hrun : σ.run (acts ++ [a]) = (σ.run acts).step a := by simp [run, List.foldl_append]
  rw [hrun]
  generalize σ.run acts = σ' at *
  obtain ⟨extra, he, hi⟩ := hd.pending
  obtain ⟨seen', hg, hc⟩ := hd.state
  have hl' : σ'.readLocked rid = false := by
    rw [readLocked, he, List.any_append]
    rw [readLocked] at hl
    rw [hl, Bool.false_or, List.any_eq_false]
    intro p hp
    have := hi p hp
    cases p <;> simp_all [Inert, Pending.reads]
  have hin : ∀ e : Entity, TookPart σ rid e → e.tag ∈ (flags seen).map (·.1) := by
    rintro e ⟨_, _, _, _, _, h1, p, hp, h2⟩
    rw [hσ] at h1
    cases h1
    exact List.mem_map.2 ⟨(p.1.tag, p.2), List.mem_map.2 ⟨p, hp, rfl⟩, h2⟩
  have hreq : ∀ r : Req T, σ'.step (.request rid r) = σ'.apply rid (exec rid (.done x md seen' m h) r) := by
    intro r
    simp only [step, hl', Bool.and_false, Bool.false_eq_true, if_false, hg]
    rfl
  have hsame : ∀ a : RunsAct T, (∀ t, word rid t a = none) →
      (fun t => lastWord rid t (acts ++ [a])) = fun t => lastWord rid t acts := by
    intro a h0
    funext t
    rw [lastWord_snoc, h0, Option.none_or]
  have hone : ∀ (a : RunsAct T) (e : Entity) (b : Bool), (∀ t, word rid t a = if e.tag = t then some b else none) →
      (∀ u, u ≠ e.tag → lastWord rid u (acts ++ [a]) = lastWord rid u acts) ∧ lastWord rid e.tag (acts ++ [a]) = some b := by
    intro a e b h0
    refine ⟨fun u hu => ?_, ?_⟩
    · rw [lastWord_snoc, h0, if_neg (fun h => hu h.symm), Option.none_or]
    · rw [lastWord_snoc, h0, if_pos rfl, Option.some_or]
  have hcont : ∀ e : Entity, seen'.containsByTag e = true → e.tag ∈ (flags seen).map (·.1) := by
    intro e hce
    rw [contains_flags, List.any_eq_true] at hce
    obtain ⟨p, hp, hpe⟩ := hce
    rw [← hc.tags]
    exact List.mem_map.2 ⟨p, hp, by simpa using hpe⟩
  cases ha with
  | resume i ans ok hlen =>
    rw [hsame _ fun t => rfl]
    simp only [step]
    cases hp : σ'.pending[i]? with
    | none => exact hd
    | some p =>
      have hmem : p ∈ extra := by
        rw [he, List.getElem?_append_right hlen] at hp
        exact List.mem_of_getElem? hp
      have hpi := hi p hmem
      have hd' : During rid x md seen m h σ { σ' with pending := σ'.pending.eraseIdx i } fun t => lastWord rid t acts := by
        refine ⟨hd.state, hd.others, ⟨extra.eraseIdx (i - σ.pending.length), ?_, ?_⟩, hd.numActive, hd.store, hd.remote⟩
        · show σ'.pending.eraseIdx i = _
          rw [he, List.eraseIdx_append_of_length_le hlen]
        · exact fun q hq => hi q (List.mem_of_mem_eraseIdx hq)
      cases p with
      | joinRead p =>
        have hr : p.rid = rid := hpi
        simp only [Pending.writes, Bool.false_and, Bool.false_eq_true, if_false, Pending.rid, hr, hg]
        refine during_apply hd' hn _ seen' ?_ hc ?_ rfl rfl rfl rfl
        · show some (RunState.join _ p.entity p.hash).1 = _
          rw [join_done]
        · intro q hq; exact absurd hq (by simp [contEff])
      | respond r e items eow plan =>
        cases plan with
        | some pl => exact hpi.elim
        | none =>
          have hr : r = rid := hpi
          subst hr
          simp only [Pending.writes, Bool.false_and, Bool.false_eq_true, if_false, Pending.rid, hg]
          cases ok
          · exact during_apply hd' hn _ seen' rfl hc (by intro q hq; exact absurd hq (by simp [contEff])) rfl rfl rfl rfl
          · exact during_apply hd' hn _ seen' rfl hc (by intro q hq; exact absurd hq (by simp [contEff, planTasks])) rfl rfl rfl rfl
      | _ => exact hpi.elim
  | msg ms hs hm =>
    cases ms with
    | attach p =>
      have hr : p.rid = rid := hm
      rw [hsame _ fun t => rfl]
      show During rid x md seen m h σ (σ'.apply p.rid (joinEff (σ'.get p.rid) p)) _
      rw [hr, hg]
      refine during_apply hd hn _ seen' rfl hc ?_ rfl rfl rfl rfl
      intro q hq
      simp only [joinEff, List.mem_singleton] at hq
      subst hq
      exact hr
    | initContext e =>
      obtain ⟨h1, h2⟩ := hone (.request rid (.initMetadata e)) e true (fun t => by simp [word])
      show During rid x md seen m h σ (σ'.step (.request rid (.initMetadata e))) fun t => lastWord rid t (acts ++ [.request rid (.initMetadata e)])
      rw [hreq]
      have e1 : RunState.initMetadata (T := T) (.done x md seen' m h) e =
          if seen'.containsByTag e then (.done x md (seen'.insertByTag e true).1 m h, .metadata md)
          else (.done x md seen' m h, .alreadyCompleted false) := rfl
      by_cases hce : seen'.containsByTag e = true
      · rw [if_pos hce] at e1
        refine during_apply hd hn _ (seen'.insertByTag e true).1 ?_ ?_ ?_ rfl rfl rfl rfl
        · show some (RunState.initMetadata _ e).1 = _
          rw [e1]
        · rw [flags_insert]
          exact changed_put hc (hcont e hce) h1 h2
        · intro q hq; exact absurd hq (by simp [exec])
      · rw [if_neg hce] at e1
        refine during_apply hd hn _ seen' ?_ ?_ ?_ rfl rfl rfl rfl
        · show some (RunState.initMetadata _ e).1 = _
          rw [e1]
        · exact changed_weaken hc h1 h2
        · intro q hq; exact absurd hq (by simp [exec])
    | manifest flat md' =>
      show During rid x md seen m h σ (σ'.step (.request rid (.addManifest flat md'))) fun t => lastWord rid t (acts ++ [.request rid (.addManifest flat md')])
      rw [hsame _ fun t => rfl, hreq]
      exact during_apply hd hn _ seen' rfl hc (by intro q hq; exact absurd hq (by simp [exec])) rfl rfl rfl rfl
    | emptyManifest =>
      show During rid x md seen m h σ (σ'.step (.request rid .emptyManifest)) fun t => lastWord rid t (acts ++ [.request rid .emptyManifest])
      rw [hsame _ fun t => rfl, hreq]
      exact during_apply hd hn _ seen' rfl hc (by intro q hq; exact absurd hq (by simp [exec, RunState.emptyManifest, subIf])) rfl rfl rfl rfl
    | manifestFailed =>
      show During rid x md seen m h σ (σ'.step (.request rid .manifestFailed)) fun t => lastWord rid t (acts ++ [.request rid .manifestFailed])
      rw [hsame _ fun t => rfl, hreq]
      exact during_apply hd hn _ seen' rfl hc (by intro q hq; exact absurd hq (by simp [exec, RunState.manifestFailed, subIf])) rfl rfl rfl rfl
    | retryManifest e =>
      obtain ⟨h1, h2⟩ := hone (.request rid (.retryManifest e)) e true (fun t => by simp [word])
      show During rid x md seen m h σ (σ'.step (.request rid (.retryManifest e))) fun t => lastWord rid t (acts ++ [.request rid (.retryManifest e)])
      rw [hreq]
      have hnx : ∀ q ∈ (exec rid (.done x md seen' m h) (.retryManifest e) : Eff T).next, Inert rid q := by
        intro q hq; exact absurd hq (by simp [exec])
      cases m with
      | emptyManifest => exact during_apply hd hn _ seen' rfl (changed_weaken hc h1 h2) hnx rfl rfl rfl rfl
      | cell v =>
        cases v with
        | false => exact during_apply hd hn _ seen' rfl (changed_weaken hc h1 h2) hnx rfl rfl rfl rfl
        | true =>
          refine during_apply hd hn _ (seen'.insertByTag e true).1 rfl ?_ hnx rfl rfl rfl rfl
          rw [flags_insert]
          exact changed_put hc (hin e hm) h1 h2
    | nextTests e =>
      show During rid x md seen m h σ (σ'.step (.request rid (.nextWork e))) fun t => lastWord rid t (acts ++ [.request rid (.nextWork e)])
      rw [hsame _ fun t => rfl, hreq]
      refine during_apply hd hn _ (seen'.insertByTagIfMissing e true) rfl ?_ ?_ rfl rfl rfl rfl
      · have : (flags seen').any (fun p => p.1 == e.tag) = true := by
          have h1 := hin e hm
          rw [← hc.tags] at h1
          obtain ⟨p, hp, hpe⟩ := List.mem_map.1 h1
          rw [List.any_eq_true]
          exact ⟨p, hp, by simpa using hpe⟩
        rw [flags_missing, if_pos this]
        exact hc
      · intro q hq
        simp only [exec, RunState.pull, List.mem_singleton] at hq
        subst hq
        exact rfl
    | results e => exact absurd hs (by simp [Mode.sends])
    | ranAllTests e time =>
      obtain ⟨h1, h2⟩ := hone (.request rid (.complete e time)) e false (fun t => by simp [word])
      show During rid x md seen m h σ (σ'.step (.request rid (.complete e time))) fun t => lastWord rid t (acts ++ [.request rid (.complete e time)])
      rw [hreq]
      refine during_apply hd hn _ (seen'.insertByTag e false).1 rfl ?_ (by intro q hq; exact absurd hq (by simp [exec])) rfl rfl rfl rfl
      rw [flags_insert]
      exact changed_put hc (hin e hm) h1 h2
    | cancel e =>
      obtain ⟨h1, h2⟩ := hone (.request rid (.cancel e .user)) e false (fun t => by simp [word])
      show During rid x md seen m h σ (σ'.step (.request rid (.cancel e .user))) fun t => lastWord rid t (acts ++ [.request rid (.cancel e .user)])
      rw [hreq]
      refine during_apply hd hn _ (seen'.insertByTag e false).1 rfl ?_ (by intro q hq; exact absurd hq (by simp [exec, RunState.cancel, subIf])) rfl rfl rfl rfl
      rw [flags_insert]
      exact changed_put hc (hin e hm) h1 h2

theorem snoc_induction {γ : Type} {P : List γ → Prop} (h0 : P []) (hs : ∀ l a, P l → P (l ++ [a])) (l : List γ) : P l := by
  rw [← List.reverse_reverse l]
  induction l.reverse with
  | nil => exact h0
  | cons a r ih => rw [List.reverse_cons]; exact hs _ _ ih

theorem during_run {rid : RunId} {x : Int} {md : String} {seen : WorkerSet Bool} {m : ManifestPersistence} {h : Option String}
    {σ : Runs T} (hσ : σ.get rid = some (.done x md seen m h)) (hl : σ.readLocked rid = false) (hn : σ.numActive < 2 ^ 64)
    (acts : List (RunsAct T)) (ha : ∀ a ∈ acts, Act σ rid a) :
    During rid x md seen m h σ (σ.run acts) fun t => lastWord rid t acts := by
  induction acts using snoc_induction with
  | h0 => exact ⟨⟨seen, hσ, changed_refl _⟩, fun _ _ => rfl, ⟨[], by simp [run], by simp⟩, rfl, rfl, rfl⟩
  | hs acts a ih =>
    exact during_step hσ hl hn (ih fun b hb => ha b (List.mem_append_left _ hb)) (ha a (by simp))

theorem numActive_lt (acts : List (RunsAct T)) : ((init : Runs T).run acts).numActive < 2 ^ 64 := by
  have hc : ∀ n a b, count n a b < 2 ^ 64 := fun n a b => Nat.mod_lt _ (by decide)
  induction acts using snoc_induction with
  | h0 => exact Nat.two_pow_pos 64
  | hs acts a ih =>
    have : (init : Runs T).run (acts ++ [a]) = ((init : Runs T).run acts).step a := by simp [run, List.foldl_append]
    rw [this]
    cases a with
    | join p => exact hc _ _ _
    | request rid r => simp only [step]; split <;> first | exact ih | exact hc _ _ _
    | resume i ans ok =>
      simp only [step]
      split
      · exact ih
      · split
        · exact ih
        · exact hc _ _ _

end Abq.Replay
