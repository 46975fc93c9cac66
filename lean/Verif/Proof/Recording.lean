import Verif.Spec.Recording
import Verif.Proof.AllRunsStep
import Verif.Props.AllRunsJoin
import Verif.Props.Recorded
/-! # What the queue owes to the file of a run is recorded or waits (for C144) -/

namespace Abq.Recording
open Abq.Results.Spec (planned)
variable {T : Type}

/-! ## One step of a file -/

theorem planned_append' (a b : List Results.Ev) : planned (a ++ b) = planned a ++ planned b := by simp [planned]

/-- The beginnings of recordings and the requests. -/
def marks (evs : List Results.Ev) : List Unit := evs.filterMap fun | .planned .. => some () | .asked _ => some () | _ => none

theorem marks_append (a b : List Results.Ev) : marks (a ++ b) = marks a ++ marks b := by simp [marks]

theorem planned_of_marks {evs : List Results.Ev} (h : marks evs = []) : planned evs = [] := by
  simp only [marks, List.filterMap_eq_nil_iff] at h
  simp only [planned, List.filterMap_eq_nil_iff]
  intro ev hev
  have := h ev hev
  cases ev <;> simp_all

theorem asked_of_marks {evs : List Results.Ev} (h : marks evs = []) (r : Nat) : Results.Ev.asked r ∉ evs := by
  simp only [marks, List.filterMap_eq_nil_iff] at h
  intro hm
  simpa using h _ hm

theorem marks_of_evOf {o : Results.Op} {ev : Results.Ev} (h : Results.EvOf o ev) : marks [ev] = [] := by
  cases o with
  | dump id line => obtain ⟨_, _, rfl, -⟩ := h; rfl
  | toRemote => obtain ⟨_, rfl⟩ := h; rfl
  | read r => rcases h with ⟨_, rfl⟩ | rfl <;> rfl

/-- Events are added, none of them the beginning of a recording or a request. -/
def Adds (σ τ : Results.Res) : Prop := ∃ evs, τ.events = σ.events ++ evs ∧ marks evs = []

theorem adds_refl (σ : Results.Res) : Adds σ σ := ⟨[], by simp, rfl⟩

theorem adds_add {σ τ : Results.Res} (h : Adds σ τ) (evs : List Results.Ev) (ts : List Results.Task) (he : marks evs = []) :
    Adds σ (τ.add evs ts) := by
  obtain ⟨l, h1, h2⟩ := h
  exact ⟨l ++ evs, by simp [Results.Res.add, h1], by rw [marks_append, h2, he]; rfl⟩

theorem adds_fast {σ τ : Results.Res} {o : Results.Op} {out : Results.Out} {ev : Results.Ev}
    (hf : Results.fastPath σ o out = some (τ, ev)) : Adds σ τ := by
  unfold Results.fastPath at hf
  split at hf
  · simp at hf
  · simp only [Option.some.injEq, Prod.mk.injEq] at hf
    rw [← hf.1]; exact adds_refl σ
  · dsimp only at hf
    split at hf <;> simp only [Option.some.injEq, Prod.mk.injEq] at hf <;> rw [← hf.1] <;> exact adds_refl σ

theorem adds_slow (σ : Results.Res) (out : Results.Out) : Adds σ (Results.slowPath σ out).1 := by
  unfold Results.slowPath
  split
  · exact adds_refl σ
  · dsimp only
    split
    · exact ⟨[.opened _], rfl, rfl⟩
    · exact adds_refl σ

theorem adds_task (σ : Results.Res) (out : Results.Out) (t : Results.Task) : Adds σ (Results.stepTask σ out t) := by
  cases t with
  | ack id line e =>
    simp only [Results.stepTask]
    split <;> exact adds_add (adds_refl σ) _ _ rfl
  | op o e st =>
    cases st with
    | fast =>
      simp only [Results.stepTask]
      cases hf : Results.fastPath σ o out with
      | none => exact adds_add (adds_refl σ) _ _ rfl
      | some x => exact adds_add (adds_fast hf) _ _ (marks_of_evOf (Results.fastPath_ev hf))
    | slow =>
      simp only [Results.stepTask]
      split
      · exact adds_add (adds_slow σ out) _ _ rfl
      · exact adds_add (adds_slow σ out) _ _ (marks_of_evOf (Results.failed_ev o))
    | second =>
      simp only [Results.stepTask]
      cases hf : Results.fastPath σ o out with
      | none => exact adds_add (adds_refl σ) _ _ (marks_of_evOf (Results.failed_ev o))
      | some x => exact adds_add (adds_fast hf) _ _ (marks_of_evOf (Results.fastPath_ev hf))
  | finish id e =>
    simp only [Results.stepTask]
    exact adds_add (σ := σ) ⟨[], by simp, rfl⟩ _ _ rfl

theorem adds_offload (σ : Results.Res) (c : Results.OffloadConfig) (now accessed : Nat) (o : Results.OffloadOut) :
    Adds σ (Results.offload σ c now accessed o) := by
  unfold Results.offload
  split
  · cases o <;> exact adds_add (σ := σ) ⟨[], by simp, rfl⟩ _ _ rfl
  · exact adds_add (adds_refl σ) _ _ rfl

/-- The line whose recording an action begins. -/
def begins : Results.Act → List Results.Bytes
  | .results line _ => [line]
  | .summary line _ => [line]
  | _ => []

theorem step_adds (σ : Results.Res) (a : Results.Act) :
    ∃ evs, (Results.step σ a).events = σ.events ++ evs ∧ (planned evs).map (·.2) = begins a ∧
      ∀ r, .asked r ∈ evs → a = .request ∧ evs = [.asked r] := by
  cases a with
  | results line e => exact ⟨[.planned σ.nextId line], rfl, rfl, by simp⟩
  | summary line e => exact ⟨[.planned σ.nextId line], rfl, rfl, by simp⟩
  | request =>
    simp only [Results.step]
    split
    · exact ⟨[.asked σ.nextRead], rfl, rfl, by simp⟩
    · exact ⟨[.pending], rfl, rfl, by simp⟩
  | resume i out =>
    simp only [Results.step]
    split
    · exact ⟨[], by simp, rfl, by simp⟩
    · rename_i t _
      obtain ⟨evs, h1, h2⟩ := adds_task { σ with tasks := σ.tasks.eraseIdx i } out t
      exact ⟨evs, h1, by rw [planned_of_marks h2]; rfl, fun r hr => absurd hr (asked_of_marks h2 r)⟩
  | offload c now accessed o =>
    obtain ⟨evs, h1, h2⟩ := adds_offload σ c now accessed o
    exact ⟨evs, h1, by rw [planned_of_marks h2]; rfl, fun r hr => absurd hr (asked_of_marks h2 r)⟩

/-! ## Logs -/

theorem fileEvents_append (rid : RunId) (a b : List (Obs T)) :
    fileEvents rid (a ++ b) = fileEvents rid a ++ fileEvents rid b := by simp [fileEvents]

theorem registryEvents_append (a b : List (Obs T)) :
    registryEvents (a ++ b) = registryEvents a ++ registryEvents b := by simp [registryEvents]

theorem due_append (rid : RunId) (a b : List (Obs T)) : due rid (a ++ b) = due rid a ++ due rid b := by simp [due]

theorem waiting_append (rid : RunId) (a b : List Handler) : waiting rid (a ++ b) = waiting rid a ++ waiting rid b := by
  simp [waiting]

theorem fileEvents_registry (rid : RunId) (evs : List (Event T)) : fileEvents rid (evs.map Obs.registry) = [] := by
  simp [fileEvents]

theorem registryEvents_registry (evs : List (Event T)) : registryEvents (evs.map Obs.registry) = evs := by
  unfold registryEvents
  rw [List.filterMap_map]
  induction evs with
  | nil => rfl
  | cons a l ih => simp only [List.filterMap_cons, Function.comp, ih]

theorem fileEvents_file (rid r : RunId) (evs : List Results.Ev) :
    fileEvents (T := T) rid (evs.map (Obs.file r)) = if r = rid then evs else [] := by
  unfold fileEvents
  rw [List.filterMap_map]
  by_cases h : r = rid
  · subst h
    rw [if_pos rfl]
    induction evs with
    | nil => rfl
    | cons a l ih => simp only [List.filterMap_cons, Function.comp, if_true]; exact congrArg _ ih
  · simp [Function.comp, h]

theorem registryEvents_file (r : RunId) (evs : List Results.Ev) : registryEvents (T := T) (evs.map (Obs.file r)) = [] := by
  simp [registryEvents]

theorem due_file (rid r : RunId) (evs : List Results.Ev) : due (T := T) rid (evs.map (Obs.file r)) = [] := by
  simp [due]

theorem waiting_summary (rid r : RunId) (n : Nat) (e : Bool) :
    waiting rid [.summary r n e] = if r = rid then [.summary n] else [] := by
  by_cases h : r = rid <;> simp [waiting, List.filterMap_cons, h]

theorem waiting_results (rid r : RunId) (gs : List Report.Group) (e : Bool) :
    waiting rid [.results r gs e] = if r = rid then [.results gs] else [] := by
  by_cases h : r = rid <;> simp [waiting, List.filterMap_cons, h]

theorem due_spawn (rid : RunId) (evs : List (Event T)) :
    due rid (evs.map Obs.registry) = waiting rid (evs.flatMap spawn) := by
  induction evs with
  | nil => rfl
  | cons ev evs ih =>
    rw [List.map_cons, List.flatMap_cons, waiting_append, ← ih, ← List.singleton_append, due_append]
    congr 1
    cases ev with
    | manifest r flat b =>
      cases b with
      | true => rw [spawn, waiting_summary]; by_cases h : r = rid <;> simp [due, List.filterMap_cons, h]
      | false => simp [due, waiting, spawn]
    | emptyManifest r b =>
      cases b with
      | true => rw [spawn, waiting_summary]; by_cases h : r = rid <;> simp [due, List.filterMap_cons, h]
      | false => simp [due, waiting, spawn]
    | read r a => cases a <;> simp [due, waiting, spawn]
    | _ => simp [due, waiting, spawn]

/-! ## The invariant -/

/-- An event of a step begins no recording, or nothing becomes due in the step. -/
def Apart (rid : RunId) (new : List (Obs T)) : Prop := planned (fileEvents rid new) = [] ∨ due rid new = []

/-- How the parts of the state hang together. -/
structure Inv (enc : Report.Line → Results.Bytes) (noop : Bool) (σ : State T) : Prop where
  registry : ∃ ras, σ.registry = Runs.init.run ras
  asked : registryEvents σ.log = σ.registry.events
  events : ∀ rid, fileEvents rid σ.log = (σ.files rid).events
  lines : ∀ rid, (planned (σ.files rid).events).map (·.2) = (σ.lines rid).map enc
  due : ∀ rid, (due rid σ.log).Perm (σ.lines rid ++ waiting rid σ.handlers)

theorem inv_init (enc : Report.Line → Results.Bytes) (noop : Bool) : Inv enc noop (init T noop) where
  registry := ⟨[], rfl⟩
  asked := rfl
  events _ := rfl
  lines _ := rfl
  due _ := List.Perm.refl _

theorem inv_call {enc : Report.Line → Results.Bytes} {noop : Bool} {σ : State T} (h : Inv enc noop σ) (a : RunsAct T) :
    Inv enc noop (σ.call a) := by
  obtain ⟨new, hn⟩ := Props.step_events σ.registry a
  have hd : (σ.registry.step a).events.drop σ.registry.events.length = new := by rw [hn]; simp
  refine ⟨?_, ?_, ?_, h.lines, ?_⟩
  · obtain ⟨ras, hr⟩ := h.registry
    exact ⟨ras ++ [a], by simp [State.call, hr, Runs.run]⟩
  · simp only [State.call, registryEvents_append, registryEvents_registry, hd, h.asked]
    exact hn.symm
  · intro rid
    simp only [State.call, fileEvents_append, fileEvents_registry, List.append_nil]
    exact h.events rid
  · intro rid
    simp only [State.call, due_append, hd, waiting_append, due_spawn]
    rw [← List.append_assoc]
    exact (h.due rid).append_right _

/-- A step of a file that begins the recordings of these lines. -/
theorem inv_file {enc : Report.Line → Results.Bytes} {noop : Bool} {σ : State T} (h : Inv enc noop σ) (rid : RunId)
    (a : Results.Act) (ls : List Report.Line) (hls : begins a = ls.map enc) (hs : List Handler)
    (hp : ∀ r, (waiting r σ.handlers).Perm ((if r = rid then ls else []) ++ waiting r hs)) :
    Inv enc noop (State.file { σ with lines := fun r => if r = rid then σ.lines r ++ ls else σ.lines r, handlers := hs } rid a) := by
  obtain ⟨new, hn, hb, -⟩ := step_adds (σ.files rid) a
  have hd : (Results.step (σ.files rid) a).events.drop (σ.files rid).events.length = new := by rw [hn]; simp
  refine ⟨h.registry, ?_, ?_, ?_, ?_⟩
  · simp only [State.file, registryEvents_append, registryEvents_file, List.append_nil]
    exact h.asked
  · intro r
    simp only [State.file, fileEvents_append, fileEvents_file, hd, h.events r]
    by_cases hr : r = rid
    · subst hr; simp [hn]
    · rw [if_neg hr, if_neg fun e => hr e.symm, List.append_nil]
  · intro r
    simp only [State.file]
    by_cases hr : r = rid
    · subst hr
      simp only [if_true]
      rw [hn, planned_append', List.map_append, h.lines r, hb, hls, List.map_append]
    · simp only [hr, if_false]; exact h.lines r
  · intro r
    simp only [State.file, due_append, due_file, List.append_nil]
    refine (h.due r).trans ?_
    by_cases hr : r = rid
    · have := hp r
      simp only [hr, if_true] at this ⊢
      rw [List.append_assoc]
      exact this.append_left _
    · have := hp r
      simp only [hr, if_false, List.nil_append] at this ⊢
      exact this.append_left _

theorem waiting_erase {rid : RunId} {hs : List Handler} {i : Nat} {h : Handler} (hi : hs[i]? = some h) :
    (waiting rid hs).Perm (waiting rid [h] ++ waiting rid (hs.eraseIdx i)) := by
  have := (Results.perm_eraseIdx hi).filterMap (f := fun
    | Handler.summary r n _ => if r = rid then some (Report.Line.summary n) else none
    | .results r gs _ => if r = rid then some (.results gs) else none
    | .read _ => none)
  rw [← List.singleton_append, List.filterMap_append] at this
  exact this

theorem inv_step {enc : Report.Line → Results.Bytes} {noop : Bool} {σ : State T} (h : Inv enc noop σ) (a : Act T) :
    Inv enc noop (σ.step enc a) := by
  have keep : ∀ {rid : RunId} {a : Results.Act}, begins a = [] → Inv enc noop (σ.file rid a) := by
    intro rid a hb
    have := inv_file h rid a [] hb σ.handlers (fun r => by split <;> exact List.Perm.refl _)
    simpa only [List.append_nil, ite_self] using this
  cases a with
  | call a => exact inv_call h a
  | report rid gs =>
    have h1 := inv_call h (.request rid .writeCell)
    simp only [State.step]
    split
    · refine ⟨h1.registry, ?_, ?_, h1.lines, ?_⟩
      · simp only [registryEvents_append, h1.asked]; simp [registryEvents]
      · intro r; simp only [fileEvents_append, h1.events r]; simp [fileEvents]
      · intro r
        simp only [due_append, waiting_append]
        rw [← List.append_assoc]
        exact (h1.due r).append_right _
    · exact h1
  | handle i =>
    simp only [State.step]
    split
    · exact h
    · rename_i hd hi
      cases hd with
      | summary rid n e =>
        refine inv_file h rid _ [.summary n] rfl (σ.handlers.eraseIdx i) fun r => ?_
        have := waiting_erase (rid := r) hi
        rw [waiting_summary] at this
        by_cases hr : r = rid
        · subst hr; exact this
        · rw [if_neg fun e => hr e.symm] at this; rw [if_neg hr]; exact this
      | results rid gs e =>
        refine inv_file h rid _ [.results gs] rfl (σ.handlers.eraseIdx i) fun r => ?_
        have := waiting_erase (rid := r) hi
        rw [waiting_results] at this
        by_cases hr : r = rid
        · subst hr; exact this
        · rw [if_neg fun e => hr e.symm] at this; rw [if_neg hr]; exact this
      | read rid =>
        have := inv_file h rid .request [] rfl (σ.handlers.eraseIdx i) fun r => by
          have := waiting_erase (rid := r) hi
          split <;> simpa [waiting] using this
        simp only [List.append_nil, ite_self] at this
        exact this
  | task rid i out => exact keep rfl
  | offload rid c now accessed o => exact keep rfl

theorem inv_run (enc : Report.Line → Results.Bytes) (noop : Bool) (acts : List (Act T)) :
    Inv enc noop ((init T noop).run enc acts) := by
  suffices h : ∀ (acts : List (Act T)) (σ : State T), Inv enc noop σ → Inv enc noop (σ.run enc acts) from h acts _ (inv_init enc noop)
  intro acts
  induction acts with
  | nil => exact fun _ h => h
  | cons a acts ih => exact fun σ h => ih _ (inv_step h a)

/-! ## What holds at each time of the past -/

theorem step_log (enc : Report.Line → Results.Bytes) (σ : State T) (a : Act T) :
    ∃ new, (σ.step enc a).log = σ.log ++ new ∧ (∀ rid, Apart rid new) ∧
      ∀ rid, ∃ l, (σ.step enc a).lines rid = σ.lines rid ++ l := by
  have same : ∀ rid : RunId, ∃ l, σ.lines rid = σ.lines rid ++ l := fun _ => ⟨[], by simp⟩
  have file : ∀ (τ : State T) (r : RunId) (a : Results.Act), τ.log = σ.log →
      ∃ new, (τ.file r a).log = σ.log ++ new ∧ ∀ rid, Apart rid new := by
    intro τ r a hl
    exact ⟨((Results.step (τ.files r) a).events.drop (τ.files r).events.length).map (.file r), by simp only [State.file, hl],
      fun rid => .inr (due_file rid r _)⟩
  cases a with
  | call a =>
    exact ⟨_, rfl, fun rid => .inl (by rw [fileEvents_registry]; rfl), same⟩
  | report rid gs =>
    simp only [State.step]
    split
    · refine ⟨((σ.registry.step (.request rid .writeCell)).events.drop σ.registry.events.length).map .registry ++ [.took rid gs],
        ?_, fun r => .inl ?_, same⟩
      · simp only [State.call, List.append_assoc]
      · rw [fileEvents_append, fileEvents_registry]; rfl
    · exact ⟨_, rfl, fun rid => .inl (by rw [fileEvents_registry]; rfl), same⟩
  | handle i =>
    simp only [State.step]
    split
    · exact ⟨[], by simp, fun _ => .inl rfl, same⟩
    · rename_i hd _
      have lab : ∀ (rid : RunId) (x : Report.Line) (r : RunId),
          ∃ l, (if r = rid then σ.lines r ++ [x] else σ.lines r) = σ.lines r ++ l := by
        intro rid x r
        split
        · exact ⟨_, rfl⟩
        · exact ⟨[], by simp⟩
      cases hd with
      | summary rid n e =>
        obtain ⟨new, h1, h2⟩ := file (({ σ with handlers := σ.handlers.eraseIdx i } : State T).label rid (.summary n)) rid
          (.summary (enc (.summary n)) e) rfl
        exact ⟨new, h1, h2, lab rid _⟩
      | results rid gs e =>
        obtain ⟨new, h1, h2⟩ := file (({ σ with handlers := σ.handlers.eraseIdx i } : State T).label rid (.results gs)) rid
          (.results (enc (.results gs)) e) rfl
        exact ⟨new, h1, h2, lab rid _⟩
      | read rid =>
        obtain ⟨new, h1, h2⟩ := file ({ σ with handlers := σ.handlers.eraseIdx i } : State T) rid .request rfl
        exact ⟨new, h1, h2, same⟩
  | task rid i out =>
    obtain ⟨new, h1, h2⟩ := file σ rid (.resume i out) rfl
    exact ⟨new, h1, h2, same⟩
  | offload rid c now accessed o =>
    obtain ⟨new, h1, h2⟩ := file σ rid (.offload c now accessed o) rfl
    exact ⟨new, h1, h2, same⟩

theorem append_cases {α : Type} {a b c d : List α} (h : a ++ b = c ++ d) :
    (∃ e, a ++ e = c) ∨ ∃ e, a = c ++ e ∧ e ++ b = d := by
  rcases List.append_eq_append_iff.1 h with ⟨e, h1, h2⟩ | ⟨e, h1, h2⟩
  · exact .inl ⟨e, h1.symm⟩
  · exact .inr ⟨e, h1, h2.symm⟩

/-- At each time the recordings begun are of what was due. -/
def Past (rid : RunId) (σ : State T) : Prop :=
  ∀ p q, σ.log = p ++ q → (planned (fileEvents rid p)).length ≤ (σ.lines rid).length ∧
    ∃ rest, (due rid p).Perm ((σ.lines rid).take (planned (fileEvents rid p)).length ++ rest)

theorem past_step {enc : Report.Line → Results.Bytes} {noop : Bool} {σ : State T} {rid : RunId} (hi : Inv enc noop σ)
    (h : Past rid σ) (a : Act T) : Past rid (σ.step enc a) := by
  obtain ⟨new, hlog, hap, hl⟩ := step_log enc σ a
  obtain ⟨l, hl⟩ := hl rid
  have hi' := inv_step hi a
  have hlen : (planned (fileEvents rid (σ.step enc a).log)).length = ((σ.step enc a).lines rid).length := by
    rw [hi'.events]
    have := congrArg List.length (hi'.lines rid)
    simpa using this
  have hlen0 : (planned (fileEvents rid σ.log)).length = (σ.lines rid).length := by
    rw [hi.events]
    have := congrArg List.length (hi.lines rid)
    simpa using this
  intro p q hpq
  rw [hlog] at hpq
  rcases append_cases hpq.symm with ⟨e, he⟩ | ⟨e, rfl, he⟩
  · obtain ⟨h1, rest, h2⟩ := h p e he.symm
    rw [hl]
    exact ⟨by simp; omega, rest, by rwa [List.take_append_of_le_length h1]⟩
  · subst he
    have hsum : (planned (fileEvents rid (σ.step enc a).log)).length =
        (planned (fileEvents rid (σ.log ++ e))).length + (planned (fileEvents rid q)).length := by
      rw [hlog, ← List.append_assoc, fileEvents_append, planned_append', List.length_append]
    refine ⟨by omega, ?_⟩
    rcases hap rid with ha | ha
    · have : planned (fileEvents rid e) = [] := by
        rw [fileEvents_append, planned_append'] at ha
        exact (List.append_eq_nil_iff.1 ha).1
      have hk : (planned (fileEvents rid (σ.log ++ e))).length = (σ.lines rid).length := by
        rw [fileEvents_append, planned_append', this, List.append_nil, hlen0]
      rw [hk, hl, List.take_append_of_le_length (Nat.le_refl _), List.take_length, due_append]
      exact ⟨waiting rid σ.handlers ++ due rid e, by rw [← List.append_assoc]; exact (hi.due rid).append_right _⟩
    · have : due rid (σ.log ++ e) = due rid (σ.step enc a).log := by
        rw [due_append] at ha
        rw [hlog, due_append, due_append, due_append, (List.append_eq_nil_iff.1 ha).1, (List.append_eq_nil_iff.1 ha).2]
        simp
      rw [this]
      generalize (planned (fileEvents rid (σ.log ++ e))).length = k
      refine ⟨((σ.step enc a).lines rid).drop k ++ waiting rid (σ.step enc a).handlers, ?_⟩
      rw [← List.append_assoc, List.take_append_drop]
      exact hi'.due rid

theorem run_snoc (enc : Report.Line → Results.Bytes) (σ : State T) (acts : List (Act T)) (a : Act T) :
    σ.run enc (acts ++ [a]) = (σ.run enc acts).step enc a := by simp [State.run]

theorem run_induction {enc : Report.Line → Results.Bytes} {noop : Bool} {P : State T → Prop} (h0 : P (init T noop))
    (hs : ∀ σ a, Inv enc noop σ → P σ → P (σ.step enc a)) (acts : List (Act T)) : P ((init T noop).run enc acts) := by
  suffices h : ∀ (acts : List (Act T)) (σ : State T), Inv enc noop σ → P σ → P (σ.run enc acts) from h acts _ (inv_init enc noop) h0
  intro acts
  induction acts with
  | nil => exact fun _ _ h => h
  | cons a acts ih => exact fun σ hi h => ih _ (inv_step hi a) (hs σ a hi h)

theorem past_run (enc : Report.Line → Results.Bytes) (noop : Bool) (acts : List (Act T)) (rid : RunId) :
    Past rid ((init T noop).run enc acts) := by
  refine run_induction (P := Past rid) ?_ (fun σ a hi h => past_step hi h a) acts
  intro p q hpq
  have : p = [] := (List.append_eq_nil_iff.1 (show p ++ q = [] from hpq.symm)).1
  subst this
  exact ⟨Nat.zero_le _, [], List.Perm.refl _⟩

/-! ## The file of a run is that of `Model/Results.lean` -/

theorem files_run (enc : Report.Line → Results.Bytes) (noop : Bool) (rid : RunId) (acts : List (Act T))
    (hs : ∀ a ∈ acts, a.Safe rid) :
    ∃ fs : List Results.Act, (∀ a ∈ fs, Results.Spec.Safe a) ∧
      ((init T noop).run enc acts).files rid = Results.run (Results.init noop [] none) fs := by
  suffices h : ∀ (acts : List (Act T)) (σ : State T), (∀ a ∈ acts, a.Safe rid) →
      (∃ fs : List Results.Act, (∀ a ∈ fs, Results.Spec.Safe a) ∧ σ.files rid = Results.run (Results.init noop [] none) fs) →
      ∃ fs : List Results.Act, (∀ a ∈ fs, Results.Spec.Safe a) ∧
        (σ.run enc acts).files rid = Results.run (Results.init noop [] none) fs from h acts _ hs ⟨[], by simp, rfl⟩
  intro acts
  induction acts with
  | nil => exact fun _ _ h => h
  | cons a acts ih =>
    intro σ hs ⟨fs, h1, h2⟩
    refine ih _ (fun a ha => hs a (List.mem_cons_of_mem _ ha)) ?_
    have hsa := hs a List.mem_cons_self
    have file : ∀ (τ : State T) (r : RunId) (x : Results.Act), τ.files = σ.files → (r = rid → Results.Spec.Safe x) →
        ∃ fs : List Results.Act, (∀ a ∈ fs, Results.Spec.Safe a) ∧
          (τ.file r x).files rid = Results.run (Results.init noop [] none) fs := by
      intro τ r x ht hx
      by_cases hr : rid = r
      · subst hr
        refine ⟨fs ++ [x], ?_, ?_⟩
        · intro y hy
          rcases List.mem_append.1 hy with hy | hy
          · exact h1 y hy
          · exact List.mem_singleton.1 hy ▸ hx rfl
        · simp only [State.file, if_true, ht, h2]
          simp [Results.run]
      · exact ⟨fs, h1, by simp only [State.file, hr, if_false, ht, h2]⟩
    cases a with
    | call a => exact ⟨fs, h1, h2⟩
    | report r gs =>
      simp only [State.step]
      split <;> exact ⟨fs, h1, h2⟩
    | handle i =>
      simp only [State.step]
      split
      · exact ⟨fs, h1, h2⟩
      · rename_i hd _
        cases hd with
        | summary r n e => exact file _ _ _ rfl fun _ => trivial
        | results r gs e => exact file _ _ _ rfl fun _ => trivial
        | read r => exact file _ _ _ rfl fun _ => trivial
    | task r i out => exact file _ _ _ rfl fun _ => trivial
    | offload r c now accessed o =>
      refine file _ _ _ rfl fun hr => ?_
      cases o with
      | syncFails => exact absurd hr hsa
      | _ => trivial

/-! ## A run that is done has one manifest -/

/-- The sizes of the manifests accepted. -/
def sizes (rid : RunId) (evs : List (Event T)) : List Nat :=
  evs.filterMap fun
    | .manifest r flat true => if r = rid then some flat.length else none
    | .emptyManifest r true => if r = rid then some 0 else none
    | _ => none

theorem sizes_append (rid : RunId) (a b : List (Event T)) : sizes rid (a ++ b) = sizes rid a ++ sizes rid b := by simp [sizes]

theorem summaries_due (rid : RunId) (log : List (Obs T)) : Report.summaries (due rid log) = sizes rid (registryEvents log) := by
  induction log with
  | nil => rfl
  | cons o log ih =>
    rw [← List.singleton_append, due_append, registryEvents_append, sizes_append, ← ih, Report.summaries, List.filterMap_append]
    congr 1
    cases o with
    | registry ev =>
      have e : registryEvents [Obs.registry ev] = [ev] := rfl
      rw [e]
      cases ev with
      | manifest r flat b => cases b <;> by_cases h : r = rid <;> simp [due, sizes, List.filterMap_cons, h]
      | emptyManifest r b => cases b <;> by_cases h : r = rid <;> simp [due, sizes, List.filterMap_cons, h]
      | _ => rfl
    | took r gs => by_cases h : r = rid <;> simp [due, sizes, registryEvents, List.filterMap_cons, h]
    | file r ev => rfl

/-- How many manifests were accepted for a run in this state. -/
def Settled (rid : RunId) (evs : List (Event T)) : Option (RunState T) → Prop
  | none => sizes rid evs = []
  | some (.waiting ..) => sizes rid evs = []
  | some (.hasWork ..) => (sizes rid evs).length = 1
  | some (.done ..) => (sizes rid evs).length = 1 ∨ sizes rid evs = [] ∧ ∃ d, Event.loaded rid d ∈ evs
  | some (.cancelled _) => (sizes rid evs).length ≤ 1

theorem settled_keep {rid : RunId} {evs new : List (Event T)} {s : Option (RunState T)} (h : Settled rid evs s)
    (hn : sizes rid new = []) : Settled rid (evs ++ new) s := by
  have e : sizes rid (evs ++ new) = sizes rid evs := by rw [sizes_append, hn, List.append_nil]
  cases s with
  | none => exact e.trans h
  | some s =>
    cases s with
    | waiting => exact e.trans h
    | hasWork => exact (congrArg List.length e).trans h
    | done =>
      rcases h with h | ⟨h, d, hd⟩
      · exact .inl ((congrArg List.length e).trans h)
      · exact .inr ⟨e.trans h, d, List.mem_append_left _ hd⟩
    | cancelled => show (sizes rid (evs ++ new)).length ≤ 1; rw [e]; exact h

theorem settled_exec {rid : RunId} {evs : List (Event T)} (s : RunState T) (r : Req T) (h : Settled rid evs (some s)) :
    Settled rid (evs ++ (Runs.exec rid s r).evs) (Runs.exec rid s r).state := by
  have le : ∀ {l : List Nat}, l = [] → l.length ≤ 1 := fun h => by rw [h]; decide
  cases r with
  | addManifest flat md =>
    cases s with
    | waiting =>
      show (sizes rid (evs ++ [Event.manifest rid flat true])).length = 1
      have h : sizes rid evs = [] := h
      rw [sizes_append, h]
      simp [sizes, List.filterMap_cons]
    | _ => exact settled_keep h rfl
  | manifestFailed =>
    cases s with
    | waiting =>
      show (sizes rid (evs ++ [Event.manifestFailed rid])).length ≤ 1
      exact le (settled_keep h rfl)
    | _ => exact settled_keep h rfl
  | emptyManifest =>
    cases s with
    | waiting =>
      refine .inl ?_
      show (sizes rid (evs ++ [Event.emptyManifest rid true])).length = 1
      have h : sizes rid evs = [] := h
      rw [sizes_append, h]
      simp [sizes, List.filterMap_cons]
    | _ => exact settled_keep h rfl
  | initMetadata e =>
    cases s with
    | waiting => exact settled_keep h rfl
    | hasWork => exact settled_keep h rfl
    | done =>
      simp only [Runs.exec, RunState.initMetadata]
      split <;> exact settled_keep h rfl
    | cancelled => exact settled_keep h rfl
  | nextWork e =>
    obtain ⟨w, hc, -⟩ := Runs.exec_change rid s (.nextWork e)
    have hn : sizes rid (Runs.exec rid s (.nextWork e)).evs = [] := by
      simp only [Runs.exec]
      split <;> rfl
    revert hc hn
    generalize (Runs.exec rid s (.nextWork e)).evs = new
    generalize (Runs.exec rid s (.nextWork e)).state = s'
    intro hc hn
    cases hc with
    | refl => exact settled_keep h hn
    | waiting => exact settled_keep (s := some (.waiting ..)) h hn
    | manifest => simp [sizes, List.filterMap_cons] at hn
    | active => exact settled_keep h hn
    | pull => exact settled_keep h hn
    | mark => exact .inl (settled_keep h hn)
    | seen => exact settled_keep h hn
    | persisted => exact settled_keep h hn
    | empty => simp [sizes, List.filterMap_cons] at hn
    | cancelWaiting => exact le (settled_keep h hn)
    | cancelWork => exact Nat.le_of_eq (settled_keep h hn)
    | cancelAgain => exact settled_keep h hn
  | retryManifest e =>
    cases s with
    | waiting => exact settled_keep h rfl
    | hasWork => exact settled_keep h rfl
    | done x md seen m hh =>
      simp only [Runs.exec, RunState.retryManifest]
      split <;> exact settled_keep h rfl
    | cancelled => exact settled_keep h rfl
  | complete e time =>
    cases s with
    | _ => exact settled_keep h rfl
  | cancel e reason =>
    cases s with
    | waiting => exact le (settled_keep h rfl)
    | hasWork => exact Nat.le_of_eq (settled_keep h rfl)
    | done => exact settled_keep h rfl
    | cancelled => exact settled_keep h rfl
  | writeCell => exact settled_keep h rfl
  | readCell => exact settled_keep h rfl
  | status => exact settled_keep h rfl

theorem settled_step {rid : RunId} {evs new : List (Event T)} {s s' : Option (RunState T)} (h : Settled rid evs s)
    (hs : Runs.Step1 rid s new s') : Settled rid (evs ++ new) s' := by
  cases hs with
  | silent => exact settled_keep h rfl
  | setPersisted =>
    cases s with
    | none => exact settled_keep h rfl
    | some s =>
      cases s with
      | waiting => exact settled_keep h rfl
      | hasWork => exact settled_keep h rfl
      | done x md seen m hh => cases m <;> exact settled_keep h rfl
      | cancelled => exact settled_keep h rfl
  | fatal => exact settled_keep h rfl
  | create => exact settled_keep h rfl
  | load d =>
    refine .inr ⟨settled_keep h rfl, d, by simp⟩
  | joined s p hp =>
    cases s with
    | waiting => exact settled_keep h rfl
    | hasWork q b md act hh =>
      simp only [RunState.join]
      split <;> exact settled_keep h rfl
    | done =>
      simp only [RunState.join]
      split <;> exact settled_keep h rfl
    | cancelled => exact settled_keep h rfl
  | noRun => exact settled_keep h rfl
  | req s r => exact settled_exec s r h
  | work => exact settled_keep h rfl
  | mark s e items ho =>
    cases s with
    | hasWork => exact .inl (settled_keep h rfl)
    | _ => exact settled_keep h rfl
  | delivered => exact settled_keep h rfl
  | lost => exact settled_keep h rfl
  | storeFailed => exact settled_keep h rfl
  | progress => exact settled_keep h rfl
  | timeout s last =>
    simp only [RunState.timeoutWrite]
    split
    · have : (sizes rid evs).length ≤ 1 := by
        rename_i hp
        cases s with
        | waiting => rw [show sizes rid evs = [] from h]; decide
        | hasWork => exact Nat.le_of_eq h
        | done => simp [RunState.progress] at hp
        | cancelled => exact h
      show (sizes rid (evs ++ _)).length ≤ 1
      rw [sizes_append]
      simpa [sizes] using this
    · exact settled_keep h rfl

theorem sizes_filter (rid : RunId) (evs : List (Event T)) : sizes rid (evs.filter fun p => p.rid == rid) = sizes rid evs := by
  induction evs with
  | nil => rfl
  | cons ev evs ih =>
    have hc : ∀ l : List (Event T), sizes rid (ev :: l) = sizes rid [ev] ++ sizes rid l := fun l => by
      rw [← sizes_append]; rfl
    rw [hc, ← ih]
    by_cases hr : ev.rid = rid
    · rw [List.filter_cons_of_pos (by simp [hr]), hc]
    · rw [List.filter_cons_of_neg (by simp [hr])]
      have : sizes rid [ev] = [] := by
        cases ev with
        | manifest r flat b => cases b <;> simp_all [sizes, List.filterMap_cons, Event.rid]
        | emptyManifest r b => cases b <;> simp_all [sizes, List.filterMap_cons, Event.rid]
        | _ => rfl
      rw [this, List.nil_append]

theorem settled_run (acts : List (RunsAct T)) (rid : RunId) :
    Settled rid ((Runs.init : Runs T).run acts).events (((Runs.init : Runs T).run acts).get rid) := by
  have := Runs.init_proj_induction' (rid := rid) (I := fun L : Runs.Loc T => Settled rid L.evs L.s) rfl (fun L L' hb h hs => by
    obtain ⟨evs, h1, h2⟩ := hs.step1 hb
    rw [h2]
    exact settled_step h h1) acts
  revert this
  simp only [Runs.proj]
  generalize ((Runs.init : Runs T).run acts).get rid = s
  intro h
  cases s with
  | none => exact (sizes_filter rid _).symm.trans h
  | some s =>
    cases s with
    | waiting => exact (sizes_filter rid _).symm.trans h
    | hasWork => exact (congrArg List.length (sizes_filter rid _)).symm.trans h
    | done =>
      rcases h with h | ⟨h, d, hd⟩
      · exact .inl ((congrArg List.length (sizes_filter rid _)).symm.trans h)
      · exact .inr ⟨(sizes_filter rid _).symm.trans h, d, (List.mem_filter.1 hd).1⟩
    | cancelled =>
      show (sizes rid _).length ≤ 1
      rw [← sizes_filter]
      exact h

/-! ## Whoever is served the results comes after the manifest -/

/-- One manifest was accepted, or the run was loaded from the remote. -/
def Known (rid : RunId) (evs : List (Event T)) : Prop :=
  (sizes rid evs).length = 1 ∨ ∃ d, Event.loaded rid d ∈ evs

theorem settled_le {rid : RunId} {evs : List (Event T)} {s : Option (RunState T)} (h : Settled rid evs s) :
    (sizes rid evs).length ≤ 1 := by
  cases s with
  | none => rw [show sizes rid _ = [] from h]; decide
  | some s =>
    cases s with
    | waiting => rw [show sizes rid _ = [] from h]; decide
    | hasWork => exact Nat.le_of_eq h
    | done => rcases h with h | ⟨h, -⟩ <;> rw [h] <;> decide
    | cancelled => exact h

theorem read_done {rid : RunId} {evs : List (Event T)} {s s' : Option (RunState T)} (h : Runs.Step1 rid s evs s')
    (hr : Event.read rid .readFromCell ∈ evs) : ∃ x md seen m hh, s' = some (.done x md seen m hh) := by
  cases h with
  | req s r =>
    cases r with
    | readCell =>
      have he : ReadAns.readFromCell = s.readCell := by simpa [Runs.exec] using hr
      cases s with
      | done x md seen m hh => exact ⟨x, md, seen, m, hh, rfl⟩
      | waiting => simp [RunState.readCell] at he
      | hasWork => simp [RunState.readCell] at he
      | cancelled r => cases r <;> simp [RunState.readCell] at he
    | nextWork e =>
      simp only [Runs.exec] at hr
      split at hr <;> simp at hr
    | _ => simp [Runs.exec] at hr
  | _ => simp at hr

theorem known_mono {rid : RunId} {a b : List (Event T)} (h : Known rid a) (hle : (sizes rid (a ++ b)).length ≤ 1) : Known rid (a ++ b) := by
  rcases h with h | ⟨d, hd⟩
  · rw [sizes_append, List.length_append] at hle
    exact .inl (by rw [sizes_append, List.length_append]; omega)
  · exact .inr ⟨d, List.mem_append_left _ hd⟩

theorem known_run (acts : List (RunsAct T)) (rid : RunId) (p q : List (Event T))
    (h : ((Runs.init : Runs T).run acts).events = p ++ q) (hr : Event.read rid .readFromCell ∈ p) : Known rid p := by
  have key := Runs.init_proj_induction' (rid := rid) (I := fun L : Runs.Loc T => Settled rid L.evs L.s ∧
      ∀ p q, L.evs = p ++ q → Event.read rid .readFromCell ∈ p → Known rid p)
    ⟨rfl, by
      intro p q h hr
      have : p = [] := (List.append_eq_nil_iff.1 (show p ++ q = [] from h.symm)).1
      subst this; cases hr⟩
    (fun L L' hb ⟨h, hp⟩ hs => by
      obtain ⟨evs, h1, h2⟩ := hs.step1 hb
      have h' : Settled rid L'.evs L'.s := by rw [h2]; exact settled_step h h1
      refine ⟨h', ?_⟩
      intro p q hpq hr
      rw [h2] at hpq h'
      have whole : Event.read rid .readFromCell ∈ L.evs ++ evs → Known rid (L.evs ++ evs) := by
        intro hr
        rcases List.mem_append.1 hr with hr | hr
        · exact known_mono (hp L.evs [] (by simp) hr) (settled_le h')
        · obtain ⟨x, md, seen, m, hh, e⟩ := read_done h1 hr
          rw [e] at h'
          rcases h' with h' | ⟨-, h'⟩
          · exact .inl h'
          · exact .inr h'
      rcases append_cases hpq.symm with ⟨e, he⟩ | ⟨e, rfl, he⟩
      · exact hp p e he.symm hr
      · rcases h1.one with rfl | ⟨ev, rfl⟩
        · have : e = [] := (List.append_eq_nil_iff.1 he).1
          subst this
          exact hp _ [] (by simp) (by simpa using hr)
        · cases e with
          | nil => rw [List.append_nil] at hr ⊢; exact hp _ [] (by simp) hr
          | cons x e =>
            have : x = ev ∧ e ++ q = [] := by simpa using he
            obtain ⟨rfl, hq⟩ := this
            have : e = [] := (List.append_eq_nil_iff.1 hq).1
            subst this
            exact whole hr) acts
  have := key.2 (p.filter fun p => p.rid == rid) (q.filter fun p => p.rid == rid) (by
    simp only [Runs.proj, h, List.filter_append]) (List.mem_filter.2 ⟨hr, by simp [Event.rid]⟩)
  rcases this with h | ⟨d, hd⟩
  · exact .inl (by rwa [sizes_filter] at h)
  · exact .inr ⟨d, (List.mem_filter.1 hd).1⟩

/-- Requests for results go on to the file only after the registry allowed it. -/
structure Allowed (rid : RunId) (σ : State T) : Prop where
  waits : Handler.read rid ∈ σ.handlers → Obs.registry (.read rid .readFromCell) ∈ σ.log
  asked : ∀ p q r, σ.log = p ++ .file rid (.asked r) :: q → Obs.registry (.read rid .readFromCell) ∈ p


theorem mem_file {rid r : RunId} {evs : List Results.Ev} {x : Nat}
    (h : Obs.file (T := T) rid (.asked x) ∈ evs.map (Obs.file r)) : r = rid ∧ Results.Ev.asked x ∈ evs := by
  obtain ⟨ev, hm, he⟩ := List.mem_map.1 h
  injection he with h1 h2
  exact ⟨h1, h2 ▸ hm⟩

theorem allowed_file {rid r : RunId} {σ τ : State T} (h : Allowed rid σ) (hl : τ.log = σ.log)
    (hh : ∀ x, x ∈ τ.handlers → x ∈ σ.handlers) (a : Results.Act) (ha : a = .request → r = rid → Handler.read rid ∈ σ.handlers) :
    Allowed rid (τ.file r a) := by
  obtain ⟨new, hn, -, hask⟩ := step_adds (τ.files r) a
  have hd : (Results.step (τ.files r) a).events.drop (τ.files r).events.length = new := by rw [hn]; simp
  have hlog : (τ.file r a).log = σ.log ++ new.map (.file r) := by simp only [State.file, hl, hd]
  refine ⟨fun hm => ?_, fun p q x hpq => ?_⟩
  · rw [hlog]
    exact List.mem_append_left _ (h.waits (hh _ hm))
  · rw [hlog] at hpq
    rcases append_cases hpq.symm with ⟨e, he⟩ | ⟨e, rfl, he⟩
    · cases e with
      | nil =>
        rw [List.append_nil] at he
        subst he
        have he : Obs.file rid (.asked x) :: q = new.map (.file r) := List.append_cancel_left hpq.symm
        obtain ⟨h1, h2⟩ := mem_file (he ▸ List.mem_cons_self : Obs.file rid (.asked x) ∈ new.map (.file r))
        exact h.waits (ha (hask x h2).1 h1)
      | cons y e =>
        have : y = .file rid (.asked x) := by
          rw [← he, List.append_assoc] at hpq
          have := List.append_cancel_left hpq
          simp only [List.cons_append, List.cons.injEq] at this
          exact this.1
        subst this
        exact h.asked p e x he.symm
    · have hm : Obs.file rid (.asked x) ∈ new.map (.file r) := he ▸ List.mem_append_right _ List.mem_cons_self
      obtain ⟨h1, h2⟩ := mem_file hm
      exact List.mem_append_left _ (h.waits (ha (hask x h2).1 h1))

theorem allowed_more {rid : RunId} {σ τ : State T} (h : Allowed rid σ) {new : List (Obs T)} (hl : τ.log = σ.log ++ new)
    (hno : ∀ x, Obs.file rid (.asked x) ∉ new)
    (hh : Handler.read rid ∈ τ.handlers → Handler.read rid ∈ σ.handlers ∨ Obs.registry (.read rid .readFromCell) ∈ new) :
    Allowed rid τ := by
  refine ⟨fun hm => ?_, fun p q x hpq => ?_⟩
  · rw [hl]
    rcases hh hm with hm | hm
    · exact List.mem_append_left _ (h.waits hm)
    · exact List.mem_append_right _ hm
  · rw [hl] at hpq
    rcases append_cases hpq.symm with ⟨e, he⟩ | ⟨e, rfl, he⟩
    · cases e with
      | nil =>
        rw [List.append_nil] at he
        subst he
        have he : Obs.file rid (.asked x) :: q = new := List.append_cancel_left hpq.symm
        exact absurd (he ▸ List.mem_cons_self) (hno x)
      | cons y e =>
        have : y = .file rid (.asked x) := by
          rw [← he, List.append_assoc] at hpq
          have := List.append_cancel_left hpq
          simp only [List.cons_append, List.cons.injEq] at this
          exact this.1
        subst this
        exact h.asked p e x he.symm
    · exact absurd (he ▸ List.mem_append_right _ List.mem_cons_self) (hno x)

theorem spawn_read {rid : RunId} {evs : List (Event T)} (h : Handler.read rid ∈ evs.flatMap spawn) :
    Obs.registry (.read rid .readFromCell) ∈ evs.map Obs.registry := by
  obtain ⟨ev, hm, he⟩ := List.mem_flatMap.1 h
  refine List.mem_map.2 ⟨ev, hm, ?_⟩
  cases ev with
  | manifest r flat b => cases b <;> simp [spawn] at he
  | emptyManifest r b => cases b <;> simp [spawn] at he
  | read r a => cases a <;> simp [spawn] at he; subst he; rfl
  | _ => simp [spawn] at he

theorem allowed_call {rid : RunId} {σ : State T} (h : Allowed rid σ) (a : RunsAct T) : Allowed rid (σ.call a) := by
  refine allowed_more h (new := ((σ.registry.step a).events.drop σ.registry.events.length).map .registry) rfl (fun x hx => ?_)
    fun hm => ?_
  · obtain ⟨_, -, he⟩ := List.mem_map.1 hx
    cases he
  · rcases List.mem_append.1 hm with hm | hm
    · exact .inl hm
    · exact .inr (spawn_read hm)

theorem allowed_step (enc : Report.Line → Results.Bytes) {rid : RunId} {σ : State T} (h : Allowed rid σ) (a : Act T) :
    Allowed rid (σ.step enc a) := by
  cases a with
  | call a => exact allowed_call h a
  | report r gs =>
    have h1 := allowed_call h (.request r .writeCell)
    simp only [State.step]
    split
    · refine allowed_more h1 rfl (by simp) fun hm => .inl ?_
      rcases List.mem_append.1 hm with hm | hm
      · exact hm
      · simp at hm
    · exact h1
  | handle i =>
    simp only [State.step]
    split
    · exact h
    · rename_i hd hi
      have hsub : ∀ x, x ∈ σ.handlers.eraseIdx i → x ∈ σ.handlers := fun x hx => List.mem_of_mem_eraseIdx hx
      cases hd with
      | summary r n e =>
        exact allowed_file (τ := ({ σ with handlers := σ.handlers.eraseIdx i } : State T).label r _) h rfl hsub _ (by simp)
      | results r gs e =>
        exact allowed_file (τ := ({ σ with handlers := σ.handlers.eraseIdx i } : State T).label r _) h rfl hsub _ (by simp)
      | read r =>
        exact allowed_file (τ := ({ σ with handlers := σ.handlers.eraseIdx i } : State T)) h rfl hsub _
          fun _ e => e ▸ List.mem_of_getElem? hi
  | task r i out => exact allowed_file h rfl (fun _ h => h) _ (by simp)
  | offload r c now accessed o => exact allowed_file h rfl (fun _ h => h) _ (by simp)

theorem allowed_run (enc : Report.Line → Results.Bytes) (noop : Bool) (acts : List (Act T)) (rid : RunId) :
    Allowed rid ((init T noop).run enc acts) :=
  run_induction (P := Allowed rid) (noop := noop) (enc := enc) ⟨by simp [init], by simp [init]⟩
    (fun _ a _ h => allowed_step enc h a) acts

end Abq.Recording
