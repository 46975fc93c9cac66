import Verif.Proof.AllRunsActive
import Verif.Proof.AllRunsPersist
import Verif.Proof.AllRunsCount

/-!
# C09 to C16, C22, C52, C54, C55, C56: the registry of runs

All theorems are about `Runs.init.run acts`, the queue after an arbitrary schedule `acts` of
requests (any number of workers, runs and requests, in any order) and of resumptions of the tasks
in flight, with arbitrary answers of the remote store and arbitrary i/o failures.
The vocabulary about the history of answers is in `Verif/Spec/AllRuns.lean`.
-/

namespace Abq.Props
open Abq Runs Spec
variable {T : Type}

/-! ## A sample run used in the examples -/

namespace Sample

/-- Worker `n`. -/
def w (n : Nat) : Entity := ⟨n, .runner ⟨n, 1⟩⟩

/-- Worker `n` joins with batch size 1. -/
def jp (n : Nat) : JoinParams := ⟨"run", w n, ⟨1, by decide⟩, .byTest, "cmd"⟩

/-- Worker 1 creates the run, worker 2 joins it. -/
def joins : List (RunsAct Nat) :=
  [.join (jp 1), .join (jp 2), .resume 0 .notFound true, .resume 0 .notFound true, .resume 1 .notFound true]

/-- The manifest has two tests. -/
def serving : List (RunsAct Nat) := joins ++ [.request "run" (.addManifest [(10, 0), (11, 0)] "md")]

/-- Both workers take a test; the answers are written. -/
def pulls : List (RunsAct Nat) :=
  serving ++ [.request "run" (.nextWork (w 1)), .resume 1 .notFound true, .resume 1 .notFound true,
    .request "run" (.nextWork (w 2)), .resume 1 .notFound true, .resume 1 .notFound true]

/-- The last answer is written, the counter decremented, the manifest and run state stored. -/
def persisted : List (RunsAct Nat) :=
  pulls ++ [.resume 1 .notFound true, .resume 1 .notFound true, .resume 1 .notFound true,
    .resume 1 .notFound true, .resume 1 .notFound true]

example : phaseOf ((init : Runs Nat).run joins) "run" = some .waiting := by decide
example : phaseOf ((init : Runs Nat).run serving) "run" = some .serving := by decide
example : phaseOf ((init : Runs Nat).run pulls) "run" = some .exhausted := by decide
example : handedOut "run" ((init : Runs Nat).run pulls).events = [⟨10, 1⟩, ⟨11, 1⟩] := by decide
example : ((init : Runs Nat).run persisted).store.length = 1 := by decide
example : ((init : Runs Nat).run persisted).pending.length = 1 := by decide

end Sample

/-! ## C09 -/

theorem phase_change {rid : RunId} {wr : Bool} {evs : List (Event T)} {s s' : RunState T}
    (h : Change rid wr (some s) evs (some s')) : (phase s).later (phase s') = true := by
  cases h <;> first | rfl | (cases s <;> rfl)

theorem later_trans {a b c : Spec.Phase} (h1 : a.later b = true) (h2 : b.later c = true) :
    a.later c = true := by
  cases a <;> cases b <;> cases c <;> simp_all [Spec.Phase.later]

/-- C09: whatever happens after a state of the queue in which the run exists, the run still exists
and its phase is one of those that may come later: serving never goes back to waiting, and an
exhausted or cancelled run stays so. -/
theorem C09_phases_only_move_forward (acts more : List (RunsAct T)) (rid : RunId) (p : Spec.Phase)
    (h : phaseOf ((init : Runs T).run acts) rid = some p) :
    ∃ p', phaseOf ((init : Runs T).run (acts ++ more)) rid = some p' ∧ p.later p' = true := by
  have := run_proj_induction' (rid := rid)
    (I := fun L => ∃ p', L.s.map phase = some p' ∧ p.later p' = true) ?_ acts more
    ⟨p, h, by cases p <;> rfl⟩
  · exact this
  · intro L L' _ ⟨p', h1, h2⟩ hs
    obtain ⟨wr, evs, hc, -, -⟩ := hs.change
    cases hL : L.s with
    | none => rw [hL] at h1; cases h1
    | some s =>
      have hn := isSome_change hc (by rw [hL]; simp)
      cases hL' : L'.s with
      | none => exact absurd hL' hn
      | some s' =>
        rw [hL] at h1
        rw [hL, hL'] at hc
        simp only [Option.map_some, Option.some.injEq] at h1
        subst h1
        exact ⟨phase s', rfl, later_trans h2 (phase_change hc)⟩

/-- C09: a run comes into being waiting for its manifest, or exhausted when it is taken over from
the remote store. -/
theorem C09_how_runs_begin (acts : List (RunsAct T)) (act : RunsAct T) (rid : RunId) (p : Spec.Phase)
    (h : phaseOf ((init : Runs T).run acts) rid = none)
    (h' : phaseOf ((init : Runs T).run (acts ++ [act])) rid = some p) :
    p = .waiting ∨ p = .exhausted ∧
      ((init : Runs T).run (acts ++ [act])).events.any (isLoad rid) = true := by
  rw [run_append] at h' ⊢
  have hst := step_proj ((init : Runs T).run acts) act rid
  change phaseOf (((init : Runs T).run acts).step act) rid = some p at h'
  change _ ∨ _ ∧ (((init : Runs T).run acts).step act).events.any (isLoad rid) = true
  rcases hst with hst | hst
  · have : phaseOf (((init : Runs T).run acts).step act) rid = phaseOf ((init : Runs T).run acts) rid :=
      congrArg (fun L => L.s.map phase) hst
    rw [this, h] at h'
    cases h'
  · obtain ⟨wr, evs, hc, he, -⟩ := hst.change
    have hL : (proj ((init : Runs T).run acts) rid).s = none := by
      cases hx : (proj ((init : Runs T).run acts) rid).s with
      | none => rfl
      | some s =>
        have : phaseOf ((init : Runs T).run acts) rid = some (phase s) := congrArg (Option.map phase) hx
        rw [h] at this
        cases this
    have hL' : (proj (((init : Runs T).run acts).step act) rid).s.map phase = some p := h'
    rw [hL] at hc
    generalize hx : (proj (((init : Runs T).run acts).step act) rid).s = s' at hc hL'
    generalize hy : (none : Option (RunState T)) = s0 at hc
    cases hc with
    | refl => subst hy; cases hL'
    | create p' hp => left; cases hL'; rfl
    | load d =>
      right
      cases hL'
      refine ⟨rfl, ?_⟩
      have hmem : (Event.loaded rid d : Event T) ∈
          (proj (((init : Runs T).run acts).step act) rid).evs := by rw [he]; simp
      rw [List.any_eq_true]
      exact ⟨_, (List.mem_filter.1 hmem).1, by simp [isLoad]⟩
    | _ => cases hy

theorem exhausted_without_manifest (acts : List (RunsAct T)) (rid : RunId) :
    ∀ x md seen m hash, (proj ((init : Runs T).run acts) rid).s = some (.done x md seen m hash) →
      manifests rid (proj ((init : Runs T).run acts) rid).evs = [] →
      ∃ ev ∈ (proj ((init : Runs T).run acts) rid).evs, isLoad rid ev = true ∨ isEmptyManifest rid ev = true := by
  refine (init_proj_induction' (rid := rid) (I := fun L => Hist rid L ∧ ∀ x md seen m hash,
    L.s = some (.done x md seen m hash) → manifests rid L.evs = [] →
      ∃ ev ∈ L.evs, isLoad rid ev = true ∨ isEmptyManifest rid ev = true) ?_ ?_ acts).2
  · exact ⟨hist_run (T := T) [] rid, by intro x md seen m hash h; cases h⟩
  · intro L L' hb ⟨hh, hi⟩ hs
    refine ⟨hist_step hb hh hs, ?_⟩
    intro x md seen m hash hd hm
    obtain ⟨w, evs, hc, he, -⟩ := hs.change
    rw [he] at hm ⊢
    rw [manifests_append, List.append_eq_nil_iff] at hm
    have hst := hh.st
    generalize L'.s = s' at hc hd
    generalize hL : L.s = s at hc hst
    have old : ∀ x md seen m hash, L.s = some (.done x md seen m hash) →
        ∃ ev ∈ L.evs ++ evs, isLoad rid ev = true ∨ isEmptyManifest rid ev = true := by
      intro x md seen m hash h
      obtain ⟨ev, h1, h2⟩ := hi x md seen m hash h hm.1
      exact ⟨ev, List.mem_append_left _ h1, h2⟩
    cases hc with
    | refl s => exact old _ _ _ _ _ (hL.trans hd)
    | load d => exact ⟨.loaded rid d, by simp, .inl (by simp [isLoad])⟩
    | empty => exact ⟨.emptyManifest rid true, by simp, .inr (by simp [isEmptyManifest])⟩
    | mark =>
      obtain ⟨flat, hf⟩ := hst
      rw [hf.one] at hm
      cases hm.1
    | seen => exact old _ _ _ _ _ hL
    | persisted => exact old _ _ _ _ _ hL
    | _ => cases hd

/-- C09: an exhausted run was taken over from the remote store, or its manifest was found empty,
or it had a manifest and all of it was handed out. -/
theorem C09_how_runs_get_exhausted (acts : List (RunsAct T)) (rid : RunId)
    (h : phaseOf ((init : Runs T).run acts) rid = some .exhausted) :
    (manifests rid ((init : Runs T).run acts).events = [] ∧
      (((init : Runs T).run acts).events.any (isLoad rid) = true ∨
        ((init : Runs T).run acts).events.any (isEmptyManifest rid) = true)) ∨
      ∃ flat, manifests rid ((init : Runs T).run acts).events = [flat] ∧
        handedOut rid ((init : Runs T).run acts).events = firstAttempts flat := by
  have hh := (hist_run acts rid).st
  have h2 : manifests rid (proj ((init : Runs T).run acts) rid).evs =
      manifests rid ((init : Runs T).run acts).events := manifests_filter rid _
  have h3 := handedOut_proj ((init : Runs T).run acts) rid
  cases hx : (proj ((init : Runs T).run acts) rid).s with
  | none =>
    have : phaseOf ((init : Runs T).run acts) rid = none := congrArg (Option.map phase) hx
    rw [h] at this; cases this
  | some s =>
    have hp : phaseOf ((init : Runs T).run acts) rid = some (phase s) := congrArg (Option.map phase) hx
    rw [h] at hp
    rw [hx] at hh
    cases s <;> simp only [phase, Option.some.injEq, reduceCtorEq] at hp
    simp only [HistOk, h2, h3] at hh
    rcases hh with hh | hh
    · refine Or.inl ⟨hh.1, ?_⟩
      obtain ⟨ev, h4, h5⟩ := exhausted_without_manifest acts rid _ _ _ _ _ hx (h2.trans hh.1)
      have h6 := (List.mem_filter.1 h4).1
      rw [List.any_eq_true, List.any_eq_true]
      rcases h5 with h5 | h5
      · exact .inl ⟨ev, h6, h5⟩
      · exact .inr ⟨ev, h6, h5⟩
    · exact Or.inr hh

example : ∃ p', phaseOf ((init : Runs Nat).run (Sample.serving ++ Sample.pulls)) "run" = some p' ∧
    Spec.Phase.serving.later p' = true :=
  C09_phases_only_move_forward Sample.serving Sample.pulls "run" .serving (by decide)

example : phaseOf ((init : Runs Nat).run ([.join (Sample.jp 1)] ++ [.resume 0 .notFound true])) "run" =
    some .waiting := by decide

/-! ## C10 -/

theorem asks_rid {rid : RunId} {ev : Event T} (h : asksToGenerate rid ev = true) : ev.rid = rid := by
  cases ev <;> simp only [asksToGenerate] at h <;> try cases h
  rename_i p a
  cases a with
  | fresh g d => cases g <;> simp [asksToGenerate] at h; exact h
  | _ => simp [asksToGenerate] at h

theorem isLoad_rid {rid : RunId} {ev : Event T} (h : isLoad rid ev = true) : ev.rid = rid := by
  cases ev <;> simp only [isLoad] at h <;> try cases h
  simpa [Event.rid] using h

theorem before_not_asks {rid : RunId} {ev : Event T} (h : beforeCreation ev = true) :
    asksToGenerate rid ev = false ∧ isLoad rid ev = false := by
  cases ev <;> simp only [beforeCreation] at h <;> try cases h
  · rename_i p a
    cases a <;> simp [asksToGenerate, isLoad, beforeCreation] at h ⊢
  · simp [asksToGenerate, isLoad]

theorem filter_asks (rid : RunId) (evs : List (Event T)) :
    (evs.filter (fun ev => ev.rid == rid)).filter (asksToGenerate rid) = evs.filter (asksToGenerate rid) := by
  rw [List.filter_filter]
  congr 1
  funext ev
  cases h : asksToGenerate rid ev
  · rfl
  · simp [asks_rid h]

theorem origin_count {rid : RunId} {L : Loc T} (h : Origin rid L) :
    (L.evs.filter (asksToGenerate rid)).length ≤ 1 ∧
      (L.s ≠ none → (L.evs.filter (asksToGenerate rid)).length = 1 ∨ L.evs.any (isLoad rid) = true) := by
  unfold Origin at h
  cases hL : L.s with
  | none =>
    rw [hL] at h
    simp only at h
    have : L.evs.filter (asksToGenerate rid) = [] := by
      rw [List.filter_eq_nil_iff]
      intro ev hev
      simp [(before_not_asks (rid := rid) (h ev hev)).1]
    rw [this]
    simp
  | some s =>
    rw [hL] at h
    obtain ⟨a, x, b, e1, e2, e3, e4, -⟩ := h
    have ha : a.filter (asksToGenerate rid) = [] := by
      rw [List.filter_eq_nil_iff]
      intro ev hev
      simp [(before_not_asks (rid := rid) (e2 ev hev)).1]
    have hb : b.filter (asksToGenerate rid) = [] := by
      rw [List.filter_eq_nil_iff]
      intro ev hev
      simp [(e4 ev hev).1]
    rw [e1, List.filter_append, List.filter_cons, ha, hb]
    constructor
    · split <;> simp
    · intro _
      rcases e3 with e3 | e3
      · left; simp [e3]
      · right; simp [e3]

/-- C10: at most one join of a run is answered with the instruction to generate the manifest. -/
theorem C10_at_most_one_generates (acts : List (RunsAct T)) (rid : RunId) :
    (((init : Runs T).run acts).events.filter (asksToGenerate rid)).length ≤ 1 := by
  rw [← filter_asks]
  exact (origin_count (origin_run acts rid)).1

/-- C10: a run that exists was created by exactly one such answer, unless it was taken over from
the remote store. -/
theorem C10_exactly_one_unless_loaded (acts : List (RunsAct T)) (rid : RunId)
    (h : phaseOf ((init : Runs T).run acts) rid ≠ none) :
    (((init : Runs T).run acts).events.filter (asksToGenerate rid)).length = 1 ∨
      ((init : Runs T).run acts).events.any (isLoad rid) = true := by
  rw [← filter_asks]
  have h1 : (proj ((init : Runs T).run acts) rid).s ≠ none := by
    intro hx
    exact h (congrArg (Option.map phase) hx)
  rcases (origin_count (origin_run acts rid)).2 h1 with h2 | h2
  · exact Or.inl h2
  · right
    rw [List.any_eq_true] at h2 ⊢
    obtain ⟨ev, h3, h4⟩ := h2
    exact ⟨ev, (List.mem_filter.1 h3).1, h4⟩

theorem split_unique {γ : Type} {P : γ → Bool} {a b a' b' : List γ} {x y : γ}
    (h : a ++ x :: b = a' ++ y :: b') (ha : ∀ z ∈ a, P z = false) (hb : ∀ z ∈ b, P z = false)
    (hy : P y = true) : a' = a := by
  induction a generalizing a' with
  | nil =>
    cases a' with
    | nil => rfl
    | cons z a' =>
      simp only [List.nil_append, List.cons_append, List.cons.injEq] at h
      have : y ∈ b := by rw [h.2]; simp
      rw [hb y this] at hy
      cases hy
  | cons z a ih =>
    cases a' with
    | nil =>
      simp only [List.nil_append, List.cons_append, List.cons.injEq] at h
      have := ha z (by simp)
      rw [h.1, hy] at this
      cases this
    | cons z' a' =>
      simp only [List.cons_append, List.cons.injEq] at h
      rw [h.1, ih h.2 (fun z hz => ha z (List.mem_cons_of_mem _ hz))]

/-- C10: the instruction to generate the manifest goes to the join that creates the run: before
it, nothing happened for that run id other than failed joins and requests for an unknown run. -/
theorem C10_creator_generates (acts : List (RunsAct T)) (rid : RunId) (a b : List (Event T))
    (ev : Event T) (h : ((init : Runs T).run acts).events = a ++ ev :: b)
    (hev : asksToGenerate rid ev = true) :
    ∀ ev' ∈ a, ev'.rid = rid → beforeCreation ev' = true := by
  have ho := origin_run acts rid
  have hloc : (proj ((init : Runs T).run acts) rid).evs =
      a.filter (fun ev => ev.rid == rid) ++ ev :: b.filter (fun ev => ev.rid == rid) := by
    show ((init : Runs T).run acts).events.filter _ = _
    rw [h, List.filter_append, List.filter_cons, if_pos (by simpa using asks_rid hev)]
  unfold Origin at ho
  cases hL : (proj ((init : Runs T).run acts) rid).s with
  | none =>
    rw [hL] at ho
    have := before_not_asks (rid := rid) (ho ev (by rw [hloc]; simp))
    rw [hev] at this
    exact absurd this.1 (by simp)
  | some s =>
    rw [hL] at ho
    obtain ⟨a0, x, b0, e1, e2, e3, e4, -⟩ := ho
    rw [hloc] at e1
    have hsame := split_unique (P := asksToGenerate rid) e1.symm
      (fun z hz => (before_not_asks (e2 z hz)).1) (fun z hz => (e4 z hz).1) hev
    intro ev' h1 h2
    refine e2 ev' ?_
    rw [← hsame]
    exact List.mem_filter.2 ⟨h1, by simpa using h2⟩

/-- C10: no join is ever answered with "unknown run". -/
theorem C10_no_join_is_unknown (acts : List (RunsAct T)) (p : JoinParams) :
    .joined p .runUnknown ∉ ((init : Runs T).run acts).events := by
  intro hm
  have hall := always_run (rid := p.rid) (I := fun _ => True)
    (P := fun _ ev => ev ≠ (.joined p .runUnknown : Event T)) (fun _ => trivial)
    (by
      intro L L' ev hb _ hs he hev
      subst hev
      obtain ⟨evs, h1, h2⟩ := hs.step1 hb
      rw [he] at h2
      have h3 := List.append_cancel_left h2
      rw [← h3] at h1
      clear hs hb he h2
      generalize L.s = s0 at h1
      generalize L'.s = s1 at h1
      generalize hx : [(.joined p .runUnknown : Event T)] = evs' at h1
      cases h1 with
      | joined s q hq =>
        simp only [List.cons.injEq, Event.joined.injEq, and_true] at hx
        have := hx.2
        cases s with
        | hasWork qq b md act h =>
          simp only [RunState.join] at this
          split at this <;> cases this
        | done x md seen m h =>
          simp only [RunState.join] at this
          split at this <;> cases this
        | _ => cases this
      | req s r =>
        cases r <;> simp only [exec] at hx
        case nextWork => split at hx <;> cases hx
        all_goals cases hx
      | _ => cases hx) acts
  obtain ⟨a, b, hab⟩ := List.append_of_mem hm
  exact always_global hall hab rfl rfl

example : ((init : Runs Nat).run Sample.joins).events.filter (asksToGenerate "run") =
    [.joined (Sample.jp 1) (.fresh true false)] := rfl

example : ((init : Runs Nat).run Sample.joins).events =
    [.joined (Sample.jp 1) (.fresh true false), .joined (Sample.jp 2) (.fresh false false)] := rfl

end Abq.Props
