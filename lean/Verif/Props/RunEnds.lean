import Verif.Proof.RunEnds
import Verif.Props.AllRuns

/-! # A run comes to its end (C110) -/

namespace Abq.Props
open Abq.Runs Abq.Spec
variable {T : Type}

theorem answers_proj (σ : Runs T) (rid : RunId) : answers rid (proj σ rid).evs = answers rid σ.events :=
  flatMap_filter _ rid (by intro ev h; cases ev <;> simp_all [answerIn, Event.rid]) _

theorem answers_sum (rid : RunId) (evs : List (Event T)) :
    ((answers rid evs).map (fun a => a.1.length)).sum = evSum rid evs := by
  induction evs with
  | nil => rfl
  | cons ev evs ih =>
    simp only [answers, evSum, List.flatMap_cons, List.map_append, List.sum_append, List.map_cons, List.sum_cons] at ih ⊢
    rw [ih]
    cases ev <;> simp only [answerIn, evW, List.map_nil, List.sum_nil]
    split <;> simp

theorem mem_answers {rid : RunId} {evs : List (Event T)} {items : List (WorkerTest T)} {eow : Bool}
    (h : (items, eow) ∈ answers rid evs) : ∃ e, (.work rid e items eow : Event T) ∈ evs := by
  simp only [answers, List.mem_flatMap] at h
  obtain ⟨ev, h1, h2⟩ := h
  cases ev <;> simp only [answerIn, List.not_mem_nil] at h2
  rename_i r e i eo
  split at h2
  · rename_i hr
    simp only [List.mem_singleton, Prod.mk.injEq] at h2
    obtain ⟨rfl, rfl⟩ := h2
    subst hr
    exact ⟨e, h1⟩
  · cases h2

theorem length_le_sum {l : List (List (WorkerTest T) × Bool)} (h : ∀ a ∈ l, a.2 = false → a.1 ≠ []) :
    (l.filter (fun a => !a.2)).length ≤ (l.map (fun a => a.1.length)).sum := by
  induction l with
  | nil => simp
  | cons x l ih =>
    have h1 := ih (fun a ha => h a (List.mem_cons_of_mem _ ha))
    rw [List.filter_cons, List.map_cons, List.sum_cons]
    split
    · rename_i hx
      have := List.length_pos_iff.2 (h x List.mem_cons_self (by simpa using hx))
      rw [List.length_cons]
      omega
    · omega

/-- The tests taken are no more than those of the manifest. -/
theorem handedOut_bound (acts : List (RunsAct T)) (rid : RunId) :
    (handedOut rid ((init : Runs T).run acts).events).length ≤
      ((manifests rid ((init : Runs T).run acts).events).map List.length).sum := by
  have hh := (hist_run acts rid).st
  have hb := (base_run acts rid).st
  rw [← handedOut_proj, ← manifests_filter rid]
  change _ ≤ ((manifests rid (proj ((init : Runs T).run acts) rid).evs).map List.length).sum
  generalize proj ((init : Runs T).run acts) rid = L at hh hb
  obtain ⟨s, ps, evs, st, rm⟩ := L
  cases s with
  | none => rw [hh.2]; simp
  | some s =>
    cases s with
    | waiting => rw [hh.2]; simp
    | hasWork q b md act h =>
      obtain ⟨flat, hf⟩ := hh
      rw [hf.one, hf.handed]
      simp only [List.length_take, firstAttempts, List.length_map, List.map_cons, List.map_nil, List.sum_cons, List.sum_nil]
      omega
    | done =>
      rcases hh with ⟨-, h2⟩ | ⟨flat, h1, h2⟩
      · rw [h2]; simp
      · rw [h1, h2]; simp [firstAttempts]
    | cancelled =>
      rcases hh with ⟨-, h2⟩ | ⟨flat, h1, h2⟩
      · rw [h2]; simp
      · rw [h1]
        have := h2.length_le
        simpa [firstAttempts] using this

/-- **C110.** However requests interleave: an answer that does not say that there are no more tests has a test, and there are at
most as many such answers as the manifest has tests; none if there is no manifest. -/
theorem C110_answers (acts : List (RunsAct T)) (rid : RunId) :
    (∀ a ∈ answers rid ((init : Runs T).run acts).events, a.2 = false → a.1 ≠ []) ∧
    ((answers rid ((init : Runs T).run acts).events).filter (fun a => !a.2)).length ≤
      ((manifests rid ((init : Runs T).run acts).events).map List.length).sum ∧
    (manifests rid ((init : Runs T).run acts).events).length ≤ 1 := by
  have ha := ans_run acts rid
  have h1 : ∀ a ∈ answers rid ((init : Runs T).run acts).events, a.2 = false → a.1 ≠ [] := by
    intro a hm h2 h3
    obtain ⟨items, eow⟩ := a
    simp only at h2 h3
    subst h2 h3
    rw [← answers_proj] at hm
    obtain ⟨e, he⟩ := mem_answers hm
    exact ha.ne e he
  refine ⟨h1, ?_, ?_⟩
  · have h2 := length_le_sum h1
    rw [answers_sum] at h2
    have h3 := ha.sum
    rw [← answers_sum, answers_proj, answers_sum, handedOut_proj] at h3
    have := handedOut_bound acts rid
    omega
  · have hh := (hist_run acts rid).st
    rw [← manifests_filter rid]
    change (manifests rid (proj ((init : Runs T).run acts) rid).evs).length ≤ 1
    generalize proj ((init : Runs T).run acts) rid = L at hh
    obtain ⟨s, ps, evs, st, rm⟩ := L
    cases s with
    | none => rw [hh.1]; simp
    | some s =>
      cases s with
      | waiting => rw [hh.1]; simp
      | hasWork q b md act h => obtain ⟨flat, hf⟩ := hh; rw [hf.one]; simp
      | done =>
        rcases hh with ⟨h1, -⟩ | ⟨flat, h1, -⟩ <;> rw [h1] <;> simp
      | cancelled =>
        rcases hh with ⟨h1, -⟩ | ⟨flat, h1, -⟩ <;> rw [h1] <;> simp

/-- The end was told after the manifest had come. -/
def Told (rid : RunId) (evs : List (Event T)) : Prop :=
  ∃ a e items b, evs = a ++ .work rid e items true :: b ∧ manifests rid a ≠ []

def IsOver (s : Option (RunState T)) : Prop := s.map phase = some .exhausted ∨ s.map phase = some .cancelled

theorem isOver_change {rid : RunId} {w : Bool} {evs : List (Event T)} {s s' : Option (RunState T)}
    (hc : Change rid w s evs s') (h : IsOver s) : IsOver s' := by
  cases s with
  | none => rcases h with h | h <;> cases h
  | some s =>
    have hn := isSome_change hc (by simp)
    cases s' with
    | none => exact absurd rfl hn
    | some s' =>
      have := phase_change hc
      simp only [IsOver, Option.map_some, Option.some.injEq] at h ⊢
      rcases h with h | h <;> rw [h] at this <;> cases hp : phase s' <;> rw [hp] at this <;> simp_all [Spec.Phase.later]

theorem told_run (acts : List (RunsAct T)) (rid : RunId) (h : Told rid (proj ((init : Runs T).run acts) rid).evs) :
    IsOver (proj ((init : Runs T).run acts) rid).s := by
  revert h
  refine (init_proj_induction' (rid := rid) (I := fun L => Hist rid L ∧ (Told rid L.evs → IsOver L.s)) ?_ ?_ acts).2
  · refine ⟨hist_run (T := T) [] rid, ?_⟩
    rintro ⟨a, e, items, b, h, -⟩
    simp [Loc.init] at h
  · intro L L' hb ⟨hh, hi⟩ hs
    refine ⟨hist_step hb hh hs, ?_⟩
    intro ht
    obtain ⟨w, evs, hc, -, -⟩ := hs.change
    obtain ⟨evs1, h1, h2⟩ := hs.step1 hb
    rcases h1.one with rfl | ⟨ev, rfl⟩
    · rw [List.append_nil] at h2
      rw [h2] at ht
      exact isOver_change hc (hi ht)
    · obtain ⟨a, e, items, b, he, hm⟩ := ht
      rw [h2] at he
      by_cases hbn : b = []
      · subst hbn
        obtain ⟨h3, h4⟩ := List.append_inj' he rfl
        simp only [List.cons.injEq, and_true] at h4
        subst h3 h4
        have hst := hh.st
        clear hs hb hc h2 he hi hh
        generalize L.s = s0 at h1 hst
        generalize L'.s = s1 at h1
        generalize hx : [(.work rid e items true : Event T)] = evs' at h1
        cases h1 with
        | mark s e' items' ho =>
          cases s with
          | waiting => exact ho.elim
          | hasWork => exact .inl rfl
          | done => exact .inl rfl
          | cancelled => exact .inr rfl
        | req s r =>
          cases r <;> simp only [exec] at hx
          case nextWork e' =>
            cases s with
            | waiting => exact absurd hst.1 hm
            | hasWork q b md act h =>
              simp only [RunState.pull] at hx
              cases hg : q.getWork e'.tag b <;> simp [hg] at hx
            | done => exact .inl rfl
            | cancelled => exact .inr rfl
          all_goals cases hx
        | work => cases hx
        | _ => cases hx
      · refine isOver_change hc (hi ?_)
        obtain ⟨b', x, rfl⟩ : ∃ b' x, b = b' ++ [x] := ⟨b.dropLast, b.getLast hbn, (List.dropLast_concat_getLast hbn).symm⟩
        have h3 : L.evs ++ [ev] = (a ++ .work rid e items true :: b') ++ [x] := by rw [he]; simp
        obtain ⟨h4, -⟩ := List.append_inj' h3 rfl
        exact ⟨a, e, items, b', h4, hm⟩

/-- **C110.** A run whose manifest has come is over, its tests used up or cancelled, once more requests for tests were answered
than the manifest has tests. So runners that keep asking bring it to its end, and are told. -/
theorem C110_ends (acts : List (RunsAct T)) (rid : RunId) (flat : List (T × Nat)) (a b : List (Event T))
    (h : ((init : Runs T).run acts).events = a ++ b) (hm : flat ∈ manifests rid a)
    (hn : flat.length < (answers rid b).length) :
    (∃ x ∈ answers rid b, x.2 = true) ∧
    (phaseOf ((init : Runs T).run acts) rid = some .exhausted ∨ phaseOf ((init : Runs T).run acts) rid = some .cancelled) := by
  obtain ⟨-, h2, h3⟩ := C110_answers acts rid
  have hms : manifests rid ((init : Runs T).run acts).events = [flat] := by
    have h4 : flat ∈ manifests rid ((init : Runs T).run acts).events := by
      rw [h, manifests_append]; exact List.mem_append_left _ hm
    cases hx : manifests rid ((init : Runs T).run acts).events with
    | nil => rw [hx] at h4; cases h4
    | cons y ys =>
      rw [hx] at h3 h4
      cases ys with
      | nil => simp only [List.mem_singleton] at h4; rw [h4]
      | cons z zs => simp at h3
  rw [hms] at h2
  simp only [List.map_cons, List.map_nil, List.sum_cons, List.sum_nil, Nat.add_zero] at h2
  rw [h] at h2
  simp only [answers, List.flatMap_append, List.filter_append, List.length_append] at h2
  have hex : ∃ x ∈ answers rid b, x.2 = true := by
    refine Classical.byContradiction fun hno => ?_
    have : (answers rid b).filter (fun a => !a.2) = answers rid b := by
      rw [List.filter_eq_self]
      intro x hx
      cases hx2 : x.2 with
      | false => rfl
      | true => exact absurd ⟨x, hx, hx2⟩ hno
    rw [answers] at this hn
    rw [this] at h2
    omega
  refine ⟨hex, ?_⟩
  obtain ⟨⟨items, eow⟩, hx, hx2⟩ := hex
  simp only at hx2
  subst hx2
  obtain ⟨e, he⟩ := mem_answers hx
  obtain ⟨b1, b2, rfl⟩ := List.append_of_mem he
  refine told_run acts rid ⟨(a ++ b1).filter (fun ev => ev.rid == rid), e, items, b2.filter (fun ev => ev.rid == rid), ?_, ?_⟩
  · simp [proj, h, Event.rid]
  · rw [manifests_filter, manifests_append]
    intro hc
    rw [List.append_eq_nil_iff] at hc
    rw [hc.1] at hm
    cases hm

/-- **C110.** Once a run is over, a request for tests is answered at once, and told that there are none. -/
theorem C110_told_at_once (acts : List (RunsAct T)) (rid : RunId) (e : Entity)
    (h : phaseOf ((init : Runs T).run acts) rid = some .exhausted ∨ phaseOf ((init : Runs T).run acts) rid = some .cancelled) :
    ((init : Runs T).run (acts ++ [.request rid (.nextWork e)])).events =
      ((init : Runs T).run acts).events ++ [.work rid e [] true] := by
  rw [run_append]
  change (((init : Runs T).run acts).step (.request rid (.nextWork e))).events = _
  cases hs : ((init : Runs T).run acts).get rid with
  | none => rw [phaseOf, hs] at h; rcases h with h | h <;> cases h
  | some s =>
    rw [phaseOf, hs] at h
    cases s with
    | waiting => rcases h with h | h <;> cases h
    | hasWork => rcases h with h | h <;> cases h
    | done => simp [step, Req.writes, Runs.apply, reqEff, hs, exec, RunState.pull]
    | cancelled => simp [step, Req.writes, Runs.apply, reqEff, hs, exec, RunState.pull]

/-! ## Requests are not stuck -/

def isPulled (rid : RunId) : Pending T → Bool
  | .pulled r _ _ => r == rid
  | _ => false

def isMark (rid : RunId) : Pending T → Bool
  | .markEnd r _ _ => r == rid
  | _ => false

/-- How many steps the requests for tests need. -/
def stepsLeft (rid : RunId) (ps : List (Pending T)) : Nat := 2 * ps.countP (isPulled rid) + ps.countP (isMark rid)

def askers (rid : RunId) (ps : List (Pending T)) : List Entity :=
  ps.filterMap fun
    | .pulled r e _ => if r = rid then some e else none
    | .markEnd r e _ => if r = rid then some e else none
    | _ => none

theorem asking_eq (rid : RunId) (σ : Runs T) : asking rid σ = askers rid σ.pending := rfl

theorem askers_append (rid : RunId) (a b : List (Pending T)) : askers rid (a ++ b) = askers rid a ++ askers rid b := by
  simp [askers]

theorem answered_append (rid : RunId) (a b : List (Event T)) :
    Spec.answered rid (a ++ b) = Spec.answered rid a ++ Spec.answered rid b := by
  simp [Spec.answered]

theorem stepsLeft_append (rid : RunId) (a b : List (Pending T)) :
    stepsLeft rid (a ++ b) = stepsLeft rid a + stepsLeft rid b := by
  simp only [stepsLeft, List.countP_append]; omega

theorem stepsLeft_le (rid : RunId) (ps : List (Pending T)) : stepsLeft rid ps ≤ 2 * (askers rid ps).length := by
  induction ps with
  | nil => simp [stepsLeft]
  | cons p ps ih =>
    rw [show p :: ps = [p] ++ ps from rfl, stepsLeft_append, askers_append, List.length_append]
    have : stepsLeft rid [p] ≤ 2 * (askers rid [p]).length := by
      cases p <;> simp only [stepsLeft, askers, List.countP_singleton, isPulled, isMark, List.filterMap_cons,
        List.filterMap_nil, beq_iff_eq, Bool.false_eq_true, if_false]
      all_goals first
        | omega
        | (split <;> simp)
    omega

theorem askers_nil (rid : RunId) (ps : List (Pending T)) (h : stepsLeft rid ps = 0) : askers rid ps = [] := by
  induction ps with
  | nil => rfl
  | cons p ps ih =>
    rw [show p :: ps = [p] ++ ps from rfl, stepsLeft_append] at h
    rw [show p :: ps = [p] ++ ps from rfl, askers_append, ih (by omega), List.append_nil]
    have h1 : stepsLeft rid [p] = 0 := by omega
    cases p <;> simp only [stepsLeft, List.countP_singleton, isPulled, isMark, beq_iff_eq, Bool.false_eq_true, if_false] at h1 <;>
      simp only [askers, List.filterMap_cons, List.filterMap_nil]
    all_goals
      split at h1
      · omega
      · rename_i hr
        rw [if_neg hr]

theorem resume_mid (σ : Runs T) (a b : List (Pending T)) (p : Pending T) (h : σ.pending = a ++ p :: b)
    (hl : (p.writes && σ.readLocked p.rid) = false) :
    σ.step (.resume a.length .notFound true) =
      { σ with pending := a ++ b }.apply p.rid (contEff (σ.get p.rid) .notFound true p) := by
  have h1 : σ.pending[a.length]? = some p := by rw [h]; simp
  have h2 : σ.pending.eraseIdx a.length = a ++ b := by
    rw [h, List.eraseIdx_append_of_length_le (Nat.le_refl _)]; simp
  simp only [step, h1, hl, h2, Bool.false_eq_true, if_false]

theorem mem_proj {σ : Runs T} {p : Pending T} (h : p ∈ σ.pending) : p ∈ (proj σ p.rid).ps := by
  simp [proj, h]

/-- A request that took tests, or found none, can go on. -/
theorem resume_pulled (acts : List (RunsAct T)) (rid : RunId) (e : Entity) (items : List (WorkerTest T))
    (a b : List (Pending T)) (h : ((init : Runs T).run acts).pending = a ++ .pulled rid e items :: b) :
    (((init : Runs T).run (acts ++ [.resume a.length .notFound true])).pending = a ++ b ++ [.markEnd rid e items] ∧
      ((init : Runs T).run (acts ++ [.resume a.length .notFound true])).events = ((init : Runs T).run acts).events) ∨
    (((init : Runs T).run (acts ++ [.resume a.length .notFound true])).pending = a ++ b ++ [.respond rid e items false none] ∧
      ((init : Runs T).run (acts ++ [.resume a.length .notFound true])).events =
        ((init : Runs T).run acts).events ++ [.work rid e items false]) := by
  have hb := (base_run acts rid).ps (.pulled rid e items) (mem_proj (by rw [h]; simp))
  have hs := resume_mid ((init : Runs T).run acts) a b (.pulled rid e items) h (by simp [Pending.writes])
  rw [run_append]
  rw [show ∀ x, ((init : Runs T).run acts).run [x] = ((init : Runs T).run acts).step x from fun _ => rfl, hs]
  change IsWork (((init : Runs T).run acts).get rid) at hb
  simp only [Pending.rid]
  generalize ((init : Runs T).run acts).get rid = s at hb
  cases s with
  | none => exact hb.elim
  | some s =>
    cases s with
    | hasWork q bb md act hh =>
      simp only [contEff, Option.bind_some, RunState.atEnd]
      cases q.isAtEnd
      · right
        simp [Runs.apply]
      · left
        simp [Runs.apply]
    | _ => exact hb.elim

theorem readLocked_of_count {σ : Runs T} {rid : RunId} (h : σ.pending.countP (isPulled rid) = 0) : σ.readLocked rid = false := by
  rw [List.countP_eq_zero] at h
  simp only [Runs.readLocked, List.any_eq_false, Bool.and_eq_true, beq_iff_eq, not_and, Bool.not_eq_true]
  intro p hp hr
  have := h p hp
  cases p <;> simp_all [isPulled, Pending.reads, Pending.rid]

/-- A request that found the tests used up can go on, when no other request is before that. -/
theorem resume_mark (acts : List (RunsAct T)) (rid : RunId) (e : Entity) (items : List (WorkerTest T))
    (a b : List (Pending T)) (h : ((init : Runs T).run acts).pending = a ++ .markEnd rid e items :: b)
    (hz : ((init : Runs T).run acts).pending.countP (isPulled rid) = 0) :
    ∃ next, ((init : Runs T).run (acts ++ [.resume a.length .notFound true])).pending = a ++ b ++ next ∧
      stepsLeft rid next = 0 ∧
      ((init : Runs T).run (acts ++ [.resume a.length .notFound true])).events =
        ((init : Runs T).run acts).events ++ [.work rid e items true] := by
  have hb := (base_run acts rid).ps (.markEnd rid e items) (mem_proj (by rw [h]; simp))
  have hs := resume_mid ((init : Runs T).run acts) a b (.markEnd rid e items) h
    (by simp [Pending.rid, readLocked_of_count hz])
  rw [run_append]
  rw [show ∀ x, ((init : Runs T).run acts).run [x] = ((init : Runs T).run acts).step x from fun _ => rfl, hs]
  change Over (((init : Runs T).run acts).get rid) at hb
  simp only [Pending.rid]
  generalize ((init : Runs T).run acts).get rid = s at hb
  cases s with
  | none => exact hb.elim
  | some s =>
    refine ⟨_, rfl, ?_, rfl⟩
    simp only [contEff, subIf]
    split <;> simp [stepsLeft, isPulled, isMark]

theorem drain (rid : RunId) : ∀ (n : Nat) (acts : List (RunsAct T)),
    stepsLeft rid ((init : Runs T).run acts).pending = n →
    ∃ more, (∀ x ∈ more, ∃ i, x = .resume i .notFound true) ∧ more.length ≤ n ∧
      askers rid ((init : Runs T).run (acts ++ more)).pending = [] ∧
      (Spec.answered rid ((init : Runs T).run (acts ++ more)).events).Perm
        (Spec.answered rid ((init : Runs T).run acts).events ++ askers rid ((init : Runs T).run acts).pending) := by
  intro n
  induction n using Nat.strongRecOn with
  | _ n ih =>
    intro acts hn
    -- one step, and then the rest
    have go : ∀ (i : Nat) (new : List Entity),
        stepsLeft rid ((init : Runs T).run (acts ++ [.resume i .notFound true])).pending < n →
        Spec.answered rid ((init : Runs T).run (acts ++ [.resume i .notFound true])).events =
          Spec.answered rid ((init : Runs T).run acts).events ++ new →
        (new ++ askers rid ((init : Runs T).run (acts ++ [.resume i .notFound true])).pending).Perm
          (askers rid ((init : Runs T).run acts).pending) →
        ∃ more, (∀ x ∈ more, ∃ i, x = .resume i .notFound true) ∧ more.length ≤ n ∧
          askers rid ((init : Runs T).run (acts ++ more)).pending = [] ∧
          (Spec.answered rid ((init : Runs T).run (acts ++ more)).events).Perm
            (Spec.answered rid ((init : Runs T).run acts).events ++ askers rid ((init : Runs T).run acts).pending) := by
      intro i new h1 h2 h3
      obtain ⟨more, h4, h5, h6, h7⟩ := ih _ h1 (acts ++ [.resume i .notFound true]) rfl
      rw [List.append_assoc] at h6 h7
      refine ⟨.resume i .notFound true :: more, ?_, ?_, h6, ?_⟩
      · intro x hx
        rcases List.mem_cons.1 hx with rfl | hx
        · exact ⟨i, rfl⟩
        · exact h4 x hx
      · rw [List.length_cons]; omega
      · rw [h2] at h7
        refine h7.trans ?_
        rw [List.append_assoc]
        exact List.Perm.append_left _ h3
    by_cases hp : 0 < ((init : Runs T).run acts).pending.countP (isPulled rid)
    · obtain ⟨p, hm, hp⟩ := List.countP_pos_iff.1 hp
      cases p <;> simp only [isPulled, Bool.false_eq_true, beq_iff_eq] at hp
      rename_i r e items
      subst hp
      obtain ⟨a, b, hab⟩ := List.append_of_mem hm
      have hst : stepsLeft r ((init : Runs T).run acts).pending = stepsLeft r a + 2 + stepsLeft r b := by
        rw [hab, show (a ++ .pulled r e items :: b) = a ++ ([.pulled r e items] ++ b) from rfl, stepsLeft_append,
          stepsLeft_append]
        simp only [stepsLeft, List.countP_singleton, isPulled, isMark, beq_self_eq_true, if_true, Bool.false_eq_true, if_false]
        omega
      have hask : (askers r ((init : Runs T).run acts).pending).Perm (e :: (askers r a ++ askers r b)) := by
        rw [hab, show (a ++ .pulled r e items :: b) = a ++ ([.pulled r e items] ++ b) from rfl, askers_append, askers_append]
        simp only [askers, List.filterMap_cons, List.filterMap_nil, if_true]
        exact List.perm_middle
      rcases resume_pulled acts r e items a b hab with ⟨h1, h2⟩ | ⟨h1, h2⟩
      · refine go a.length [] ?_ (by rw [h2, List.append_nil]) ?_
        · rw [h1, stepsLeft_append, stepsLeft_append]
          have : stepsLeft r [(.markEnd r e items : Pending T)] = 1 := by simp [stepsLeft, isPulled, isMark]
          omega
        · rw [h1, askers_append, askers_append]
          refine List.Perm.trans ?_ hask.symm
          simp only [askers, List.filterMap_cons, List.filterMap_nil, if_true, List.nil_append]
          exact List.perm_append_comm
      · refine go a.length [e] ?_ ?_ ?_
        · rw [h1, stepsLeft_append, stepsLeft_append]
          have : stepsLeft r [(.respond r e items false none : Pending T)] = 0 := by simp [stepsLeft, isPulled, isMark]
          omega
        · rw [h2, answered_append]
          simp [Spec.answered]
        · rw [h1, askers_append, askers_append]
          refine List.Perm.trans ?_ hask.symm
          simp [askers]
    · by_cases hp2 : 0 < ((init : Runs T).run acts).pending.countP (isMark rid)
      · obtain ⟨p, hm, hp2⟩ := List.countP_pos_iff.1 hp2
        cases p <;> simp only [isMark, Bool.false_eq_true, beq_iff_eq] at hp2
        rename_i r e items
        subst hp2
        obtain ⟨a, b, hab⟩ := List.append_of_mem hm
        have hst : stepsLeft r ((init : Runs T).run acts).pending = stepsLeft r a + 1 + stepsLeft r b := by
          rw [hab, show (a ++ .markEnd r e items :: b) = a ++ ([.markEnd r e items] ++ b) from rfl, stepsLeft_append,
            stepsLeft_append]
          simp only [stepsLeft, List.countP_singleton, isPulled, isMark, beq_self_eq_true, if_true, Bool.false_eq_true, if_false]
          omega
        have hask : (askers r ((init : Runs T).run acts).pending).Perm (e :: (askers r a ++ askers r b)) := by
          rw [hab, show (a ++ .markEnd r e items :: b) = a ++ ([.markEnd r e items] ++ b) from rfl, askers_append,
            askers_append]
          simp only [askers, List.filterMap_cons, List.filterMap_nil, if_true]
          exact List.perm_middle
        obtain ⟨next, h1, h0, h2⟩ := resume_mark acts r e items a b hab (by omega)
        refine go a.length [e] ?_ ?_ ?_
        · rw [h1, stepsLeft_append, stepsLeft_append]; omega
        · rw [h2, answered_append]
          simp [Spec.answered]
        · rw [h1, askers_append, askers_append, askers_nil r next h0, List.append_nil]
          exact hask.symm
      · have hz : stepsLeft rid ((init : Runs T).run acts).pending = 0 := by simp only [stepsLeft]; omega
        refine ⟨[], by simp, by simp, ?_, ?_⟩
        · rw [List.append_nil]; exact askers_nil _ _ hz
        · rw [List.append_nil, askers_nil _ _ hz, List.append_nil]

/-- **C110.** Requests for tests do not block one another: whatever is going on in the queue, if nothing new is asked, at most
two steps for each request in progress answer all of them. -/
theorem C110_never_stuck (acts : List (RunsAct T)) (rid : RunId) :
    ∃ more : List (RunsAct T), (∀ x ∈ more, ∃ i, x = .resume i .notFound true) ∧
      more.length ≤ 2 * (asking rid ((init : Runs T).run acts)).length ∧
      asking rid ((init : Runs T).run (acts ++ more)) = [] ∧
      (Spec.answered rid ((init : Runs T).run (acts ++ more)).events).Perm
        (Spec.answered rid ((init : Runs T).run acts).events ++ asking rid ((init : Runs T).run acts)) := by
  obtain ⟨more, h1, h2, h3, h4⟩ := drain rid _ acts rfl
  refine ⟨more, h1, Nat.le_trans h2 (stepsLeft_le rid _), h3, h4⟩

/-! ## Examples -/

/-- Two workers share two tests, and ask three times: the run is over. -/
example : answers "run" ((init : Runs Nat).run Sample.pulls).events = [([⟨10, 1⟩], false), ([⟨11, 1⟩], true)] ∧
    manifests "run" ((init : Runs Nat).run Sample.pulls).events = [[(10, 0), (11, 0)]] ∧
    phaseOf ((init : Runs Nat).run Sample.pulls) "run" = some .exhausted := by decide

/-- Three requests at once for two tests: none has an answer yet, and the third finds no test. -/
def threeAsk : List (RunsAct Nat) :=
  Sample.serving ++ [.request "run" (.nextWork (Sample.w 1)), .request "run" (.nextWork (Sample.w 2)),
    .request "run" (.nextWork (Sample.w 1))]

example : asking "run" ((init : Runs Nat).run threeAsk) = [Sample.w 1, Sample.w 2, Sample.w 1] ∧
    answers "run" ((init : Runs Nat).run threeAsk).events = [] := by decide

/-- All of them are then told that there are no more tests: more answers than tests. -/
def threeAnswers : List (RunsAct Nat) :=
  threeAsk ++ [.resume 1 .notFound true, .resume 1 .notFound true, .resume 1 .notFound true, .resume 1 .notFound true,
    .resume 1 .notFound true, .resume 1 .notFound true]

example : answers "run" ((init : Runs Nat).run threeAnswers).events =
      [([⟨10, 1⟩], true), ([⟨11, 1⟩], true), ([], true)] ∧
    asking "run" ((init : Runs Nat).run threeAnswers) = [] ∧
    phaseOf ((init : Runs Nat).run threeAnswers) "run" = some .exhausted := by decide

end Abq.Props
