import Verif.Spec.Timed
import Verif.Props.AllRunsLife
/-!
# Invariants of timers in time
-/

namespace Abq.Timed
open Spec Runs
variable {T : Type}

theorem zip_eraseIdx {α β : Type} (l : List α) (m : List β) (k : Nat) :
    (l.zip m).eraseIdx k = (l.eraseIdx k).zip (m.eraseIdx k) := by
  induction l generalizing m k with
  | nil => cases k <;> simp
  | cons x l ih =>
    cases m with
    | nil => simp
    | cons y m =>
      cases k with
      | zero => simp
      | succ k => simp [ih]

theorem zip_replicate {α : Type} (l : List α) (n : Nat) (t : Nat) (h : n = l.length) :
    l.zip (List.replicate n t) = l.map (fun p => (p, t)) := by
  subst h
  induction l with
  | nil => rfl
  | cons x l ih => simp [List.replicate_succ, ih]

/-- What a step of the registry does to the tasks in flight. -/
inductive Moves (period : Nat) (s : State T) (a : RunsAct T) (s' : State T) : Prop where
  | same : s' = s → Moves period s a s'
  | call (rid : RunId) (x : Eff T) :
      ((∃ p, a = .join p ∧ rid = p.rid ∧ x = joinEff (s.runs.get p.rid) p) ∨
        (∃ r, a = .request rid r ∧ x = reqEff rid (s.runs.get rid) r)) →
      s'.runs = s.runs.step a → s'.runs = s.runs.apply rid x → stamped s' = stamped s ++ x.next.map (fun p => (p, s.now)) →
      Moves period s a s'
  | resume (k : Nat) (ans : RemoteAns) (ok : Bool) (p : Pending T) (b : Nat) :
      a = .resume k ans ok → s.runs.pending[k]? = some p → (stamped s)[k]? = some (p, b) →
      (p.writes = true → s.runs.readLocked p.rid = false) →
      (∀ rid last, p = .timer rid last → b + period ≤ s.now) → s'.runs = s.runs.step a →
      s'.runs = ({ s.runs with pending := s.runs.pending.eraseIdx k } : Runs T).apply p.rid (contEff (s.runs.get p.rid) ans ok p) →
      stamped s' = (stamped s).eraseIdx k ++ (contEff (s.runs.get p.rid) ans ok p).next.map (fun p => (p, s.now)) →
      Moves period s a s'

theorem step_moves (period : Nat) (s : State T) (a : RunsAct T) (hl : s.born.length = s.runs.pending.length) :
    Moves period s a (s.step period (.act a)) ∧
    (s.step period (.act a)).born.length = (s.step period (.act a)).runs.pending.length ∧
    (s.step period (.act a)).now = s.now := by
  unfold State.step
  dsimp only
  cases he : s.early period a with
  | true => simp only [if_true]; exact ⟨.same rfl, hl, trivial⟩
  | false =>
    simp only [Bool.false_eq_true, if_false]
    have call : ∀ (rid : RunId) (x : Eff T), s.runs.step a = s.runs.apply rid x → s.kept a = s.born →
        stamped ({ s with
          runs := s.runs.step a
          born := s.kept a ++ List.replicate ((s.runs.step a).pending.length - (s.kept a).length) s.now } : State T) =
          stamped s ++ x.next.map (fun p => (p, s.now)) ∧
        (s.kept a ++ List.replicate ((s.runs.step a).pending.length - (s.kept a).length) s.now).length =
          (s.runs.step a).pending.length := by
      intro rid x hs hk
      have hp : (s.runs.step a).pending = s.runs.pending ++ x.next := by rw [hs]; rfl
      constructor
      · unfold stamped
        dsimp only
        rw [hk, hp, List.zip_append hl.symm, zip_replicate]
        rw [List.length_append, hl]; omega
      · rw [hk, hp]; simp [hl]
    cases a with
    | join p =>
      obtain ⟨h1, h2⟩ := call p.rid _ rfl rfl
      exact ⟨.call p.rid _ (.inl ⟨p, rfl, rfl, rfl⟩) rfl rfl h1, h2, trivial⟩
    | request rid r =>
      by_cases hb : (r.writes && s.runs.readLocked rid) = true
      · have hs : s.runs.step (.request rid r) = s.runs := if_pos hb
        have hk : s.kept (.request rid r) = s.born := rfl
        rw [hs, hk, hl, Nat.sub_self, List.replicate_zero, List.append_nil]
        exact ⟨.same rfl, hl, trivial⟩
      · have hs : s.runs.step (.request rid r) = s.runs.apply rid (reqEff rid (s.runs.get rid) r) := if_neg hb
        obtain ⟨h1, h2⟩ := call rid _ hs rfl
        exact ⟨.call rid _ (.inr ⟨r, rfl, rfl⟩) rfl hs h1, h2, trivial⟩
    | resume k ans ok =>
      cases hp : s.runs.pending[k]? with
      | none =>
        have hs : s.runs.step (.resume k ans ok) = s.runs := by simp [Runs.step, hp]
        have hk : s.kept (.resume k ans ok) = s.born := by simp [State.kept, hp]
        rw [hs, hk, hl, Nat.sub_self, List.replicate_zero, List.append_nil]
        exact ⟨.same rfl, hl, trivial⟩
      | some p =>
        have hlt : k < s.runs.pending.length := (List.getElem?_eq_some_iff.1 hp).1
        by_cases hb : (p.writes && s.runs.readLocked p.rid) = true
        · have hs : s.runs.step (.resume k ans ok) = s.runs := by simp [Runs.step, hp, hb]
          have hk : s.kept (.resume k ans ok) = s.born := by simp only [State.kept, hp]; exact if_pos hb
          rw [hs, hk, hl, Nat.sub_self, List.replicate_zero, List.append_nil]
          exact ⟨.same rfl, hl, trivial⟩
        · have hs : s.runs.step (.resume k ans ok) =
              ({ s.runs with pending := s.runs.pending.eraseIdx k } : Runs T).apply p.rid
                (contEff (s.runs.get p.rid) ans ok p) := by
            simp only [Runs.step, hp]; exact if_neg hb
          have hk : s.kept (.resume k ans ok) = s.born.eraseIdx k := by simp only [State.kept, hp]; exact if_neg hb
          have hpen : (s.runs.step (.resume k ans ok)).pending =
              s.runs.pending.eraseIdx k ++ (contEff (s.runs.get p.rid) ans ok p).next := by rw [hs]; rfl
          have hle : (s.born.eraseIdx k).length = (s.runs.pending.eraseIdx k).length := by
            rw [List.length_eraseIdx, List.length_eraseIdx, hl]
          have hbk : s.born[k]? = some (s.born[k]'(by omega)) := List.getElem?_eq_getElem (by omega)
          refine ⟨.resume k ans ok p (s.born[k]'(by omega)) rfl hp ?_ ?_ ?_ rfl hs ?_, ?_, trivial⟩
          · unfold stamped
            rw [List.getElem?_zip_eq_some]
            exact ⟨hp, hbk⟩
          · intro hw
            cases hlk : s.runs.readLocked p.rid with
            | false => rfl
            | true => rw [hw, hlk] at hb; exact absurd rfl hb
          · intro rid last hpt
            subst hpt
            unfold State.early at he
            dsimp only at he
            rw [hp, hbk] at he
            dsimp only at he
            have := of_decide_eq_false he
            omega
          · unfold stamped
            dsimp only
            rw [hk, hpen, List.zip_append hle.symm, zip_replicate, ← zip_eraseIdx]
            rw [List.length_append, hle]; omega
          · rw [hk, hpen]
            simp [hle]

/-- What holds at all times. -/
structure Good (period : Nat) (acts : List (Act T)) : Prop where
  len : (State.start.run period acts : State T).born.length = (State.start.run period acts : State T).runs.pending.length
  reach : ∃ ras, (State.start.run period acts : State T).runs = Runs.init.run ras
  past : ∀ q ∈ stamped (State.start.run period acts : State T), q.2 ≤ (State.start.run period acts : State T).now

theorem run_concat (period : Nat) (acts : List (Act T)) (a : Act T) :
    (State.start.run period (acts ++ [a]) : State T) = (State.start.run period acts : State T).step period a :=
  List.foldl_append ..

theorem snoc_induction {α : Type} {P : List α → Prop} (nil : P []) (snoc : ∀ l a, P l → P (l ++ [a])) : ∀ l, P l := by
  intro l
  rw [← l.reverse_reverse]
  generalize l.reverse = m
  induction m with
  | nil => exact nil
  | cons a m ih => rw [List.reverse_cons]; exact snoc _ _ ih

theorem good (period : Nat) (acts : List (Act T)) : Good period acts := by
  induction acts using snoc_induction with
  | nil => exact ⟨rfl, ⟨[], rfl⟩, fun q hq => absurd hq List.not_mem_nil⟩
  | snoc acts a ih =>
    obtain ⟨hl, ⟨ras, hr⟩, hp⟩ := ih
    cases a with
    | tick d =>
      refine ⟨?_, ?_, ?_⟩ <;> rw [run_concat]
      · exact hl
      · exact ⟨ras, hr⟩
      · intro q hq
        have := hp q hq
        show q.2 ≤ _ + d
        omega
    | act a =>
      obtain ⟨hm, hl', hn⟩ := step_moves period _ a hl
      rw [← run_concat] at hm hl' hn
      refine ⟨hl', ?_, ?_⟩
      · cases hm with
        | same h => exact ⟨ras, h ▸ hr⟩
        | call _ _ _ h _ _ => exact ⟨ras ++ [a], by rw [h, hr, Runs.run_append]; rfl⟩
        | resume _ _ _ _ _ _ _ _ _ _ h _ _ => exact ⟨ras ++ [a], by rw [h, hr, Runs.run_append]; rfl⟩
      · intro q hq
        rw [hn]
        cases hm with
        | same h => rw [h] at hq; exact hp q hq
        | call _ x _ _ _ h =>
          rw [h, List.mem_append, List.mem_map] at hq
          rcases hq with hq | ⟨p, -, rfl⟩
          · exact hp q hq
          · exact Nat.le_refl _
        | resume _ _ _ _ _ _ _ _ _ _ _ _ h =>
          rw [h, List.mem_append, List.mem_map] at hq
          rcases hq with hq | ⟨p, -, rfl⟩
          · exact hp q (List.mem_of_mem_eraseIdx hq)
          · exact Nat.le_refl _

theorem now_mono (period : Nat) (pre acts : List (Act T)) (h : pre <+: acts) :
    (State.start.run period pre : State T).now ≤ (State.start.run period acts : State T).now := by
  obtain ⟨post, rfl⟩ := h
  induction post using snoc_induction with
  | nil => rw [List.append_nil]; exact Nat.le_refl _
  | snoc post a ih =>
    rw [← List.append_assoc, run_concat]
    refine Nat.le_trans ih ?_
    cases a with
    | tick d => exact Nat.le_add_right _ _
    | act a => rw [(step_moves period _ a (good period _).len).2.2]; exact Nat.le_refl _

theorem stamped_pending {s : State T} {p : Pending T} {b : Nat} (h : (p, b) ∈ stamped s) : p ∈ s.runs.pending :=
  (List.of_mem_zip h).1

theorem pending_stamped {s : State T} (hl : s.born.length = s.runs.pending.length) {p : Pending T} (h : p ∈ s.runs.pending) :
    ∃ b, (p, b) ∈ stamped s := by
  obtain ⟨k, hk, rfl⟩ := List.mem_iff_getElem.1 h
  refine ⟨s.born[k]'(by omega), ?_⟩
  unfold stamped
  rw [List.mem_iff_getElem]
  exact ⟨k, by rw [List.length_zip]; omega, List.getElem_zip ..⟩

/-- Every state after a schedule with time is one of the registry. -/
theorem reach_prefix (period : Nat) (pre acts : List (Act T)) (h : pre <+: acts) :
    ∃ ras more, (State.start.run period pre : State T).runs = Runs.init.run ras ∧
      (State.start.run period acts : State T).runs = Runs.init.run (ras ++ more) := by
  obtain ⟨post, rfl⟩ := h
  induction post using snoc_induction with
  | nil =>
    obtain ⟨ras, hr⟩ := (good period pre).reach
    exact ⟨ras, [], hr, by rw [List.append_nil, List.append_nil]; exact hr⟩
  | snoc post a ih =>
    obtain ⟨ras, more, h1, h2⟩ := ih
    rw [← List.append_assoc]
    cases a with
    | tick d => exact ⟨ras, more, h1, by rw [run_concat]; exact h2⟩
    | act a =>
      have hm := (step_moves period _ a (good period (pre ++ post)).len).1
      rw [← run_concat] at hm
      have next : (State.start.run period (pre ++ post ++ [.act a]) : State T).runs =
          (State.start.run period (pre ++ post) : State T).runs.step a →
          ∃ ras more, (State.start.run period pre : State T).runs = Runs.init.run ras ∧
            (State.start.run period (pre ++ post ++ [.act a]) : State T).runs = Runs.init.run (ras ++ more) :=
        fun h => ⟨ras, more ++ [a], h1, by rw [h, h2, ← List.append_assoc, Runs.run_append _ (ras ++ more)]; rfl⟩
      cases hm with
      | same h => exact ⟨ras, more, h1, by rw [h]; exact h2⟩
      | call _ _ _ h _ _ => exact next h
      | resume _ _ _ _ _ _ _ _ _ _ h _ _ => exact next h

theorem handed_mono' (period : Nat) (pre acts : List (Act T)) (h : pre <+: acts) (rid : RunId) :
    handed (State.start.run period pre : State T) rid ≤ handed (State.start.run period acts : State T) rid := by
  obtain ⟨ras, more, h1, h2⟩ := reach_prefix period pre acts h
  unfold handed
  rw [h1, h2, Runs.run_append]
  obtain ⟨new, hn⟩ := Props.run_events (Runs.init.run ras : Runs T) more
  rw [hn, handedOut_append, List.length_append]
  omega

theorem going_before (period : Nat) (pre acts : List (Act T)) (h : pre <+: acts) (rid : RunId)
    (hx : phaseOf (State.start.run period pre : State T).runs rid ≠ none)
    (hg : Going (State.start.run period acts : State T) rid) : Going (State.start.run period pre : State T) rid := by
  obtain ⟨ras, more, h1, h2⟩ := reach_prefix period pre acts h
  unfold Going at *
  rw [h1] at hx ⊢
  rw [h2] at hg
  cases hp : phaseOf (Runs.init.run ras : Runs T) rid with
  | none => exact absurd hp hx
  | some p =>
    obtain ⟨p', e1, e2⟩ := Props.C09_phases_only_move_forward ras more rid p hp
    rcases hg with hg | hg <;> rw [hg] at e1 <;> cases e1 <;> cases p <;> simp_all [Phase.later]

/-! ## Where timers come from -/

theorem exec_next_timer (rid : RunId) (s : Option (RunState T)) (r : Req T) : ∀ p ∈ (reqEff rid s r).next, timerLast p = none := by
  cases s with
  | none => simp [reqEff]
  | some s => exact exec_no_timer rid s r

theorem joinEff_next_timer (s : Option (RunState T)) (p : JoinParams) : ∀ q ∈ (joinEff s p).next, timerLast q = none := by
  cases s <;> simp [joinEff, timerLast]

/-- A handler that waits for the lock was a timer that fired. -/
theorem contEff_timeoutWrite (s : Option (RunState T)) (ans : RemoteAns) (ok : Bool) (p : Pending T) (rid : RunId) (last : Nat)
    (h : .timeoutWrite rid last ∈ (contEff s ans ok p).next) : p = .timer rid last := by
  cases p with
  | timer r l =>
    cases s with
    | none => simp [contEff] at h
    | some s =>
      simp only [contEff, timerEff] at h
      split at h
      · simp at h; rw [h.1, h.2]
      · generalize (s.progress l).1 = x at h
        cases x <;> simp [rearm] at h
  | timeoutWrite r l =>
    cases s with
    | none => simp [contEff] at h
    | some s =>
      simp only [contEff] at h
      generalize (s.timeoutWrite l).2.1 = x at h
      generalize (s.timeoutWrite l).2.2 = y at h
      cases x <;> cases y <;> simp [rearm, subIf] at h
  | joinRemote q => cases ans <;> cases s <;> simp [contEff, loadRemote, createFresh] at h
  | joinRead q => cases s <;> simp [contEff] at h
  | pulled r e items => simp only [contEff] at h; split at h <;> simp at h
  | markEnd r e items =>
    cases s with
    | none => simp [contEff] at h
    | some s =>
      simp only [contEff] at h
      generalize s.markEnd.2 = x at h
      cases x <;> simp [subIf] at h
  | respond r e items eow plan => simp only [contEff] at h; split at h <;> cases plan <;> simp [planTasks] at h
  | sub r => simp [contEff] at h
  | dumpManifest r v => simp only [contEff] at h; split at h <;> simp at h
  | setPersisted r => simp [contEff] at h
  | dumpState r d => simp only [contEff] at h; split at h <;> simp at h

/-- Since when the position that a timer remembers stands. -/
def Since (period : Nat) (acts : List (Act T)) (q : Pending T × Nat) : Prop :=
  match q with
  | (.timer rid last, b) => ∃ pre, pre <+: acts ∧ (State.start.run period pre : State T).now = b ∧
      last ≤ handed (State.start.run period pre : State T) rid ∧ phaseOf (State.start.run period pre : State T).runs rid ≠ none
  | (.timeoutWrite rid last, _) => ∃ pre, pre <+: acts ∧
      (State.start.run period pre : State T).now + period ≤ (State.start.run period acts : State T).now ∧
      last ≤ handed (State.start.run period pre : State T) rid ∧ phaseOf (State.start.run period pre : State T).runs rid ≠ none
  | _ => True

theorem since_mono {period : Nat} {pre acts : List (Act T)} (h : pre <+: acts) {q : Pending T × Nat} (hs : Since period pre q) :
    Since period acts q := by
  obtain ⟨p, b⟩ := q
  cases p with
  | timer rid last => obtain ⟨pre', h1, h2⟩ := hs; exact ⟨pre', h1.trans h, h2⟩
  | timeoutWrite rid last =>
    obtain ⟨pre', h1, h2, h3⟩ := hs
    exact ⟨pre', h1.trans h, Nat.le_trans h2 (now_mono period _ _ h), h3⟩
  | _ => trivial

theorem exists_of_pending (ras : List (RunsAct T)) (rid : RunId) (p : Pending T) (h : p ∈ (Runs.init.run ras : Runs T).pending)
    (hp : timerOf rid p = true) : phaseOf (Runs.init.run ras : Runs T) rid ≠ none := by
  have hb := base_run ras rid (T := T)
  have hr : p.rid = rid := by
    cases p <;> simp_all [timerOf, Pending.rid]
  have := hb.ps p (List.mem_filter.2 ⟨h, by simp [hr]⟩)
  intro hn
  have hn' : (proj (Runs.init.run ras : Runs T) rid).s = none := by
    unfold phaseOf at hn
    exact Option.map_eq_none_iff.1 hn
  rw [hn'] at this
  cases p <;> simp_all [timerOf, PsOk]

theorem since (period : Nat) (acts : List (Act T)) : ∀ q ∈ stamped (State.start.run period acts : State T), Since period acts q := by
  induction acts using snoc_induction with
  | nil => intro q hq; exact absurd hq List.not_mem_nil
  | snoc acts a ih =>
    have hpre : acts <+: acts ++ [a] := List.prefix_append ..
    cases a with
    | tick d => 
      intro q hq
      rw [run_concat] at hq
      exact since_mono hpre (ih q hq)
    | act a =>
      have hg := good period acts
      have hg' := good period (acts ++ [.act a])
      obtain ⟨hm, -, hn⟩ := step_moves period _ a hg.len
      rw [← run_concat] at hm hn
      obtain ⟨ras', hr'⟩ := hg'.reach
      -- a timer that is set now
      have fresh : ∀ rid last, Pending.timer rid last ∈ (State.start.run period (acts ++ [.act a]) : State T).runs.pending →
          Since period (acts ++ [.act a]) (.timer rid last, (State.start.run period acts : State T).now) := by
        intro rid last hmem
        refine ⟨_, List.prefix_refl _, hn, ?_, ?_⟩
        · unfold handed
          rw [hr'] at hmem ⊢
          exact Props.C54_timer_position ras' rid last (.inl hmem)
        · rw [hr'] at hmem ⊢
          exact exists_of_pending ras' rid _ hmem (by simp [timerOf])
      have noTimer : ∀ (p : Pending T), timerLast p = none → ∀ t, Since period (acts ++ [.act a]) (p, t) := by
        intro p h t
        cases p <;> first | trivial | cases h
      intro q hq
      cases hm with
      | same h => rw [h] at hq; exact since_mono hpre (ih q hq)
      | call rid x hx _ _ h =>
        rw [h, List.mem_append, List.mem_map] at hq
        rcases hq with hq | ⟨p, hp, rfl⟩
        · exact since_mono hpre (ih q hq)
        · refine noTimer p ?_ _
          rcases hx with ⟨p0, -, -, rfl⟩ | ⟨r, -, rfl⟩
          · exact joinEff_next_timer _ _ p hp
          · exact exec_next_timer _ _ _ p hp
      | resume k ans ok p0 b _ _ hk _ hdue _ hs h =>
        rw [h, List.mem_append, List.mem_map] at hq
        rcases hq with hq | ⟨p, hp, rfl⟩
        · exact since_mono hpre (ih q (List.mem_of_mem_eraseIdx hq))
        · cases p with
          | timer rid last =>
            refine fresh rid last ?_
            rw [hs]
            exact List.mem_append_right _ hp
          | timeoutWrite rid last =>
            have hp0 := contEff_timeoutWrite _ _ _ _ _ _ hp
            subst hp0
            obtain ⟨pre, h1, h2, h3, h4⟩ := ih _ (List.mem_of_getElem? hk)
            refine ⟨pre, h1.trans hpre, ?_, h3, h4⟩
            rw [hn, h2]
            exact hdue rid last rfl
          | _ => trivial

end Abq.Timed
