import Verif.Proof.Timed
/-!
# C93, C94: progress timers in time

For every schedule of requests, continuations and passing time. `period` is the time after which a timer is due.
-/

namespace Abq.Props
open Abq Timed Spec Runs
variable {T : Type}

/-! ## C93 -/

theorem handed_of_waiting (ras : List (RunsAct T)) (rid : RunId) (h : phaseOf (Runs.init.run ras : Runs T) rid = some .waiting) :
    handedOut rid (Runs.init.run ras : Runs T).events = [] := by
  have hh := (hist_run ras rid (T := T)).st
  obtain ⟨s, hs, hph⟩ := phaseOf_some h
  have hL : (proj (Runs.init.run ras : Runs T) rid).s = some s := hs
  rw [hL] at hh
  cases s with
  | waiting => rw [← handedOut_filter]; exact hh.2
  | _ => cases hph

theorem exec_state_ne (rid : RunId) (s : RunState T) (r : Req T) : (exec rid s r).state ≠ none := by
  cases r with
  | nextWork e => unfold exec; dsimp only; cases (s.pull e).2 <;> simp
  | _ => simp [exec]

theorem cancelled_by_request (rid : RunId) (s : RunState T) (r : Req T) (s' : RunState T)
    (hg : phase s = .waiting ∨ phase s = .serving) (h : (exec rid s r).state = some s') (hp : phase s' = .cancelled) :
    (∃ e reason, r = .cancel e reason) ∨ r = .manifestFailed := by
  cases r with
  | cancel e reason => exact .inl ⟨e, reason, rfl⟩
  | manifestFailed => exact .inr rfl
  | nextWork e =>
    exfalso
    have h' : (exec rid s (.nextWork e)).state = some (s.pull e).1 := by
      simp only [exec]; split <;> rfl
    rw [h'] at h
    cases h
    cases s with
    | hasWork q b md act hh =>
      simp only [RunState.pull] at hp
      split at hp <;> cases hp
    | waiting => cases hp
    | done => rcases hg with hg | hg <;> cases hg
    | cancelled => rcases hg with hg | hg <;> cases hg
  | _ =>
    exfalso
    cases h
    cases s <;> first | (rcases hg with hg | hg <;> cases hg; done) | (cases hp; done)

theorem cancelled_by_cont (s : RunState T) (ans : RemoteAns) (ok : Bool) (p : Pending T) (s' : RunState T)
    (hg : phase s = .waiting ∨ phase s = .serving) (h : (contEff (some s) ans ok p).state = some s') (hp : phase s' = .cancelled) :
    ∃ rid last, p = .timeoutWrite rid last := by
  have nots : phase s ≠ .cancelled := by rintro h; rcases hg with hg | hg <;> rw [h] at hg <;> cases hg
  cases p with
  | timeoutWrite rid last => exact ⟨rid, last, rfl⟩
  | timer rid last =>
    exfalso
    simp only [contEff, timerEff] at h
    split at h <;> cases h <;> exact nots hp
  | joinRemote q => exfalso; cases ans <;> cases h <;> exact nots hp
  | joinRead q =>
    exfalso
    cases h
    cases s with
    | waiting => cases hp
    | hasWork q' b md act hh => simp only [RunState.join] at hp; split at hp <;> cases hp
    | done => rcases hg with hg | hg <;> cases hg
    | cancelled => rcases hg with hg | hg <;> cases hg
  | pulled rid e items => exfalso; simp only [contEff] at h; split at h <;> cases h <;> exact nots hp
  | markEnd rid e items =>
    exfalso
    cases h
    cases s <;> cases hp
    exact nots rfl
  | respond rid e items eow plan => exfalso; simp only [contEff] at h; split at h <;> cases h <;> exact nots hp
  | sub rid => exfalso; cases h; exact nots hp
  | dumpManifest rid v => exfalso; simp only [contEff] at h; split at h <;> cases h <;> exact nots hp
  | setPersisted rid =>
    exfalso
    cases h
    cases s with
    | waiting => cases hp
    | hasWork => cases hp
    | done => rcases hg with hg | hg <;> cases hg
    | cancelled => rcases hg with hg | hg <;> cases hg
  | dumpState rid d => exfalso; simp only [contEff] at h; split at h <;> cases h <;> exact nots hp

/-- **C93.** A run that goes on is cancelled only by a request to cancel it, by word that its manifest could not be made, or
because, for at least `period`, it was there and handed out no test. -/
theorem C93_cancelled_only_when_stuck (period : Nat) (acts : List (Timed.Act T)) (a : Timed.Act T) (rid : RunId)
    (hg : Going (State.start.run period acts) rid)
    (hc : phaseOf (State.start.run period (acts ++ [a])).runs rid = some .cancelled) :
    (∃ e reason, a = .act (.request rid (.cancel e reason))) ∨ a = .act (.request rid .manifestFailed) ∨
    ∃ pre, pre <+: acts ∧ (State.start.run period pre).now + period ≤ (State.start.run period acts).now ∧
      Going (State.start.run period pre) rid ∧ handed (State.start.run period pre) rid = handed (State.start.run period acts) rid := by
  have hgood := good period acts
  obtain ⟨ras, hr⟩ := hgood.reach
  have notc : phaseOf (State.start.run period acts).runs rid ≠ some .cancelled := by
    intro h; rcases hg with hg | hg <;> rw [h] at hg <;> cases hg
  obtain ⟨s, hs⟩ : ∃ s, (State.start.run period acts).runs.get rid = some s := by
    rcases hg with hg | hg <;> exact ⟨_, (phaseOf_some hg).choose_spec.1⟩
  have hgs : phase s = .waiting ∨ phase s = .serving := by
    rcases hg with hg | hg <;> (unfold phaseOf at hg; rw [hs] at hg; simp only [Option.map_some, Option.some.injEq] at hg)
    · exact .inl hg
    · exact .inr hg
  cases a with
  | tick d => rw [run_concat] at hc; exact absurd hc notc
  | act a =>
    obtain ⟨hm, -, -⟩ := step_moves period _ a hgood.len
    rw [← run_concat] at hm
    cases hm with
    | same h => rw [h] at hc; exact absurd hc notc
    | call rid' x hx _ happ _ =>
      have keep : rid ≠ rid' → (x.state = none → (State.start.run period acts).runs.get rid' = none) → False := by
        intro hne hx'
        unfold phaseOf at hc notc
        rw [happ, apply_get _ _ _ _ hx', if_neg hne] at hc
        exact notc hc
      rcases hx with ⟨p, rfl, rfl, rfl⟩ | ⟨r, rfl, rfl⟩
      · exfalso
        have hst : (joinEff ((State.start.run period acts).runs.get p.rid) p).state =
            (State.start.run period acts).runs.get p.rid := by
          cases (State.start.run period acts).runs.get p.rid <;> rfl
        by_cases hrid : rid = p.rid
        · subst hrid
          unfold phaseOf at hc notc
          rw [happ, apply_get _ _ _ _ (by rw [hst]; exact id), if_pos rfl, hst] at hc
          exact notc hc
        · exact keep hrid (by rw [hst]; exact id)
      · by_cases hrid : rid = rid'
        · subst hrid
          have hne : (reqEff rid (some s) r).state ≠ none := exec_state_ne rid s r
          unfold phaseOf at hc
          rw [happ, hs] at hc
          rw [apply_get _ _ _ _ (fun h => absurd h hne), if_pos rfl] at hc
          cases hst : (exec rid s r).state with
          | none => exact absurd hst (exec_state_ne rid s r)
          | some s' =>
            have : (reqEff rid (some s) r).state = some s' := hst
            rw [this] at hc
            simp only [Option.map_some, Option.some.injEq] at hc
            rcases cancelled_by_request rid s r s' hgs hst hc with ⟨e, reason, rfl⟩ | rfl
            · exact .inl ⟨e, reason, rfl⟩
            · exact .inr (.inl rfl)
        · exfalso
          refine keep hrid ?_
          cases hg' : (State.start.run period acts).runs.get rid' with
          | none => exact fun _ => rfl
          | some s0 =>
            intro h
            exact absurd h (exec_state_ne rid' s0 r)
    | resume k ans ok p b ha hp hk hlock _ hstep happ _ =>
      refine .inr (.inr ?_)
      have hne : ∀ s0, (contEff (some s0) ans ok p).state ≠ none := by
        intro s0
        cases p with
        | joinRemote q => cases ans <;> simp [contEff, loadRemote, createFresh]
        | timer r l => simp only [contEff, timerEff]; split <;> simp
        | pulled r e items => simp only [contEff]; split <;> simp
        | respond r e items eow plan => simp only [contEff]; split <;> simp
        | dumpManifest r v => simp only [contEff]; split <;> simp
        | dumpState r d => simp only [contEff]; split <;> simp
        | _ => simp [contEff]
      have hx' : (contEff ((State.start.run period acts).runs.get p.rid) ans ok p).state = none →
          ({ (State.start.run period acts).runs with
            pending := (State.start.run period acts).runs.pending.eraseIdx k } : Runs T).get p.rid = none := by
        intro h
        cases hg' : (State.start.run period acts).runs.get p.rid with
        | none => exact hg'
        | some s0 => rw [hg'] at h; exact absurd h (hne s0)
      by_cases hrid : rid = p.rid
      · have hpw : ∃ rid last, p = .timeoutWrite rid last := by
          unfold phaseOf at hc
          rw [happ, apply_get _ _ _ _ hx', if_pos hrid, ← hrid, hs] at hc
          cases hst : (contEff (some s) ans ok p).state with
          | none => exact absurd hst (hne s)
          | some s' =>
            rw [hst] at hc
            simp only [Option.map_some, Option.some.injEq] at hc
            exact cancelled_by_cont s ans ok p s' hgs hst hc
        obtain ⟨rid', last, rfl⟩ := hpw
        have : rid = rid' := hrid
        subst this
        obtain ⟨pre, h1, h2, h3, h4⟩ := since period acts _ (List.mem_of_getElem? hk)
        refine ⟨pre, h1, h2, going_before period pre acts h1 rid h4 hg, ?_⟩
        refine Nat.le_antisymm (handed_mono' period pre acts h1 rid) (Nat.le_trans ?_ h3)
        -- nothing was handed out since
        rcases hg with hw | hw
        · unfold handed
          rw [hr] at hw ⊢
          rw [handed_of_waiting ras rid hw]
          exact Nat.zero_le _
        · rw [hr] at hp hlock hw hstep
          have hd := (C15_timeout_decides ras k ans ok rid last hp (hlock rfl)).1
          subst ha
          rw [hstep, hd, hw] at hc
          dsimp only at hc
          unfold handed
          rw [hr]
          split at hc
          · cases hc
          · omega
      · exfalso
        unfold phaseOf at hc notc
        rw [happ, apply_get _ _ _ _ hx', if_neg hrid] at hc
        exact notc hc

/-- **C93.** So a run of which a test is handed out in every `period` is never cancelled by the queue itself: if at all times
that are `period` or more ago fewer tests had been handed out than now, only a request cancels it. -/
theorem C93_progress_is_safe (period : Nat) (acts : List (Timed.Act T)) (a : Timed.Act T) (rid : RunId)
    (hg : Going (State.start.run period acts) rid)
    (hprog : ∀ pre, pre <+: acts → (State.start.run period pre).now + period ≤ (State.start.run period acts).now →
      Going (State.start.run period pre) rid →
      handed (State.start.run period pre) rid < handed (State.start.run period acts) rid)
    (ha : (∀ e reason, a ≠ .act (.request rid (.cancel e reason))) ∧ a ≠ .act (.request rid .manifestFailed)) :
    phaseOf (State.start.run period (acts ++ [a])).runs rid ≠ some .cancelled := by
  intro hc
  rcases C93_cancelled_only_when_stuck period acts a rid hg hc with ⟨e, reason, h⟩ | h | ⟨pre, h1, h2, h3, h4⟩
  · exact ha.1 e reason h
  · exact ha.2 h
  · have := hprog pre h1 h2 h3
    omega

/-- Where the timer of a stuck run is. -/
def Stage (period slack t0 : Nat) (rid : RunId) (n : Nat) (s : State T) : Prop :=
  (∃ last b, (.timer rid last, b) ∈ stamped s ∧ b ≤ t0) ∨
  (∃ last b, (.timeoutWrite rid last, b) ∈ stamped s ∧ b ≤ t0 + period + slack) ∨
  (∃ b, (.timer rid n, b) ∈ stamped s ∧ b ≤ t0 + period + 2 * slack) ∨
  (∃ b, (.timeoutWrite rid n, b) ∈ stamped s ∧ b ≤ t0 + 2 * period + 3 * slack)

theorem mem_eraseIdx_or {α : Type} {l : List α} {x : α} {k : Nat} {y : α} (hy : l[k]? = some y) (hx : x ∈ l) :
    x ∈ l.eraseIdx k ∨ x = y := by
  induction l generalizing k with
  | nil => cases hx
  | cons z l ih =>
    cases k with
    | zero =>
      cases hy
      rcases List.mem_cons.1 hx with rfl | hx
      · exact .inr rfl
      · exact .inl hx
    | succ k =>
      rcases List.mem_cons.1 hx with rfl | hx
      · exact .inl (List.mem_cons_self ..)
      · rcases ih hy hx with h | h
        · exact .inl (List.mem_cons_of_mem _ h)
        · exact .inr h

/-- A task in flight is still there after a step, or it was resumed by it. -/
theorem stamped_keeps (period : Nat) (acts : List (Timed.Act T)) (a : Timed.Act T) (q : Pending T × Nat)
    (hq : q ∈ stamped (State.start.run period acts)) :
    q ∈ stamped (State.start.run period (acts ++ [a])) ∨
    ∃ k ans ok, a = .act (.resume k ans ok) ∧ (State.start.run period acts).runs.pending[k]? = some q.1 ∧
      (q.1.writes = true → (State.start.run period acts).runs.readLocked q.1.rid = false) ∧
      (State.start.run period (acts ++ [a])).runs = (State.start.run period acts).runs.step (.resume k ans ok) ∧
      stamped (State.start.run period (acts ++ [a])) = (stamped (State.start.run period acts)).eraseIdx k ++
        (contEff ((State.start.run period acts).runs.get q.1.rid) ans ok q.1).next.map
          (fun p => (p, (State.start.run period acts).now)) := by
  cases a with
  | tick d => rw [run_concat]; exact .inl hq
  | act a =>
    obtain ⟨hm, -, -⟩ := step_moves period _ a (good period acts).len
    rw [← run_concat] at hm
    cases hm with
    | same h => rw [h]; exact .inl hq
    | call _ _ _ _ _ h => rw [h]; exact .inl (List.mem_append_left _ hq)
    | resume k ans ok p b ha hp hk hlock _ hstep happ h =>
      rcases mem_eraseIdx_or hk hq with hq' | rfl
      · rw [h]; exact .inl (List.mem_append_left _ hq')
      · subst ha
        exact .inr ⟨k, ans, ok, rfl, hp, hlock, hstep, h⟩

theorem new_is_stamped {period : Nat} {acts : List (Timed.Act T)} {a : Timed.Act T} {k : Nat} {ans : RemoteAns} {ok : Bool}
    {p x : Pending T}
    (h : stamped (State.start.run period (acts ++ [a])) = (stamped (State.start.run period acts)).eraseIdx k ++
        (contEff ((State.start.run period acts).runs.get p.rid) ans ok p).next.map
          (fun p => (p, (State.start.run period acts).now)))
    (hx : x ∈ (contEff ((State.start.run period acts).runs.get p.rid) ans ok p).next) :
    (x, (State.start.run period acts).now) ∈ stamped (State.start.run period (acts ++ [a])) := by
  rw [h]
  exact List.mem_append_right _ (List.mem_map.2 ⟨x, hx, rfl⟩)

/-- What a timer that fires leads to, for a run that goes on. -/
theorem timer_next (ras : List (RunsAct T)) (rid : RunId) (last : Nat) (ans : RemoteAns) (ok : Bool)
    (hg : phaseOf (Runs.init.run ras : Runs T) rid = some .waiting ∨ phaseOf (Runs.init.run ras : Runs T) rid = some .serving) :
    .timeoutWrite rid last ∈ (contEff ((Runs.init.run ras : Runs T).get rid) ans ok (.timer rid last)).next ∨
    .timer rid (handedOut rid (Runs.init.run ras : Runs T).events).length ∈
      (contEff ((Runs.init.run ras : Runs T).get rid) ans ok (.timer rid last)).next ∧
      last < (handedOut rid (Runs.init.run ras : Runs T).events).length := by
  have hh := (hist_run ras rid (T := T)).st
  have hwf := (base_run ras rid (T := T)).st
  have hho : handedOut rid (proj (Runs.init.run ras : Runs T) rid).evs = handedOut rid (Runs.init.run ras : Runs T).events :=
    handedOut_filter _ _
  obtain ⟨s, hs⟩ : ∃ s, (Runs.init.run ras : Runs T).get rid = some s := by
    rcases hg with hg | hg <;> exact ⟨_, (phaseOf_some hg).choose_spec.1⟩
  have hL : (proj (Runs.init.run ras : Runs T) rid).s = some s := hs
  rw [hL] at hh hwf
  rw [hs]
  cases s with
  | waiting => left; simp [contEff, timerEff, RunState.progress]
  | done => exfalso; unfold phaseOf at hg; rw [hs] at hg; rcases hg with hg | hg <;> cases hg
  | cancelled => exfalso; unfold phaseOf at hg; rw [hs] at hg; rcases hg with hg | hg <;> cases hg
  | hasWork q b md act h =>
    obtain ⟨flat, hf⟩ := hh
    have hlen := hf.handed_length hwf.2
    rw [hho] at hlen
    rw [hlen]
    by_cases hgt : q.ptr > last
    · right; simp [contEff, timerEff, RunState.progress, rearm, JobQueue.readIndex, hgt]
    · left; simp [contEff, timerEff, RunState.progress, JobQueue.readIndex, hgt]

theorem stage_step {period slack t0 n : Nat} {rid : RunId} {acts : List (Timed.Act T)} {a : Timed.Act T}
    (hpr : ∀ p b, (p, b) ∈ stamped (State.start.run period acts) →
      (∀ rid last, p = .timer rid last → (State.start.run period acts).now ≤ b + period + slack) ∧
      (∀ rid last, p = .timeoutWrite rid last → (State.start.run period acts).now ≤ b + slack))
    (hn : handed (State.start.run period acts) rid = n)
    (hg : Going (State.start.run period acts) rid) (hg' : Going (State.start.run period (acts ++ [a])) rid)
    (h : Stage period slack t0 rid n (State.start.run period acts)) :
    Stage period slack t0 rid n (State.start.run period (acts ++ [a])) := by
  obtain ⟨ras, hr⟩ := (good period acts).reach
  have hgr := hg
  unfold Going at hgr
  rw [hr] at hgr
  -- a timer that fires
  have fires : ∀ last b, (Pending.timer rid last, b) ∈ stamped (State.start.run period acts) →
      (Pending.timer rid last, b) ∈ stamped (State.start.run period (acts ++ [a])) ∨
      (Pending.timeoutWrite rid last, (State.start.run period acts).now) ∈ stamped (State.start.run period (acts ++ [a])) ∨
      (Pending.timer rid n, (State.start.run period acts).now) ∈ stamped (State.start.run period (acts ++ [a])) ∧ last < n := by
    intro last b hq
    rcases stamped_keeps period acts a _ hq with h | ⟨k, ans, ok, -, -, -, -, hst⟩
    · exact .inl h
    · right
      have hx := timer_next ras rid last ans ok hgr
      rw [← hr] at hx
      rcases hx with hx | ⟨hx, hlt⟩
      · exact .inl (new_is_stamped (p := .timer rid last) hst hx)
      · have hn' : (handedOut rid (State.start.run period acts).runs.events).length = n := hn
        rw [hn'] at hx hlt
        exact .inr ⟨new_is_stamped (p := .timer rid last) hst hx, hlt⟩
  -- its handler
  have writes : ∀ last b, (Pending.timeoutWrite rid last, b) ∈ stamped (State.start.run period acts) →
      (Pending.timeoutWrite rid last, b) ∈ stamped (State.start.run period (acts ++ [a])) ∨
      (Pending.timer rid n, (State.start.run period acts).now) ∈ stamped (State.start.run period (acts ++ [a])) ∧ last < n := by
    intro last b hq
    rcases stamped_keeps period acts a _ hq with h | ⟨k, ans, ok, -, hp, hlock, hstep, hst⟩
    · exact .inl h
    · right
      rw [hr] at hp hlock hstep
      have hd := C15_timeout_decides ras k ans ok rid last hp (hlock rfl)
      have hsrv : phaseOf (Runs.init.run ras : Runs T) rid = some .serving ∧ last < n := by
        rcases hgr with hw | hw
        · exfalso
          rw [hw] at hd
          dsimp only at hd
          unfold Going at hg'
          rw [hstep, hd.1] at hg'
          rcases hg' with h | h <;> cases h
        · refine ⟨hw, ?_⟩
          rw [hw] at hd
          dsimp only at hd
          unfold Going at hg'
          rw [hstep, hd.1] at hg'
          have hn' : (handedOut rid (Runs.init.run ras : Runs T).events).length = n := by rw [← hr]; exact hn
          rw [hn'] at hg'
          by_cases hlt : n > last
          · exact hlt
          · rw [if_neg hlt] at hg'
            rcases hg' with h | h <;> cases h
      refine ⟨?_, hsrv.2⟩
      obtain ⟨s, hs, hph⟩ := phaseOf_some hsrv.1
      have hs' : (State.start.run period acts).runs.get rid = some s := by rw [hr]; exact hs
      refine new_is_stamped (p := .timeoutWrite rid last) hst ?_
      show _ ∈ (contEff ((State.start.run period acts).runs.get rid) ans ok (.timeoutWrite rid last)).next
      rw [hs']
      have hh := (hist_run ras rid (T := T)).st
      have hwf := (base_run ras rid (T := T)).st
      have hL : (proj (Runs.init.run ras : Runs T) rid).s = some s := hs
      rw [hL] at hh hwf
      cases s with
      | hasWork q b md act h =>
        obtain ⟨flat, hf⟩ := hh
        have hlen := hf.handed_length hwf.2
        have hho : handedOut rid (proj (Runs.init.run ras : Runs T) rid).evs =
          handedOut rid (Runs.init.run ras : Runs T).events := handedOut_filter _ _
        rw [hho] at hlen
        have hq : q.ptr = n := by
          rw [← hlen, ← hr]; exact hn
        have hgt : q.ptr > last := by rw [hq]; exact hsrv.2
        simp [contEff, RunState.timeoutWrite, RunState.progress, rearm, JobQueue.readIndex, hgt]
        exact .inl hq.symm
      | _ => cases hph
  rcases h with ⟨last, b, hq, hb⟩ | ⟨last, b, hq, hb⟩ | ⟨b, hq, hb⟩ | ⟨b, hq, hb⟩
  · have hnow := (hpr _ _ hq).1 _ _ rfl
    rcases fires last b hq with h | h | ⟨h, -⟩
    · exact .inl ⟨last, b, h, hb⟩
    · exact .inr (.inl ⟨last, _, h, by omega⟩)
    · exact .inr (.inr (.inl ⟨_, h, by omega⟩))
  · have hnow := (hpr _ _ hq).2 _ _ rfl
    rcases writes last b hq with h | ⟨h, -⟩
    · exact .inr (.inl ⟨last, b, h, hb⟩)
    · exact .inr (.inr (.inl ⟨_, h, by omega⟩))
  · have hnow := (hpr _ _ hq).1 _ _ rfl
    rcases fires n b hq with h | h | ⟨-, h⟩
    · exact .inr (.inr (.inl ⟨b, h, hb⟩))
    · exact .inr (.inr (.inr ⟨_, h, by omega⟩))
    · omega
  · rcases writes n b hq with h | ⟨-, h⟩
    · exact .inr (.inr (.inr ⟨b, h, hb⟩))
    · omega

/-- **C93.** A run that is stuck is cancelled: if the queue is never behind with its timers by more than `slack`, then a run
that is waiting for its manifest or handing out tests at some time has, by two periods (and four times the slack) later,
handed out another test, or been cancelled, or come to its end. -/
theorem C93_stuck_is_cancelled (period slack : Nat) (acts more : List (Timed.Act T)) (rid : RunId)
    (hpr : Prompt period slack (acts ++ more)) (hg : Going (State.start.run period acts) rid)
    (htime : (State.start.run period acts).now + 2 * period + 4 * slack < (State.start.run period (acts ++ more)).now) :
    handed (State.start.run period acts) rid < handed (State.start.run period (acts ++ more)) rid ∨
    phaseOf (State.start.run period (acts ++ more)).runs rid = some .cancelled ∨
    phaseOf (State.start.run period (acts ++ more)).runs rid = some .exhausted := by
  have hpre : acts <+: acts ++ more := List.prefix_append ..
  by_cases hh : handed (State.start.run period acts) rid < handed (State.start.run period (acts ++ more)) rid
  · exact .inl hh
  right
  -- it goes on, or is where it is claimed to be
  have hphase : Going (State.start.run period (acts ++ more)) rid ∨
      phaseOf (State.start.run period (acts ++ more)).runs rid = some .cancelled ∨
      phaseOf (State.start.run period (acts ++ more)).runs rid = some .exhausted := by
    obtain ⟨ras, ras', h1, h2⟩ := reach_prefix period _ _ hpre
    unfold Going at hg ⊢
    rw [h1] at hg
    rw [h2]
    obtain ⟨p, hp⟩ : ∃ p, phaseOf (Runs.init.run ras : Runs T) rid = some p := by
      rcases hg with hg | hg <;> exact ⟨_, hg⟩
    obtain ⟨p', h3, -⟩ := C09_phases_only_move_forward ras ras' rid p hp
    cases p' with
    | waiting => exact .inl (.inl h3)
    | serving => exact .inl (.inr h3)
    | cancelled => exact .inr (.inl h3)
    | exhausted => exact .inr (.inr h3)
  refine hphase.resolve_left fun hgo => ?_
  have hn : handed (State.start.run period (acts ++ more)) rid = handed (State.start.run period acts) rid :=
    Nat.le_antisymm (by omega) (handed_mono' period _ _ hpre rid)
  -- at all times between it goes on, and nothing is handed out
  have mid : ∀ pre, acts <+: pre → pre <+: acts ++ more → Going (State.start.run period pre) rid ∧
      handed (State.start.run period pre) rid = handed (State.start.run period acts) rid := by
    intro pre h1 h2
    refine ⟨going_before period pre _ h2 rid ?_ hgo, ?_⟩
    · obtain ⟨ras, ras', e1, e2⟩ := reach_prefix period _ _ h1
      unfold Going at hg
      rw [e1] at hg
      rw [e2]
      obtain ⟨p, hp⟩ : ∃ p, phaseOf (Runs.init.run ras : Runs T) rid = some p := by
        rcases hg with hg | hg <;> exact ⟨_, hg⟩
      obtain ⟨p', h3, -⟩ := C09_phases_only_move_forward ras ras' rid p hp
      rw [h3]; simp
    · have := handed_mono' period _ _ h1 rid
      have := handed_mono' period _ _ h2 rid
      omega
  have stage : ∀ post, acts ++ post <+: acts ++ more →
      Stage period slack (State.start.run period acts).now rid (handed (State.start.run period acts) rid)
        (State.start.run period (acts ++ post)) := by
    intro post
    induction post using snoc_induction with
    | nil =>
      intro _
      rw [List.append_nil]
      have hgd := good period acts
      obtain ⟨ras, hr⟩ := hgd.reach
      have hg0 := hg
      unfold Going at hg0
      rw [hr] at hg0
      obtain ⟨p, hp, ht⟩ := C54_timer_always_armed ras rid hg0
      rw [← hr] at hp
      obtain ⟨b, hb⟩ := pending_stamped hgd.len hp
      have hle := hgd.past _ hb
      cases p with
      | timer r last =>
        have : r = rid := by simpa [timerOf] using ht
        subst this
        exact .inl ⟨last, b, hb, hle⟩
      | timeoutWrite r last =>
        have : r = rid := by simpa [timerOf] using ht
        subst this
        exact .inr (.inl ⟨last, b, hb, Nat.le_trans hle (by omega)⟩)
      | _ => cases ht
    | snoc post a ih =>
      intro hp
      have hp0 : acts ++ post <+: acts ++ more := by
        refine List.IsPrefix.trans ?_ hp
        rw [← List.append_assoc]
        exact List.prefix_append ..
      rw [← List.append_assoc] at hp ⊢
      obtain ⟨g1, n1⟩ := mid (acts ++ post) (List.prefix_append ..) hp0
      obtain ⟨g2, -⟩ := mid (acts ++ post ++ [a]) (by rw [List.append_assoc]; exact List.prefix_append ..) hp
      exact stage_step (hpr (acts ++ post) hp0) n1 g1 g2 (ih hp0)
  have hfin := hpr (acts ++ more) (List.prefix_refl _)
  rcases stage more (List.prefix_refl _) with ⟨last, b, hq, hb⟩ | ⟨last, b, hq, hb⟩ | ⟨b, hq, hb⟩ | ⟨b, hq, hb⟩
  · have := (hfin _ _ hq).1 _ _ rfl; omega
  · have := (hfin _ _ hq).2 _ _ rfl; omega
  · have := (hfin _ _ hq).1 _ _ rfl; omega
  · have := (hfin _ _ hq).2 _ _ rfl; omega

/-- The sample run with a clock: both tests are served to nobody, and the timer fires after an hour. -/
def timedStuck : List (Timed.Act Nat) := (Sample.serving.map .act) ++ [.tick 3599, .act (.resume 0 .notFound true)]

def timedCancelled : List (Timed.Act Nat) :=
  (Sample.serving.map .act) ++ [.tick 3600, .act (.resume 0 .notFound true), .act (.resume 0 .notFound true)]

example : phaseOf (State.start.run runBased timedStuck).runs "run" = some .serving := rfl
example : stamped (State.start.run runBased timedStuck) = [(.timer "run" 0, 0)] := rfl
example : phaseOf (State.start.run runBased timedCancelled).runs "run" = some .cancelled := rfl
example : handed (State.start.run runBased timedCancelled) "run" = 0 := rfl

/-- A test is handed out within the hour: the timer is set again. -/
example : stamped (State.start.run runBased ((Sample.serving.map .act) ++
    [.tick 3000, .act (.request "run" (.nextWork (Sample.w 1))), .act (.resume 1 .notFound true), .tick 700,
      .act (.resume 0 .notFound true)])) =
    [(.respond "run" (Sample.w 1) [⟨10, 1⟩] false none, 3000), (.timer "run" 1, 3700)] := rfl

/-- Whether no timer is overdue. -/
def promptAt (period slack : Nat) (s : State Nat) : Bool :=
  (stamped s).all fun q => match q.1 with
    | .timer _ _ => s.now ≤ q.2 + period + slack
    | .timeoutWrite _ _ => s.now ≤ q.2 + slack
    | _ => true

theorem prompt_of (period slack : Nat) (acts : List (Timed.Act Nat))
    (h : (List.range (acts.length + 1)).all (fun n => promptAt period slack (State.start.run period (acts.take n))) = true) :
    Prompt period slack acts := by
  intro pre hpre p b hq
  have hn : pre.length ∈ List.range (acts.length + 1) := List.mem_range.2 (Nat.lt_succ_of_le hpre.length_le)
  have h1 := List.all_eq_true.1 h _ hn
  rw [← List.prefix_iff_eq_take.1 hpre] at h1
  have h2 := List.all_eq_true.1 h1 _ hq
  exact ⟨fun rid last e => by subst e; simpa using h2, fun rid last e => by subst e; simpa using h2⟩

set_option maxRecDepth 20000 in
/-- The hypotheses of `C93_stuck_is_cancelled`: the sample run hands out nothing for two hours, and is cancelled. -/
example : Prompt runBased 0 (timedCancelled ++ [.tick 3601] : List (Timed.Act Nat)) ∧
    Going (State.start.run runBased (Sample.serving.map Timed.Act.act : List (Timed.Act Nat))) "run" ∧
    (State.start.run runBased (Sample.serving.map Timed.Act.act : List (Timed.Act Nat))).now + 2 * runBased + 4 * 0 <
      (State.start.run runBased (timedCancelled ++ [.tick 3601])).now :=
  ⟨prompt_of _ _ _ (by decide), .inr rfl, by decide⟩

/-! ## C94 -/

theorem inserted_cons {F : Type} (s : Manager F) (a : ManagerAct F) (acts : List (ManagerAct F)) :
    inserted s (a :: acts) = inserted s [a] ++ inserted (s.step a) acts := by
  cases a <;> simp [inserted]

theorem perm_eraseIdx {α : Type} {l : List α} {k : Nat} {y : α} (hy : l[k]? = some y) : l.Perm (y :: l.eraseIdx k) := by
  induction l generalizing k with
  | nil => cases hy
  | cons z l ih =>
    cases k with
    | zero => cases hy; exact List.Perm.refl _
    | succ k => exact ((ih hy).cons z).trans (List.Perm.swap ..)

theorem manager_perm_step {F : Type} (s : Manager F) (a : ManagerAct F) :
    ((s.step a).fired.map Prod.snd ++ (s.step a).cells.map Prod.snd).Perm
      (s.fired.map Prod.snd ++ s.cells.map Prod.snd ++ (inserted s [a]).map Prod.snd) := by
  obtain ⟨now, cells, holding, fired⟩ := s
  cases a with
  | tick d => simp [Manager.step, inserted]
  | insert d x => cases holding <;> simp [Manager.step, inserted]
  | lock => cases holding <;> simp [Manager.step, inserted]
  | poll j =>
    simp only [inserted, List.map_nil, List.append_nil]
    unfold Manager.step
    dsimp only
    split
    · rename_i hc
      split
      · dsimp only
        have hp := perm_eraseIdx hc
        rw [List.map_append, List.append_assoc]
        refine List.Perm.append_left _ ?_
        exact (hp.map Prod.snd).symm
      · exact List.Perm.refl _
    · exact List.Perm.refl _
  | pollSleep =>
    simp only [inserted, List.map_nil, List.append_nil]
    unfold Manager.step
    dsimp only
    cases holding with
    | none => exact List.Perm.refl _
    | some t => dsimp only; split <;> exact List.Perm.refl _
  | drop => simp [Manager.step, inserted]

theorem manager_invariant {F : Type} (s : Manager F) (acts : List (ManagerAct F)) :
    ((s.run acts).fired.map Prod.snd ++ (s.run acts).cells.map Prod.snd).Perm
      (s.fired.map Prod.snd ++ s.cells.map Prod.snd ++ (inserted s acts).map Prod.snd) := by
  induction acts generalizing s with
  | nil => simp [Manager.run, inserted]
  | cons a acts ih =>
    refine (ih (s.step a)).trans ?_
    rw [inserted_cons, List.map_append, ← List.append_assoc]
    exact (manager_perm_step s a).append_right _

/-- **C94.** No timer is lost and none fires twice: at every time, whatever was set has fired once or is still set, no matter
how often waiting for timers was given up for something else. -/
theorem C94_once {F : Type} (acts : List (ManagerAct F)) :
    ((Manager.new.run acts).fired.map Prod.snd ++ (Manager.new.run acts).cells.map Prod.snd).Perm
      ((inserted Manager.new acts).map Prod.snd) := manager_invariant Manager.new acts

theorem manager_due {F : Type} (s : Manager F) (acts : List (ManagerAct F)) (all : List (Nat × F))
    (hc : ∀ p ∈ s.cells, p ∈ all) (hf : ∀ t x, (t, x) ∈ s.fired → ∃ due, (due, x) ∈ all ∧ due ≤ t) :
    (∀ p ∈ (s.run acts).cells, p ∈ all ++ inserted s acts) ∧
    ∀ t x, (t, x) ∈ (s.run acts).fired → ∃ due, (due, x) ∈ all ++ inserted s acts ∧ due ≤ t := by
  induction acts generalizing s all with
  | nil => simpa [Manager.run, inserted] using ⟨fun a b h => hc (a, b) h, hf⟩
  | cons a acts ih =>
    show (∀ p ∈ ((s.step a).run acts).cells, _) ∧ ∀ t x, (t, x) ∈ ((s.step a).run acts).fired → _
    cases a with
    | insert d x =>
      rw [inserted_cons, ← List.append_assoc]
      have hins : inserted s [.insert d x] = if s.holding = none then [(s.now + d, x)] else [] := by simp [inserted]
      rw [hins]
      apply ih
      · unfold Manager.step
        dsimp only
        cases s.holding with
        | none =>
          intro p hp
          rcases List.mem_append.1 hp with hp | hp
          · exact List.mem_append_left _ (hc p hp)
          · exact List.mem_append_right _ (by simpa using hp)
        | some t => exact fun p hp => List.mem_append_left _ (hc p hp)
      · unfold Manager.step
        dsimp only
        intro t y hy
        have : (t, y) ∈ s.fired := by
          revert hy
          cases s.holding <;> exact id
        obtain ⟨due, h1, h2⟩ := hf t y this
        exact ⟨due, List.mem_append_left _ h1, h2⟩
    | tick d => exact ih _ all hc hf
    | drop => exact ih _ all hc hf
    | lock =>
      refine ih _ all ?_ ?_ <;> unfold Manager.step <;> dsimp only <;> cases s.holding <;> assumption
    | pollSleep =>
      refine ih _ all ?_ ?_ <;> unfold Manager.step <;> dsimp only <;> cases s.holding <;> dsimp only <;>
        first | assumption | (split <;> assumption)
    | poll j =>
      refine ih _ all ?_ ?_
      · unfold Manager.step
        dsimp only
        split
        · split
          · exact fun p hp => hc p (List.mem_of_mem_eraseIdx hp)
          · exact hc
        · exact hc
      · unfold Manager.step
        dsimp only
        split
        · rename_i t due x hh hcell
          split
          · rename_i hdue
            intro t' y hy
            rcases List.mem_append.1 hy with hy | hy
            · exact hf t' y hy
            · rw [List.mem_singleton] at hy
              cases hy
              exact ⟨due, hc _ (List.mem_of_getElem? hcell), hdue⟩
          · exact hf
        · exact hf

/-- **C94.** No timer fires before its time. -/
theorem C94_not_early {F : Type} (acts : List (ManagerAct F)) (t : Nat) (x : F)
    (h : (t, x) ∈ (Manager.new.run acts).fired) : ∃ due, (due, x) ∈ inserted Manager.new acts ∧ due ≤ t := by
  have := (manager_due Manager.new acts [] (fun p hp => hp) (fun t x hx => absurd hx List.not_mem_nil)).2 t x h
  simpa using this

/-- **C94.** A timer that is due is found by the next poll, if waiting for timers is allowed to go on. -/
theorem C94_found {F : Type} (acts : List (ManagerAct F)) (j due : Nat) (x : F)
    (hc : (Manager.new.run acts).cells[j]? = some (due, x)) (hdue : due ≤ (Manager.new.run acts).now) :
    (Manager.new.run (acts ++ [.lock, .poll j])).fired =
      (Manager.new.run acts).fired ++ [((Manager.new.run acts).now, x)] := by
  have hrun : (Manager.new.run (acts ++ [.lock, .poll j]) : Manager F) =
      ((Manager.new.run acts).step .lock).step (.poll j) := List.foldl_append ..
  rw [hrun]
  generalize (Manager.new.run acts : Manager F) = s at hc hdue
  obtain ⟨now, cells, holding, fired⟩ := s
  dsimp only at hc hdue
  cases holding with
  | none => simp [Manager.step, hc, hdue]
  | some t => simp [Manager.step, hc, hdue]

/-- **C94.** Waiting for timers keeps nobody from setting one: the lock is let go of after 10 microseconds at the latest. -/
theorem C94_lets_in {F : Type} (acts : List (ManagerAct F)) (t : Nat) (h : (Manager.new.run acts).holding = some t) :
    t ≤ (Manager.new.run acts).now + 10 ∧
    (t ≤ (Manager.new.run acts).now → (Manager.new.run (acts ++ [.pollSleep])).holding = none) := by
  have key : ∀ acts : List (ManagerAct F), ∀ t, (Manager.new.run acts).holding = some t →
      t ≤ (Manager.new.run acts).now + 10 := by
    intro acts
    induction acts using snoc_induction with
    | nil => intro t h; cases h
    | snoc acts a ih =>
      have hrun : (Manager.new.run (acts ++ [a]) : Manager F) = (Manager.new.run acts).step a := List.foldl_append ..
      rw [hrun]
      generalize (Manager.new.run acts : Manager F) = s at ih
      intro t h
      cases a with
      | tick d => have := ih t h; show t ≤ s.now + d + _; omega
      | insert d x =>
        unfold Manager.step at h ⊢
        dsimp only at h ⊢
        cases hh : s.holding with
        | none => rw [hh] at h; cases h
        | some t' => rw [hh] at h; dsimp only at h ⊢; exact ih t h
      | lock =>
        unfold Manager.step at h ⊢
        dsimp only at h ⊢
        cases hh : s.holding with
        | none => rw [hh] at h; cases h; exact Nat.le_refl _
        | some t' => rw [hh] at h; dsimp only at h ⊢; exact ih t h
      | poll j =>
        revert h
        unfold Manager.step
        dsimp only
        split
        · split
          · intro h; cases h
          · exact ih t
        · exact ih t
      | pollSleep =>
        revert h
        unfold Manager.step
        dsimp only
        split
        · split
          · intro h; cases h
          · exact ih t
        · exact ih t
      | drop => cases h
  refine ⟨key acts t h, ?_⟩
  intro hle
  have hrun : (Manager.new.run (acts ++ [.pollSleep]) : Manager F) = (Manager.new.run acts).step .pollSleep := List.foldl_append ..
  rw [hrun]
  unfold Manager.step
  dsimp only
  rw [h]
  dsimp only
  rw [if_pos hle]

/-- Two timers; waiting is given up once in between. -/
def managerActs : List (ManagerAct String) :=
  [.insert 5 "a", .insert 3 "b", .lock, .tick 4, .drop, .lock, .poll 0, .poll 1, .lock, .poll 0, .tick 10, .poll 0]

example : (Manager.new.run managerActs).fired = [(4, "b"), (14, "a")] := rfl
example : inserted Manager.new managerActs = [(5, "a"), (3, "b")] := rfl

end Abq.Props
