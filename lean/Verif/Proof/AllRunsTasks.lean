import Verif.Proof.AllRunsFacts

/-! # Timers, persistence tasks and deliveries of a run -/

namespace Abq.Runs
open Spec
variable {T : Type}

/-! ## Timers -/

/-- The position a timer remembers. -/
def timerLast : Pending T → Option Nat
  | .timer _ last => some last
  | .timeoutWrite _ last => some last
  | _ => none

/-- Waiting for a manifest or serving tests. -/
def IsActive : Option (RunState T) → Prop
  | some (.waiting ..) => True
  | some (.hasWork ..) => True
  | _ => False

structure Timers (rid : RunId) (L : Loc T) : Prop where
  le : ∀ p ∈ L.ps, ∀ n, timerLast p = some n → n ≤ (handedOut rid L.evs).length
  armed : IsActive L.s → ∃ p ∈ L.ps, (timerLast p).isSome = true

theorem exec_isActive (rid : RunId) (s : RunState T) (r : Req T)
    (h : IsActive (exec rid s r).state) : IsActive (some s) := by
  cases s with
  | waiting => trivial
  | hasWork => trivial
  | done x md seen m hh =>
    exfalso
    cases r <;> simp only [exec, RunState.addManifest, RunState.manifestFailed, RunState.emptyManifest,
      RunState.initMetadata, RunState.pull, RunState.retryManifest, RunState.complete,
      RunState.cancel, IsActive] at h
    case initMetadata e => cases hc : seen.containsByTag e <;> simp [hc] at h
    case retryManifest => revert h; cases m with | cell b => cases b <;> simp | emptyManifest => simp
  | cancelled c =>
    exfalso
    cases r <;> simp [exec, RunState.addManifest, RunState.manifestFailed, RunState.emptyManifest,
      RunState.initMetadata, RunState.pull, RunState.retryManifest, RunState.complete,
      RunState.cancel, IsActive] at h

theorem exec_no_timer (rid : RunId) (s : RunState T) (r : Req T) :
    ∀ p ∈ (exec rid s r).next, timerLast p = none := by
  cases r <;> simp only [exec, subIf]
  case nextWork e => split <;> simp [timerLast]
  all_goals first
    | (split <;> simp [timerLast])
    | simp

theorem handed_mono {rid : RunId} {L L' : Loc T} (hb : Base L) (hs : LStep rid L L') :
    (handedOut rid L.evs).length ≤ (handedOut rid L'.evs).length := by
  obtain ⟨evs, -, h⟩ := hs.step1 hb
  rw [h, handedOut_append, List.length_append]
  omega

theorem timers_step {rid : RunId} {L L' : Loc T} (hb : Base L) (hh : Hist rid L)
    (h : Timers rid L) (hs : LStep rid L L') : Timers rid L' := by
  have hmono := handed_mono hb hs
  have hkeep : ∀ p ∈ L.ps, ∀ n, timerLast p = some n → n ≤ (handedOut rid L'.evs).length :=
    fun p hp n hn => Nat.le_trans (h.le p hp n hn) hmono
  cases hs with
  | join p hp =>
    simp only [Loc.app] at hkeep ⊢
    cases hL : L.s with
    | none =>
      refine ⟨?_, ?_⟩
      · intro q hq n hn
        simp only [joinEff, List.mem_append, List.mem_singleton] at hq
        rcases hq with hq | rfl
        · have := hkeep q hq n hn
          rw [hL] at this
          exact this
        · cases hn
      · intro hact; simp [joinEff, IsActive] at hact
    | some s =>
      refine ⟨?_, ?_⟩
      · intro q hq n hn
        simp only [joinEff, List.mem_append, List.mem_singleton] at hq
        rcases hq with hq | rfl
        · have := hkeep q hq n hn
          rw [hL] at this
          exact this
        · cases hn
      · intro hact
        obtain ⟨q, hq, hq'⟩ := h.armed (by rw [hL]; simpa [joinEff] using hact)
        exact ⟨q, List.mem_append_left _ hq, hq'⟩
  | req r hr =>
    have hno : ∀ p ∈ (reqEff rid L.s r).next, timerLast p = none := by
      cases L.s with
      | none => simp [reqEff]
      | some s => exact exec_no_timer rid s r
    refine ⟨?_, ?_⟩
    · intro p hp n hn
      rcases List.mem_append.1 hp with hp | hp
      · exact hkeep p hp n hn
      · rw [hno p hp] at hn; cases hn
    · intro hact
      have : IsActive L.s := by
        cases hL : L.s with
        | none => rw [hL] at hact; exact hact.elim
        | some s =>
          simp only [Loc.app, hL, reqEff] at hact
          exact exec_isActive rid s r hact
      obtain ⟨q, hq, hq'⟩ := h.armed this
      exact ⟨q, List.mem_append_left _ hq, hq'⟩
  | cont p a b ans ok hp hm hr =>
    have hpo := hb.ps p (by rw [hm]; simp)
    have hin : ∀ q, q ∈ a ++ b → q ∈ L.ps := by
      intro q hq
      rw [hm]
      rcases List.mem_append.1 hq with hq | hq
      · exact List.mem_append_left _ hq
      · exact List.mem_append_right _ (List.mem_cons_of_mem _ hq)
    have hout : ∀ q, q ∈ L.ps → q = p ∨ q ∈ a ++ b := by
      intro q hq
      rw [hm] at hq
      simp only [List.mem_append, List.mem_cons] at hq ⊢
      rcases hq with hq | hq | hq
      · exact Or.inr (Or.inl hq)
      · exact Or.inl hq
      · exact Or.inr (Or.inr hq)
    -- what the continuation leaves behind
    suffices hx : (∀ q ∈ (contEff L.s ans ok p).next, ∀ n, timerLast q = some n →
          n ≤ (handedOut rid L.evs).length) ∧
        (IsActive (contEff L.s ans ok p).state → (timerLast p).isSome = true ∨ ¬ IsActive L.s →
          ∃ q ∈ (contEff L.s ans ok p).next, (timerLast q).isSome = true) by
      refine ⟨?_, ?_⟩
      · intro q hq n hn
        simp only [Loc.app] at hq
        rcases List.mem_append.1 hq with hq | hq
        · exact hkeep q (hin q hq) n hn
        · exact Nat.le_trans (hx.1 q hq n hn) hmono
      · intro hact
        simp only [Loc.app] at hact ⊢
        by_cases hc : (timerLast p).isSome = true ∨ ¬ IsActive L.s
        · obtain ⟨q, hq, hq'⟩ := hx.2 hact hc
          exact ⟨q, List.mem_append_right _ hq, hq'⟩
        · rw [not_or, Classical.not_not] at hc
          obtain ⟨q, hq, hq'⟩ := h.armed hc.2
          rcases hout q hq with rfl | hq
          · exact absurd hq' hc.1
          · exact ⟨q, List.mem_append_left _ hq, hq'⟩
    have hle : ∀ s : RunState T, L.s = some s → ∀ last i, (s.progress last).1 = .newProgress i →
        i ≤ (handedOut rid L.evs).length := by
      intro s hL last i hi
      have hst := hb.st
      have hhs := hh.st
      rw [hL] at hst hhs
      cases s with
      | hasWork q b md act h =>
        obtain ⟨flat, hf⟩ := hhs
        rw [hf.handed_length hst.2]
        simp only [RunState.progress] at hi
        split at hi
        · cases hi; exact Nat.le_refl _
        · cases hi
      | _ => simp [RunState.progress] at hi
    cases p <;> simp only [contEff]
    case joinRemote p =>
      cases ans <;> cases hL : L.s <;>
        simp [loadRemote, createFresh, timerLast, IsActive, RunState.loaded]
      all_goals cases ‹RunState T› <;> simp
    case joinRead p =>
      cases hL : L.s with
      | none => exact absurd hL hpo
      | some s =>
        refine ⟨by simp, ?_⟩
        simp only [timerLast, Option.isSome_none, Bool.false_eq_true, false_or]
        cases s with
        | waiting => simp [IsActive]
        | hasWork => simp [IsActive]
        | done x md seen m h => simp only [RunState.join]; split <;> simp [IsActive]
        | cancelled => simp [RunState.join, IsActive]
    case pulled r e items =>
      split <;> simp [timerLast] <;> exact fun h h' => absurd h h'
    case markEnd r e items =>
      cases hL : L.s with
      | none => simp [IsActive]
      | some s =>
        cases s <;> simp [RunState.markEnd, subIf, timerLast, IsActive]
    case respond r e items eow plan =>
      split
      · cases plan <;> simp [planTasks, timerLast] <;> exact fun h h' => absurd h h'
      · simp [timerLast]
    case sub => simp [timerLast]
    case dumpManifest => split <;> simp [timerLast] <;> exact fun h h' => absurd h h'
    case setPersisted =>
      simp [timerLast]
      cases L.s with
      | none => simp [IsActive]
      | some s =>
        cases s with
        | done x md seen m h => cases m <;> simp [RunState.setPersisted, IsActive]
        | _ => simp [RunState.setPersisted, IsActive]
    case dumpState => split <;> simp [timerLast] <;> exact fun h h' => absurd h h'
    case timer r last =>
      cases hL : L.s with
      | none => simp [IsActive]
      | some s =>
        simp only [timerEff]
        have hl := h.le (.timer r last) (by rw [hm]; simp) last rfl
        split
        · refine ⟨?_, fun _ _ => ⟨.timeoutWrite r last, by simp, rfl⟩⟩
          intro q hq n hn
          simp only [List.mem_singleton] at hq
          subst hq
          simp only [timerLast, Option.some.injEq] at hn
          omega
        · rename_i hne
          refine ⟨?_, ?_⟩
          · intro q hq n hn
            unfold rearm at hq
            split at hq
            · rename_i i hi
              simp only [List.mem_singleton] at hq
              subst hq
              simp only [timerLast, Option.some.injEq] at hn
              subst hn
              exact hle s hL last _ hi
            · simp at hq
          · intro hact _
            cases s with
            | waiting => simp [RunState.progress] at hne
            | hasWork q b md act h =>
              simp only [RunState.progress] at hne ⊢
              split
              · exact ⟨.timer r q.readIndex, by simp [rearm], rfl⟩
              · rename_i hn
                rw [if_neg hn] at hne
                simp at hne
            | done => exact hact.elim
            | cancelled => exact hact.elim
    case timeoutWrite r last =>
      cases hL : L.s with
      | none => simp [IsActive]
      | some s =>
        refine ⟨?_, ?_⟩
        · intro q hq n hn
          simp only [List.mem_append] at hq
          rcases hq with hq | hq
          · unfold rearm at hq
            split at hq
            · rename_i i hi
              simp only [List.mem_singleton] at hq
              subst hq
              simp only [timerLast, Option.some.injEq] at hn
              subst hn
              refine hle s hL last _ ?_
              simp only [RunState.timeoutWrite] at hi
              split at hi <;> exact hi
            · simp at hq
          · unfold subIf at hq
            split at hq
            · simp only [List.mem_singleton] at hq
              subst hq; cases hn
            · simp at hq
        · intro hact _
          simp only [RunState.timeoutWrite] at hact ⊢
          split at hact
          · exact hact.elim
          · rename_i hne
            rw [if_neg hne]
            cases s with
            | waiting => simp [RunState.progress] at hne
            | hasWork q b md act h =>
              simp only [RunState.progress] at hne ⊢
              split
              · exact ⟨.timer r q.readIndex, by simp [rearm], rfl⟩
              · rename_i hn
                rw [if_neg hn] at hne
                simp at hne
            | done => exact hact.elim
            | cancelled => exact hact.elim

theorem timers_run (acts : List (RunsAct T)) (rid : RunId) :
    Timers rid (proj ((init : Runs T).run acts) rid) :=
  (init_proj_induction' (I := fun L => Hist rid L ∧ Timers rid L)
    ⟨⟨⟨rfl, rfl⟩, by simp [Loc.init], by simp [Loc.init], by simp [Loc.init]⟩,
      ⟨by simp [Loc.init], fun h => h.elim⟩⟩
    (fun _ _ hb h hs => ⟨hist_step hb h.1 hs, timers_step hb h.1 h.2 hs⟩) acts).2

end Abq.Runs
