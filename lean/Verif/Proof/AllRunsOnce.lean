import Verif.Proof.AllRunsPersist

/-! # There is at most one task persisting the manifest of a run -/

namespace Abq.Runs
open Spec
variable {T : Type}

/-- A task that will record the manifest as written. -/
def storing : Pending T → Bool
  | .respond _ _ _ _ (some _) => true
  | .dumpManifest .. => true
  | .setPersisted _ => true
  | _ => false

/-- At most one task, and only while the manifest is not recorded as written. -/
structure Once (L : Loc T) : Prop where
  one : L.ps.countP storing ≤ 1
  cell : 0 < L.ps.countP storing → CellIs false L.s

theorem cellIs_change {rid : RunId} {w : Bool} {evs : List (Event T)} {s s' : Option (RunState T)}
    (h : Change rid w s evs s') (hs : CellIs false s) : CellIs false s' ∨ CellIs true s' := by
  cases h with
  | refl => exact Or.inl hs
  | @seen x md seen seen' m h =>
    cases m with
    | cell b => cases b <;> simp_all [CellIs]
    | emptyManifest => simp [CellIs] at hs
  | persisted => exact Or.inr (by simp [CellIs])
  | _ => exact absurd hs (by simp [CellIs])

theorem storing_subIf (rid : RunId) (b : Bool) : (subIf rid b : List (Pending T)).countP storing = 0 := by
  unfold subIf; split <;> rfl

theorem storing_rearm (rid : RunId) (x : Progress) : (rearm rid x : List (Pending T)).countP storing = 0 := by
  unfold rearm; split <;> rfl

theorem exec_false (rid : RunId) {s : RunState T} {r : Req T} (h : CellIs false (some s)) :
    CellIs false (exec rid s r).state := by
  obtain ⟨w, hc, -⟩ := exec_change rid s r
  rcases cellIs_change hc h with h1 | h1
  · exact h1
  · have h2 := exec_cell h1
    cases s with
    | done x md seen m hh => cases m <;> simp_all [CellIs]
    | _ => exact h2.elim

theorem join_false {s : RunState T} {e : Entity} {h : String}
    (hc : CellIs false (some s)) : CellIs false (some (s.join e h).1) := by
  cases s with
  | done x md seen m hh => simp only [RunState.join]; split <;> exact hc
  | _ => exact hc.elim

theorem once_step {rid : RunId} {L L' : Loc T} (hb : Base L) (h : Once L) (hs : LStep rid L L') : Once L' := by
  cases hs with
  | join p hp =>
    have hx : (joinEff L.s p).state = L.s ∧ (joinEff L.s p).next.countP storing = 0 := by
      cases L.s <;> exact ⟨rfl, rfl⟩
    constructor <;> simp only [Loc.app, hx.1, List.countP_append, hx.2, Nat.add_zero]
    · exact h.one
    · exact h.cell
  | req r hr =>
    cases hL : L.s with
    | none =>
      constructor <;> simp only [Loc.app, reqEff, List.append_nil]
      · exact h.one
      · intro h1; have := h.cell h1; rwa [hL] at this
    | some s =>
      have hx : (exec rid s r).next.countP storing = 0 := by
        cases r <;> simp only [exec, storing_subIf] <;> first | rfl | (split <;> rfl)
      constructor <;> simp only [Loc.app, reqEff, List.countP_append, hx, Nat.add_zero]
      · exact h.one
      · intro h1
        have := h.cell h1
        rw [hL] at this
        exact exec_false rid this
  | cont p a b ans ok hp hm hr =>
    have hpo := hb.ps p (by rw [hm]; simp)
    have hn : L.ps.countP storing = (a ++ b).countP storing + if storing p then 1 else 0 := by
      rw [hm]; simp only [List.countP_append, List.countP_cons]; omega
    have h1 := h.one
    have h2 := h.cell
    rw [hn] at h1 h2
    suffices hx :
        ((contEff L.s ans ok p).next.countP storing ≤ (if storing p then 1 else 0) ∧
          (CellIs false L.s → CellIs false (contEff L.s ans ok p).state)) ∨
        (storing p = true ∧ (contEff L.s ans ok p).next.countP storing = 0) ∨
        (¬ CellIs false L.s ∧ (contEff L.s ans ok p).next.countP storing = 1 ∧
          CellIs false (contEff L.s ans ok p).state) by
      rcases hx with ⟨x1, x2⟩ | ⟨x1, x2⟩ | ⟨x1, x2, x3⟩
      · constructor <;> simp only [Loc.app, List.countP_append] at h1 h2 ⊢
        · omega
        · exact fun h3 => x2 (h2 (by omega))
      · rw [x1, if_pos rfl] at h1
        constructor <;> simp only [Loc.app, List.countP_append] at h1 ⊢ <;> omega
      · have h0 : (a ++ b).countP storing = 0 := by
          rcases Nat.eq_zero_or_pos ((a ++ b).countP storing) with h0 | h0
          · exact h0
          · exact absurd (h2 (by omega)) x1
        constructor <;> simp only [Loc.app, List.countP_append] at h0 ⊢
        · omega
        · exact fun _ => x3
    cases p <;> simp only [Pending.rid] at hp <;> simp only [contEff]
    case joinRemote p =>
      refine Or.inl ?_
      cases hL : L.s with
      | some s => cases ans <;> exact ⟨Nat.zero_le _, id⟩
      | none => cases ans <;> exact ⟨Nat.zero_le _, fun h => h.elim⟩
    case joinRead p =>
      refine Or.inl ?_
      cases hL : L.s with
      | some s => exact ⟨Nat.zero_le _, join_false⟩
      | none => exact ⟨Nat.zero_le _, id⟩
    case pulled r e items => refine Or.inl ?_; split <;> exact ⟨Nat.zero_le _, id⟩
    case markEnd r e items =>
      cases hL : L.s with
      | none => exact Or.inl ⟨Nat.zero_le _, id⟩
      | some s =>
        cases s with
        | hasWork q bb md act hh =>
          refine Or.inr (Or.inr ⟨fun h => h, ?_, ?_⟩)
          · simp only [List.countP_cons, storing_subIf]; rfl
          · simp [RunState.markEnd, CellIs]
        | _ =>
          refine Or.inl ⟨?_, id⟩
          simp only [List.countP_cons, storing_subIf]; exact Nat.le_refl _
    case respond r e items eow plan =>
      refine Or.inl ?_
      split
      · cases plan <;> exact ⟨Nat.le_refl _, id⟩
      · exact ⟨Nat.zero_le _, id⟩
    case sub => exact Or.inl ⟨Nat.le_refl _, id⟩
    case dumpManifest r v =>
      refine Or.inl ?_
      split
      · exact ⟨Nat.le_refl _, id⟩
      · exact ⟨Nat.zero_le _, id⟩
    case setPersisted r => exact Or.inr (Or.inl ⟨rfl, rfl⟩)
    case dumpState r d => refine Or.inl ?_; split <;> exact ⟨Nat.zero_le _, id⟩
    case timer r last =>
      refine Or.inl ?_
      cases hL : L.s with
      | none => exact ⟨Nat.zero_le _, id⟩
      | some s =>
        simp only [timerEff]
        split
        · exact ⟨Nat.zero_le _, id⟩
        · simp only [storing_rearm]; exact ⟨Nat.zero_le _, id⟩
    case timeoutWrite r last =>
      refine Or.inl ?_
      cases hL : L.s with
      | none => exact ⟨Nat.zero_le _, id⟩
      | some s =>
        refine ⟨by simp only [List.countP_append, storing_rearm, storing_subIf]; exact Nat.zero_le _, ?_⟩
        intro hc
        cases s with
        | done => exact hc
        | _ => exact hc.elim

theorem once_run (acts : List (RunsAct T)) (rid : RunId) : Once (proj ((init : Runs T).run acts) rid) :=
  init_proj_induction' ⟨by simp [Loc.init], by simp [Loc.init]⟩ (fun _ _ hb h hs => once_step hb h hs) acts

end Abq.Runs
