import Verif.Spec.RunEnds
import Verif.Proof.AllRunsHist
import Verif.Proof.AllRunsStep

/-! # Answers to requests for tests -/

namespace Abq.Runs
open Spec
variable {T : Type}

/-- The number of tests in an answer. -/
def evW (rid : RunId) : Event T → Nat
  | .work r _ items _ => if r = rid then items.length else 0
  | _ => 0

/-- The number of tests taken for a request that is not answered. -/
def psW (rid : RunId) : Pending T → Nat
  | .pulled r _ items => if r = rid then items.length else 0
  | .markEnd r _ items => if r = rid then items.length else 0
  | _ => 0

def evSum (rid : RunId) (evs : List (Event T)) : Nat := (evs.map (evW rid)).sum
def psSum (rid : RunId) (ps : List (Pending T)) : Nat := (ps.map (psW rid)).sum

/-- The tests taken from the queue are in answers, or held by requests; answers without the mark have tests. -/
structure Ans (rid : RunId) (L : Loc T) : Prop where
  ne : ∀ e, (.work rid e [] false : Event T) ∉ L.evs
  empty : ∀ e, (.pulled rid e [] : Pending T) ∈ L.ps → Over L.s
  sum : evSum rid L.evs + psSum rid L.ps = (handedOut rid L.evs).length

theorem ans_sum {rid : RunId} {L L' : Loc T} (hb : Base L)
    (h : evSum rid L.evs + psSum rid L.ps = (handedOut rid L.evs).length)
    (hs : LStep rid L L') : evSum rid L'.evs + psSum rid L'.ps = (handedOut rid L'.evs).length := by
  have key : ∀ (evs : List (Event T)) (ps ps' : List (Pending T)),
      evSum rid evs + psSum rid ps' = (handedOut rid evs).length + psSum rid ps →
      psSum rid L.ps = psSum rid ps →
      evSum rid (L.evs ++ evs) + psSum rid ps' = (handedOut rid (L.evs ++ evs)).length := by
    intro evs ps ps' h1 h2
    simp only [handedOut, evSum, List.flatMap_append, List.map_append, List.sum_append, List.length_append] at h h1 h2 ⊢
    omega
  cases hs with
  | join p hp =>
    cases hL : L.s with
    | none =>
      refine key [] L.ps _ ?_ rfl
      simp [handedOut, evSum, psSum, psW, Loc.app, joinEff]
    | some s =>
      refine key [] L.ps _ ?_ rfl
      simp [handedOut, evSum, psSum, psW, Loc.app, joinEff]
  | req r hr =>
    cases hL : L.s with
    | none =>
      refine key [_] L.ps _ ?_ rfl
      simp [handedOut, pulledIn, evSum, evW, psSum, reqEff, Loc.app]
    | some s =>
      refine key _ L.ps _ ?_ rfl
      cases r <;> simp only [reqEff, exec, subIf]
      case nextWork e =>
        split
        · simp [handedOut, pulledIn, evSum, evW, psSum, psW, Loc.app]; omega
        · simp [handedOut, pulledIn, evSum, evW, psSum, psW, Loc.app]
        · simp [handedOut, pulledIn, evSum, evW, psSum, psW, Loc.app]
      all_goals first
        | (simp [handedOut, pulledIn, evSum, evW, psSum, psW, Loc.app]; done)
        | (split <;> simp [handedOut, pulledIn, evSum, evW, psSum, psW, Loc.app])
  | cont p a b ans ok hp hm hr =>
    have hpo := hb.ps p (by rw [hm]; simp)
    have hperm : psSum rid L.ps = psSum rid (p :: (a ++ b)) := by
      rw [hm]
      simp only [psSum, List.map_append, List.map_cons, List.sum_append, List.sum_cons]
      omega
    refine key _ _ _ ?_ hperm
    cases p <;> simp only [Pending.rid] at hp <;> simp only [contEff]
    case joinRemote p =>
      cases ans <;> cases hL : L.s <;>
        simp [loadRemote, createFresh, handedOut, pulledIn, evSum, evW, psSum, psW, Loc.app]
    case joinRead p =>
      cases hL : L.s <;>
        simp [handedOut, pulledIn, evSum, evW, psSum, psW, Loc.app]
    case pulled r e items =>
      subst hp
      split
      · simp [handedOut, evSum, psSum, psW, Loc.app]; omega
      · simp [handedOut, pulledIn, evSum, evW, psSum, psW, Loc.app]
      · rename_i hn
        exfalso
        cases hL : L.s with
        | none => rw [hL] at hpo; exact hpo
        | some s =>
          rw [hL] at hpo hn
          cases s with
          | hasWork => simp [RunState.atEnd] at hn
          | _ => exact hpo
    case markEnd r e items =>
      subst hp
      cases hL : L.s with
      | none => rw [hL] at hpo; exact hpo.elim
      | some s =>
        simp only [subIf]
        split <;> simp [handedOut, pulledIn, evSum, evW, psSum, psW, Loc.app]
    case respond r e items eow plan =>
      subst hp
      split
      · cases plan <;> simp [planTasks, handedOut, pulledIn, evSum, evW, psSum, psW, Loc.app]
      · simp [handedOut, pulledIn, evSum, evW, psSum, psW, Loc.app]
    case sub => simp [handedOut, evSum, psSum, psW, Loc.app]
    case dumpManifest =>
      split <;> simp [handedOut, pulledIn, evSum, evW, psSum, psW, Loc.app]
    case setPersisted => simp [handedOut, evSum, psSum, psW, Loc.app]
    case dumpState =>
      split <;> simp [handedOut, pulledIn, evSum, evW, psSum, psW, Loc.app]
    case timer r last =>
      cases hL : L.s with
      | none => simp [handedOut, pulledIn, evSum, evW, psSum, psW, Loc.app]
      | some s =>
        simp only [timerEff, rearm]
        split
        · simp [handedOut, pulledIn, evSum, evW, psSum, psW, Loc.app]
        · split <;> simp [handedOut, pulledIn, evSum, evW, psSum, psW, Loc.app]
    case timeoutWrite r last =>
      cases hL : L.s with
      | none => simp [handedOut, pulledIn, evSum, evW, psSum, psW, Loc.app]
      | some s =>
        simp only [rearm, subIf]
        split <;> split <;> simp [handedOut, pulledIn, evSum, evW, psSum, psW, Loc.app]

/-- A request for tests that takes none finds the queue used up, and it stays so. -/
theorem pull_empty {s : RunState T} {e : Entity} (ho : StOk (some s)) (h : (s.pull e).2 = .online []) :
    Over (some (s.pull e).1) := by
  cases s with
  | hasWork q b md act hh =>
    simp only [RunState.pull] at h ⊢
    cases hg : q.getWork e.tag b with
    | none => rw [hg] at h; cases h
    | some x =>
      obtain ⟨q', items⟩ := x
      rw [hg] at h
      simp only [PullAns.online.injEq] at h
      subst h
      have hp := JobQueue.getWork_pulled ho.2 ho.1 hg
      simp only [Over, JobQueue.isAtEnd, decide_eq_true_eq]
      have h1 := hp.lt
      have h2 := congrArg List.length hp.items
      have h3 := hp.le
      have h4 := hp.le'
      simp only [List.length_nil, Abq.slice, List.length_map, List.length_take, List.length_drop] at h2
      rw [hp.queue]
      omega
  | _ => simp [RunState.pull] at h

theorem ans_step {rid : RunId} {L L' : Loc T} (hb : Base L) (h : Ans rid L) (hs : LStep rid L L') : Ans rid L' := by
  have hsum := ans_sum hb h.sum hs
  obtain ⟨w, evs, hc, he, -⟩ := hs.change
  have hover := over_change hc hb.st
  obtain ⟨evs1, h1, he1⟩ := hs.step1 hb
  refine ⟨?_, ?_, hsum⟩
  · intro e hm0
    cases hs with
    | join p hp =>
      cases hL : L.s <;> simp [Loc.app, joinEff, hL] at hm0 <;> exact h.ne e hm0
    | req r hr =>
      rcases List.mem_append.1 hm0 with hm | hm <;> clear hm0
      · exact h.ne e hm
      · cases hL : L.s with
        | none => simp [hL, reqEff] at hm
        | some s =>
          rw [hL] at hm
          cases r <;> simp only [reqEff, exec] at hm
          case nextWork e' => split at hm <;> simp at hm
          all_goals simp at hm
    | cont p a b ans ok hp hm' hr =>
      rcases List.mem_append.1 hm0 with hm | hm <;> clear hm0
      · exact h.ne e hm
      · cases p <;> simp only [contEff] at hm
        case pulled r e' items =>
          have hpo := h.empty e'
          simp only [Pending.rid] at hp
          subst hp
          split at hm
          · simp at hm
          · rename_i hn
            simp only [List.mem_singleton, Event.work.injEq] at hm
            obtain ⟨-, rfl, rfl, -⟩ := hm
            have := hpo (by rw [hm']; simp)
            cases hL : L.s with
            | none => rw [hL] at hn; cases hn
            | some s =>
              rw [hL] at hn this
              cases s with
              | hasWork q =>
                simp only [Option.bind_some, RunState.atEnd, Option.some.injEq] at hn
                rw [Over, hn] at this
                cases this
              | _ => simp [RunState.atEnd] at hn
          · simp at hm
        case joinRemote p =>
          cases ans <;> cases hL : L.s <;> simp [loadRemote, createFresh, hL] at hm
        case timer r last =>
          cases hL : L.s with
          | none => simp [hL] at hm
          | some s =>
            rw [hL] at hm
            simp only [timerEff] at hm
            split at hm <;> simp at hm
        case markEnd => cases hL : L.s <;> simp [hL] at hm
        case joinRead => cases hL : L.s <;> simp [hL] at hm
        case timeoutWrite => cases hL : L.s <;> simp [hL] at hm
        case respond => split at hm <;> simp at hm
        case dumpManifest => split at hm <;> simp at hm
        case dumpState => split at hm <;> simp at hm
        all_goals simp at hm
  · intro e hm0
    cases hs with
    | join p hp =>
      refine hover (h.empty e ?_)
      cases hL : L.s <;> simpa [Loc.app, joinEff, hL] using hm0
    | req r hr =>
      rcases List.mem_append.1 hm0 with hm | hm <;> clear hm0
      · exact hover (h.empty e hm)
      · cases hL : L.s with
        | none => simp [hL, reqEff] at hm
        | some s =>
          rw [hL] at hm
          have hst := hb.st
          rw [hL] at hst
          cases r <;> simp only [reqEff, exec, subIf] at hm
          case nextWork e' =>
            cases hx : (s.pull e').2 with
            | online items =>
              rw [hx] at hm
              simp only [List.mem_singleton, Pending.pulled.injEq] at hm
              obtain ⟨-, rfl, rfl⟩ := hm
              have := pull_empty hst hx
              simpa [Loc.app, hL, reqEff, exec, hx] using this
            | finished => rw [hx] at hm; simp at hm
            | panic => rw [hx] at hm; simp at hm
          all_goals first
            | (simp at hm; done)
            | (split at hm <;> simp at hm)
    | cont p a b ans ok hp hm' hr =>
      rcases List.mem_append.1 hm0 with hm | hm <;> clear hm0
      · refine hover (h.empty e ?_)
        rw [hm']
        rcases List.mem_append.1 hm with hm | hm
        · exact List.mem_append_left _ hm
        · exact List.mem_append_right _ (List.mem_cons_of_mem _ hm)
      · exfalso
        cases p <;> simp only [contEff] at hm
        case pulled => split at hm <;> simp at hm
        case joinRemote p =>
          cases ans <;> cases hL : L.s <;> simp [loadRemote, createFresh, hL] at hm
        case timer r last =>
          cases hL : L.s with
          | none => simp [hL] at hm
          | some s =>
            rw [hL] at hm
            simp only [timerEff, rearm] at hm
            split at hm
            · simp at hm
            · split at hm <;> simp at hm
        case markEnd =>
          cases hL : L.s with
          | none => simp [hL] at hm
          | some s =>
            rw [hL] at hm
            simp only [subIf] at hm
            split at hm <;> simp at hm
        case joinRead => cases hL : L.s <;> simp [hL] at hm
        case timeoutWrite =>
          cases hL : L.s with
          | none => simp [hL] at hm
          | some s =>
            rw [hL] at hm
            simp only [subIf, rearm] at hm
            split at hm <;> split at hm <;> simp at hm
        case respond r e' items eow plan =>
          split at hm
          · cases plan <;> simp [planTasks] at hm
          · simp at hm
        case dumpManifest => split at hm <;> simp at hm
        case dumpState => split at hm <;> simp at hm
        all_goals simp at hm

theorem ans_run (acts : List (RunsAct T)) (rid : RunId) : Ans rid (proj ((init : Runs T).run acts) rid) :=
  init_proj_induction' ⟨by simp [Loc.init], by simp [Loc.init], by simp [Loc.init, handedOut, evSum, psSum]⟩
    (fun _ _ hb h hs => ans_step hb h hs) acts

end Abq.Runs
