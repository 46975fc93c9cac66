import Verif.Proof.AllRunsStep

/-! # The counter of active runs -/

namespace Abq.Runs
open Spec
variable {T : Type}

/-- 1 for an active run. -/
def actN : Option (RunState T) → Nat
  | some s => if activeRun s then 1 else 0
  | none => 0

theorem lookup_none_iff (l : List (RunId × RunState T)) (rid : RunId) :
    List.lookup rid l = none ↔ rid ∉ l.map Prod.fst := by
  induction l with
  | nil => simp
  | cons p l ih =>
    obtain ⟨k, v⟩ := p
    rw [List.lookup_cons]
    by_cases h : rid = k
    · subst h; simp
    · have : (rid == k) = false := by simpa using h
      simp [this, ih, h]

theorem put_keys (l : List (RunId × RunState T)) (rid : RunId) (s : Option (RunState T))
    (h : (l.map Prod.fst).Nodup) : ((put l rid s).map Prod.fst).Nodup := by
  cases s with
  | none => exact h
  | some s =>
    simp only [put]
    split
    · rename_i hl
      rw [List.map_append, List.map_cons, List.map_nil]
      exact WorkerSet.nodup_snoc h ((lookup_none_iff l rid).1 hl)
    · rw [List.map_map]
      have : (Prod.fst ∘ fun p : RunId × RunState T => if p.1 == rid then (rid, s) else p) = Prod.fst := by
        funext p
        simp only [Function.comp]
        split
        · rename_i hp; simpa using (beq_iff_eq.1 hp).symm
        · rfl
      rw [this]
      exact h

theorem set_count (l : List (RunId × RunState T)) (rid : RunId) (s : RunState T)
    (h : (l.map Prod.fst).Nodup) :
    ∀ o, List.lookup rid l = some o →
    (l.map (fun p => if p.1 == rid then (rid, s) else p)).countP (fun p => activeRun p.2) +
        actN (some o) =
      l.countP (fun p => activeRun p.2) + actN (some s) := by
  induction l with
  | nil => intro o ho; simp at ho
  | cons p l ih =>
    obtain ⟨k, v⟩ := p
    simp only [List.map_cons, List.nodup_cons] at h
    intro o ho
    rw [List.lookup_cons] at ho
    by_cases hk : rid = k
    · subst hk
      simp only [beq_self_eq_true, Option.some.injEq] at ho
      subst ho
      have hrest : l.map (fun p => if p.1 == rid then (rid, s) else p) = l := by
        conv => rhs; rw [← List.map_id l]
        apply List.map_congr_left
        intro q hq
        have : q.1 ≠ rid := by
          rintro rfl
          exact h.1 (List.mem_map_of_mem hq)
        simp [this]
      simp only [List.map_cons, beq_self_eq_true, if_true, hrest, List.countP_cons, actN]
      omega
    · have h1 : (rid == k) = false := by simpa using hk
      have h2 : (k == rid) = false := by simpa using fun h => hk h.symm
      simp only [h1] at ho
      have := ih h.2 o ho
      simp only [List.map_cons, h2, Bool.false_eq_true, if_false, List.countP_cons]
      omega

theorem put_count (l : List (RunId × RunState T)) (rid : RunId) (s : Option (RunState T))
    (h : (l.map Prod.fst).Nodup) (hs : s = none → List.lookup rid l = none) :
    (put l rid s).countP (fun p => activeRun p.2) + actN (List.lookup rid l) =
      l.countP (fun p => activeRun p.2) + actN s := by
  cases s with
  | none => rw [hs rfl]; rfl
  | some s =>
    simp only [put]
    split
    · rename_i hl
      rw [hl, List.countP_append]
      simp [actN, List.countP_cons]
    · rename_i o hl
      rw [hl]
      exact set_count l rid s h o hl

/-- 1 for a cancellation of a cancelled run. -/
def repReq (s : Option (RunState T)) : Req T → Nat
  | .cancel .. => if s.map phase = some .cancelled then 1 else 0
  | _ => 0

theorem subIf_count (rid : RunId) (b : Bool) :
    (subIf rid b : List (Pending T)).countP isSub = if b then 1 else 0 := by
  cases b <;> simp [subIf, isSub]

theorem req_count (rid : RunId) (s : Option (RunState T)) (r : Req T) :
    actN s + repReq s r = actN (reqEff rid s r).state + (reqEff rid s r).next.countP isSub ∧
      (reqEff rid s r).added = false ∧ (reqEff rid s r).subbed = false := by
  cases s with
  | none => cases r <;> simp [reqEff, actN, repReq]
  | some s =>
    simp only [reqEff]
    cases r <;> simp only [exec]
    case nextWork e =>
      cases s with
      | hasWork q b md act h =>
        cases hq : q.getWork e.tag b <;>
          simp [RunState.pull, hq, actN, repReq, isSub, activeRun, phase]
      | _ => simp [RunState.pull, actN, repReq, isSub, activeRun, phase]
    case initMetadata e =>
      cases s with
      | done x md seen m h =>
        cases hc : seen.containsByTag e <;> simp [RunState.initMetadata, hc, actN, repReq, activeRun, phase]
      | _ => simp [RunState.initMetadata, actN, repReq, activeRun, phase]
    case retryManifest e =>
      cases s with
      | done x md seen m h =>
        cases m with
        | cell b => cases b <;> simp [RunState.retryManifest, actN, repReq, activeRun, phase]
        | emptyManifest => simp [RunState.retryManifest, actN, repReq, activeRun, phase]
      | _ => simp [RunState.retryManifest, actN, repReq, activeRun, phase]
    all_goals
      cases s <;> simp [RunState.addManifest, RunState.manifestFailed, RunState.emptyManifest,
        RunState.complete, RunState.cancel, actN, repReq, activeRun, phase, subIf_count]

theorem join_count (s : Option (RunState T)) (p : JoinParams) :
    actN s = actN (joinEff s p).state + (joinEff s p).next.countP isSub ∧
      (joinEff s p).added = false ∧ (joinEff s p).subbed = false := by
  cases s <;> simp [joinEff, isSub]

theorem rearm_count (rid : RunId) (x : Progress) : (rearm rid x : List (Pending T)).countP isSub = 0 := by
  cases x <;> simp [rearm, isSub]

theorem join_actN (s : RunState T) (e : Entity) (h : String) :
    actN (some (s.join e h).1) = actN (some s) := by
  cases s with
  | hasWork q b md act h =>
    have : ((RunState.hasWork q b md act h).join e h).1 = .hasWork q b md (act.insertByTag e none).1 h := by
      simp only [RunState.join]; split <;> rfl
    simp only [RunState.join]
    cases (act.insertByTag e none).2 <;> simp [actN, activeRun, phase]
  | done x md seen m h => simp only [RunState.join]; cases seen.containsByTag e <;> simp [actN]
  | _ => simp [RunState.join, actN, activeRun, phase]

theorem counter_arith {n rep A S A' S' Sp a0 a1 nx r ad k : Nat} (hb : n < 2 ^ 64)
    (heq : (n + rep) % 2 ^ 64 = (A + S) % 2 ^ 64) (hc : A' + a0 = A + a1)
    (hx : a0 + ad + r = a1 + nx) (hp : S = Sp + k) (hs : S' = Sp + nx) (hk : k ≤ 1) :
    ((n + ad + (if k = 1 then 2 ^ 64 - 1 else 0)) % 2 ^ 64 + (rep + r)) % 2 ^ 64 =
      (A' + S') % 2 ^ 64 := by
  have : k = 0 ∨ k = 1 := by omega
  rcases this with rfl | rfl
  · simp only [Nat.zero_ne_one, if_false, Nat.add_zero]
    have : A' + S' = A + S + ad + r := by omega
    rw [this]
    omega
  · simp only [if_true]
    have : A' + S' + 1 = A + S + ad + r := by omega
    omega

theorem cont_count (s : Option (RunState T)) (ans : RemoteAns) (ok : Bool) (p : Pending T) :
    actN s + (if (contEff s ans ok p).added then 1 else 0) =
      actN (contEff s ans ok p).state + (contEff s ans ok p).next.countP isSub ∧
      (contEff s ans ok p).subbed = isSub p := by
  cases p <;> simp only [contEff]
  case joinRemote p =>
    cases ans <;> cases s <;> simp [loadRemote, createFresh, isSub, actN, activeRun, phase,
      RunState.fresh, RunState.loaded]
  case joinRead p =>
    cases s with
    | none => simp [isSub]
    | some s => simp [isSub, join_actN]
  case pulled =>
    cases s with
    | none => simp [isSub]
    | some s =>
      cases s with
      | hasWork q b md act h => cases hq : q.isAtEnd <;> simp [RunState.atEnd, hq, isSub]
      | _ => simp [RunState.atEnd, isSub]
  case markEnd =>
    cases s with
    | none => simp [isSub]
    | some s => cases s <;> simp [RunState.markEnd, subIf, isSub, actN, activeRun, phase]
  case respond rid e items eow plan =>
    split
    · cases plan <;> simp [planTasks, isSub]
    · simp [isSub]
  case sub => simp [isSub]
  case dumpManifest => split <;> simp [isSub]
  case setPersisted =>
    cases s with
    | none => simp [isSub]
    | some s =>
      cases s with
      | done x md seen m h => cases m <;> simp [RunState.setPersisted, isSub, actN, activeRun, phase]
      | _ => simp [RunState.setPersisted, isSub, actN, activeRun, phase]
  case dumpState => split <;> simp [isSub]
  case timer =>
    cases s with
    | none => simp [isSub]
    | some s =>
      simp only [timerEff]
      split <;> simp [isSub, rearm_count]
  case timeoutWrite rid last =>
    cases s with
    | none => simp [isSub]
    | some s =>
      simp only [RunState.timeoutWrite]
      cases s with
      | waiting => simp [RunState.progress, rearm_count, subIf_count, isSub, actN, activeRun, phase]
      | hasWork q b md act h =>
        simp only [RunState.progress]
        by_cases hq : q.readIndex > last <;>
          simp [hq, rearm_count, subIf_count, isSub, actN, activeRun, phase]
      | _ => simp [RunState.progress, rearm_count, subIf_count, isSub, actN, activeRun, phase]

/-- The invariant of the counter, `rep` repeated cancellations having been executed. -/
structure Counter (σ : Runs T) (rep : Nat) : Prop where
  keys : (σ.runs.map Prod.fst).Nodup
  bound : σ.numActive < 2 ^ 64
  eq : (σ.numActive + rep) % 2 ^ 64 = (activeRuns σ + pendingSubs σ) % 2 ^ 64

theorem counter_apply {σ : Runs T} {rep : Nat} (h : Counter σ rep) (rid : RunId) (x : Eff T)
    (hs : x.state = none → σ.get rid = none) (pend : List (Pending T)) (r k : Nat)
    (hx : actN (σ.get rid) + (if x.added then 1 else 0) + r = actN x.state + x.next.countP isSub)
    (hk : k = if x.subbed then 1 else 0)
    (hp : pendingSubs σ = pend.countP isSub + k) :
    Counter (Runs.apply { σ with pending := pend } rid x) (rep + r) := by
  have hc := put_count σ.runs rid x.state h.keys hs
  have heq := h.eq
  have hb := h.bound
  refine ⟨put_keys _ _ _ h.keys, ?_, ?_⟩
  · exact Nat.mod_lt _ (by decide)
  · have hk1 : k ≤ 1 := by rw [hk]; split <;> omega
    have := counter_arith (ad := if x.added then 1 else 0) hb heq hc hx hp
      (S' := (pend ++ x.next).countP isSub) (by rw [List.countP_append]) hk1
    have h2 : (if k = 1 then 2 ^ 64 - 1 else 0) = if x.subbed then 2 ^ 64 - 1 else 0 := by
      rw [hk]; cases x.subbed <;> rfl
    rw [h2] at this
    exact this

theorem counter_step {σ : Runs T} {rep : Nat} (h : Counter σ rep)
    (hb : ∀ rid, Base (proj σ rid)) (a : RunsAct T) :
    Counter (σ.step a) (rep + cancelsAgain σ a) := by
  cases a with
  | join p =>
    simp only [step, cancelsAgain]
    obtain ⟨h1, h2, h3⟩ := join_count (σ.get p.rid) p
    exact counter_apply h p.rid _ joinEff_state σ.pending 0 0 (by rw [h2]; simpa using h1)
      (by rw [h3]; rfl) rfl
  | request rid r =>
    simp only [step]
    split
    · rename_i hblock
      have hz : cancelsAgain σ (.request rid r) = 0 := by
        simp only [Bool.and_eq_true] at hblock
        cases r <;> simp only [cancelsAgain]
        rename_i e reason
        split
        · rename_i hph
          exfalso
          have hno : σ.readLocked rid = false := by
            rw [readLocked_iff]
            intro q hq
            have := (hb rid).ps q hq
            cases q <;> simp only [Pending.reads]
            simp only [PsOk, proj] at this
            simp only [phaseOf] at hph
            cases hg : σ.get rid with
            | none => rw [hg] at hph; simp at hph
            | some s =>
              rw [hg] at hph this
              cases s <;> simp [phase] at hph
              exact this.elim
          rw [hno] at hblock
          simp at hblock
        · rfl
      rw [hz]
      exact h
    · obtain ⟨h1, h2, h3⟩ := req_count rid (σ.get rid) r
      have hr : cancelsAgain σ (.request rid r) = repReq (σ.get rid) r := by
        cases r <;> rfl
      rw [hr]
      exact counter_apply h rid _ reqEff_state σ.pending (repReq (σ.get rid) r) 0 (by rw [h2]; simpa using h1)
        (by rw [h3]; rfl) rfl
  | resume i ans ok =>
    simp only [step, cancelsAgain]
    split
    · exact h
    · rename_i p hp
      split
      · exact h
      · obtain ⟨a, b, e1, e2⟩ := eraseIdx_split hp
        obtain ⟨h1, h2⟩ := cont_count (σ.get p.rid) ans ok p
        refine counter_apply h p.rid _ contEff_state (σ.pending.eraseIdx i) 0
          (if isSub p then 1 else 0) (by simpa using h1) (by rw [h2]) ?_
        rw [e2, pendingSubs, e1]
        simp only [List.countP_append, List.countP_cons]
        omega

theorem counter_run (acts : List (RunsAct T)) :
    Counter ((init : Runs T).run acts) (repeatedCancellations init acts) := by
  suffices h : ∀ (acts pre : List (RunsAct T)) (rep : Nat), Counter ((init : Runs T).run pre) rep →
      Counter ((init : Runs T).run (pre ++ acts)) (rep + repeatedCancellations (init.run pre) acts) by
    have := h acts [] 0 ⟨by simp [run, init], by simp [run, init], by simp [run, init, activeRuns, pendingSubs]⟩
    simpa [run] using this
  intro acts
  induction acts with
  | nil => intro pre rep h; simpa [repeatedCancellations] using h
  | cons a acts ih =>
    intro pre rep h
    have h1 := counter_step h (fun rid => base_run pre rid) a
    have hr : (init : Runs T).run (pre ++ [a]) = (init.run pre).step a := by
      rw [run_append]; rfl
    rw [← hr] at h1
    have := ih (pre ++ [a]) _ h1
    rw [List.append_assoc, List.singleton_append, hr] at this
    rw [repeatedCancellations, ← Nat.add_assoc]
    exact this

end Abq.Runs
