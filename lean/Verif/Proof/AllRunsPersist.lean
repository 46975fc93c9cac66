import Verif.Proof.AllRunsTasks

/-! # Persistence tasks and deliveries of a run -/

namespace Abq.Runs
open Spec
variable {T : Type}

/-- The manifest was used up, and the cell says whether it was written. -/
def CellIs (b : Bool) : Option (RunState T) → Prop
  | some (.done _ _ _ (.cell c) _) => c = b
  | _ => False

theorem exec_cell {rid : RunId} {s : RunState T} {r : Req T} {b : Bool}
    (h : CellIs b (exec rid s r).state) : CellIs b (some s) := by
  cases s with
  | waiting =>
    exfalso
    cases r <;> simp [exec, RunState.addManifest, RunState.manifestFailed, RunState.emptyManifest,
      RunState.initMetadata, RunState.pull, RunState.retryManifest, RunState.complete,
      RunState.cancel, CellIs] at h
  | hasWork q bb md act hh =>
    exfalso
    cases r <;> simp only [exec, RunState.addManifest, RunState.manifestFailed, RunState.emptyManifest,
      RunState.initMetadata, RunState.pull, RunState.retryManifest, RunState.complete,
      RunState.cancel, CellIs] at h
    case nextWork e => cases hq : q.getWork e.tag bb <;> simp [hq, CellIs] at h
  | done x md seen m hh =>
    cases m with
    | cell c =>
      cases r <;> simp only [exec, RunState.addManifest, RunState.manifestFailed, RunState.emptyManifest,
        RunState.initMetadata, RunState.pull, RunState.retryManifest, RunState.complete,
        RunState.cancel, CellIs] at h ⊢
      case initMetadata e => cases hc : seen.containsByTag e <;> simpa [hc, CellIs] using h
      case retryManifest e => cases c <;> simpa [CellIs] using h
      all_goals exact h
    | emptyManifest =>
      exfalso
      cases r <;> simp only [exec, RunState.addManifest, RunState.manifestFailed, RunState.emptyManifest,
        RunState.initMetadata, RunState.pull, RunState.retryManifest, RunState.complete,
        RunState.cancel, CellIs] at h
      case initMetadata e => cases hc : seen.containsByTag e <;> simp [hc] at h
  | cancelled c =>
    exfalso
    cases r <;> simp [exec, RunState.addManifest, RunState.manifestFailed, RunState.emptyManifest,
      RunState.initMetadata, RunState.pull, RunState.retryManifest, RunState.complete,
      RunState.cancel, CellIs] at h

theorem join_cell {s : RunState T} {e : Entity} {h : String} {b : Bool}
    (hc : CellIs b (some (s.join e h).1)) : CellIs b (some s) := by
  cases s with
  | waiting => exact hc
  | hasWork q bb md act hh =>
    simp only [RunState.join] at hc
    split at hc <;> exact hc
  | done x md seen m hh =>
    simp only [RunState.join] at hc
    split at hc <;> exact hc
  | cancelled => exact hc

/-- A task that will record the manifest as written. -/
def PersistTask : Pending T → Prop
  | .respond _ _ _ true (some _) => True
  | .dumpManifest .. => True
  | .setPersisted _ => True
  | _ => False

/-- Something went wrong in persisting the manifest. -/
def persistFailure (rid : RunId) : Event T → Bool
  | .lost r _ _ true => r == rid
  | .storeFailed r => r == rid
  | _ => false

structure Persist (rid : RunId) (L : Loc T) : Prop where
  written : CellIs true L.s → L.store ≠ [] ∨ L.evs.any (isLoad rid) = true
  set : ∀ r, .setPersisted r ∈ L.ps → L.store ≠ []
  eow : ∀ r e items eow pl, .respond r e items eow (some pl) ∈ L.ps → eow = true
  going : CellIs false L.s → (∃ p ∈ L.ps, PersistTask p) ∨ L.evs.any (persistFailure rid) = true

theorem persist_step {rid : RunId} {L L' : Loc T} (hb : Base L) (h : Persist rid L)
    (hs : LStep rid L L') : Persist rid L' := by
  cases hs with
  | join p hp =>
    have hx : (joinEff L.s p).state = L.s ∧ (joinEff L.s p).evs = [] ∧ (joinEff L.s p).stored = none ∧
        ∃ q, (joinEff L.s p).next = [q] ∧ (∀ r, q ≠ .setPersisted r) ∧
          ∀ r e items eow pl, q ≠ .respond r e items eow (some pl) := by
      cases L.s <;> simp [joinEff]
    obtain ⟨x1, x2, x3, q, x4, x5, x6⟩ := hx
    constructor <;> simp only [Loc.app, x1, x2, x3, x4, Option.toList_none, List.nil_append,
      List.append_nil, List.mem_append, List.mem_singleton]
    · exact h.written
    · rintro r (hm | hm)
      · exact h.set r hm
      · exact absurd hm.symm (x5 r)
    · rintro r e items eow pl (hm | hm)
      · exact h.eow _ _ _ _ _ hm
      · exact absurd hm.symm (x6 _ _ _ _ _)
    · intro hc
      rcases h.going hc with ⟨q', h1, h2⟩ | h1
      · exact Or.inl ⟨q', Or.inl h1, h2⟩
      · exact Or.inr h1
  | req r hr =>
    cases hL : L.s with
    | none =>
      constructor <;> simp only [Loc.app, reqEff]
      · exact fun h => h.elim
      · simpa using h.set
      · simpa using h.eow
      · exact fun h => h.elim
    | some s =>
      have hno : (∀ r', .setPersisted r' ∉ (exec rid s r).next) ∧
          (∀ r' e items eow pl, .respond r' e items eow (some pl) ∉ (exec rid s r).next) := by
        cases r <;> simp only [exec, subIf]
        case nextWork e => split <;> simp
        all_goals first
          | (split <;> simp)
          | simp
      constructor <;> simp only [Loc.app, reqEff, List.mem_append]
      · intro hc
        rcases h.written (by rw [hL]; exact exec_cell hc) with h1 | h1
        · exact Or.inl (by simp [h1])
        · exact Or.inr (by rw [List.any_append, h1]; rfl)
      · intro r' hm
        rcases hm with hm | hm
        · have := h.set r' hm
          simp [this]
        · exact absurd hm (hno.1 r')
      · intro r' e items eow pl hm
        rcases hm with hm | hm
        · exact h.eow _ _ _ _ _ hm
        · exact absurd hm (hno.2 _ _ _ _ _)
      · intro hc
        rcases h.going (by rw [hL]; exact exec_cell hc) with ⟨q, h1, h2⟩ | h1
        · exact Or.inl ⟨q, Or.inl h1, h2⟩
        · exact Or.inr (by rw [List.any_append, h1]; rfl)
  | cont p a b ans ok hp hm hr =>
    have hpo := hb.ps p (by rw [hm]; simp)
    have hpm : p ∈ L.ps := by rw [hm]; simp
    have hin : ∀ q, q ∈ a ++ b → q ∈ L.ps := by
      intro q hq
      rw [hm]
      rcases List.mem_append.1 hq with hq | hq
      · exact List.mem_append_left _ hq
      · exact List.mem_append_right _ (List.mem_cons_of_mem _ hq)
    have hout : ∀ q, q ∈ L.ps → q = p ∨ q ∈ a ++ b := by
      intro q hq
      rw [hm] at hq
      simp only [List.mem_append, List.mem_cons] at hq ⊢
      rcases hq with hq | hq | hq
      · exact Or.inr (Or.inl hq)
      · exact Or.inl hq
      · exact Or.inr (Or.inr hq)
    suffices hx :
        (CellIs true (contEff L.s ans ok p).state → CellIs true L.s ∨
          (∃ r, p = .setPersisted r) ∨ (contEff L.s ans ok p).evs.any (isLoad rid) = true) ∧
        (∀ r, .setPersisted r ∈ (contEff L.s ans ok p).next → (contEff L.s ans ok p).stored ≠ none) ∧
        (∀ r e items eow pl, .respond r e items eow (some pl) ∈ (contEff L.s ans ok p).next → eow = true) ∧
        (CellIs false (contEff L.s ans ok p).state → (CellIs false L.s ∧ ¬ PersistTask p) ∨
          (∃ q ∈ (contEff L.s ans ok p).next, PersistTask q) ∨
          (contEff L.s ans ok p).evs.any (persistFailure rid) = true) by
      obtain ⟨x1, x2, x3, x4⟩ := hx
      constructor <;> simp only [Loc.app]
      · intro hc
        rcases x1 hc with h1 | ⟨r, rfl⟩ | h1
        · rcases h.written h1 with h1 | h1
          · exact Or.inl (by simp [h1])
          · exact Or.inr (by rw [List.any_append, h1]; rfl)
        · exact Or.inl (by simp [h.set r hpm])
        · exact Or.inr (by rw [List.any_append, h1]; simp)
      · intro r hmem
        rcases List.mem_append.1 hmem with hmem | hmem
        · simp [h.set r (hin _ hmem)]
        · have := x2 r hmem
          cases hst : (contEff L.s ans ok p).stored with
          | none => exact absurd hst this
          | some v => simp
      · intro r e items eow pl hmem
        rcases List.mem_append.1 hmem with hmem | hmem
        · exact h.eow _ _ _ _ _ (hin _ hmem)
        · exact x3 _ _ _ _ _ hmem
      · intro hc
        rcases x4 hc with ⟨h1, h2⟩ | ⟨q, h1, h2⟩ | h1
        · rcases h.going h1 with ⟨q, h3, h4⟩ | h3
          · rcases hout q h3 with rfl | h3
            · exact absurd h4 h2
            · exact Or.inl ⟨q, List.mem_append_left _ h3, h4⟩
          · exact Or.inr (by rw [List.any_append, h3]; rfl)
        · exact Or.inl ⟨q, List.mem_append_right _ h1, h2⟩
        · exact Or.inr (by rw [List.any_append, h1]; simp)
    cases p <;> simp only [Pending.rid] at hp <;> simp only [contEff]
    case joinRemote p =>
      have hsame : ∀ (x : Eff T), x.state = L.s → x.stored = none →
          (∀ q ∈ x.next, (∀ r, q ≠ .setPersisted r) ∧ ∀ r e items eow pl, q ≠ .respond r e items eow (some pl)) →
          (CellIs true x.state → CellIs true L.s ∨ (∃ r, (Pending.joinRemote p : Pending T) = .setPersisted r) ∨
            x.evs.any (isLoad rid) = true) ∧
          (∀ r, .setPersisted r ∈ x.next → x.stored ≠ none) ∧
          (∀ r e items eow pl, .respond r e items eow (some pl) ∈ x.next → eow = true) ∧
          (CellIs false x.state → (CellIs false L.s ∧ ¬ PersistTask (.joinRemote p : Pending T)) ∨
            (∃ q ∈ x.next, PersistTask q) ∨ x.evs.any (persistFailure rid) = true) := by
        intro x e1 e2 e3
        rw [e1]
        exact ⟨fun h => Or.inl h, fun r hr => absurd rfl ((e3 _ hr).1 r),
          fun r e items eow pl hr => absurd rfl ((e3 _ hr).2 _ _ _ _ _),
          fun h => Or.inl ⟨h, by simp [PersistTask]⟩⟩
      cases hL : L.s with
      | some s =>
        rw [hL] at hsame
        cases ans <;> exact hsame _ rfl rfl (by simp [loadRemote, createFresh])
      | none =>
        rw [hL] at hsame
        cases ans with
        | error => exact hsame _ rfl rfl (by simp)
        | found d => simp [loadRemote, isLoad, hp, CellIs, RunState.loaded]
        | notFound => simp [createFresh, CellIs, RunState.fresh]
        | incompatible => simp [createFresh, CellIs, RunState.fresh]
    case joinRead p =>
      cases hL : L.s with
      | none => exact absurd hL hpo
      | some s =>
        refine ⟨fun h => Or.inl (join_cell h), by simp, by simp, fun h => Or.inl ⟨join_cell h, by simp [PersistTask]⟩⟩
    case pulled r e items =>
      split
      · exact ⟨fun h => Or.inl h, by simp, by simp, fun h => Or.inl ⟨h, by simp [PersistTask]⟩⟩
      · exact ⟨fun h => Or.inl h, by simp, by simp, fun h => Or.inl ⟨h, by simp [PersistTask]⟩⟩
      · exact ⟨fun h => Or.inl h, by simp, by simp, fun h => Or.inl ⟨h, by simp [PersistTask]⟩⟩
    case markEnd r e items =>
      cases hL : L.s with
      | none => simp [CellIs]
      | some s =>
        cases s with
        | hasWork q bb md act hh =>
          simp only [RunState.markEnd]
          refine ⟨by simp [CellIs], by simp [subIf], by simp [subIf], fun _ => Or.inr (Or.inl ⟨_, List.mem_cons_self, trivial⟩)⟩
        | _ => exact ⟨fun h => Or.inl h, by simp [subIf, RunState.markEnd], by simp [subIf, RunState.markEnd], fun h => Or.inl ⟨h, by simp [PersistTask]⟩⟩
    case respond r e items eow plan =>
      split
      · cases plan with
        | none => exact ⟨fun h => Or.inl h, by simp [planTasks], by simp [planTasks], fun h => Or.inl ⟨h, by simp [PersistTask]⟩⟩
        | some pl => exact ⟨fun h => Or.inl h, by simp [planTasks], by simp [planTasks], fun _ => Or.inr (Or.inl ⟨.dumpManifest r pl.view, by simp [planTasks], trivial⟩)⟩
      · cases plan with
        | none => exact ⟨fun h => Or.inl h, by simp, by simp, fun h => Or.inl ⟨h, by simp [PersistTask]⟩⟩
        | some pl =>
          have he := h.eow _ _ _ _ _ hpm
          subst he
          exact ⟨fun h => Or.inl h, by simp, by simp, fun _ => Or.inr (Or.inr (by simp [persistFailure, hp]))⟩
    case sub => exact ⟨fun h => Or.inl h, by simp, by simp, fun h => Or.inl ⟨h, by simp [PersistTask]⟩⟩
    case dumpManifest r v =>
      split
      · exact ⟨fun h => Or.inl h, by simp, by simp, fun _ => Or.inr (Or.inl ⟨.setPersisted r, by simp, trivial⟩)⟩
      · exact ⟨fun h => Or.inl h, by simp, by simp, fun _ => Or.inr (Or.inr (by simp [persistFailure, hp]))⟩
    case setPersisted r =>
      refine ⟨fun _ => Or.inr (Or.inl ⟨r, rfl⟩), by simp, by simp, fun hc => ?_⟩
      exfalso
      cases hL : L.s with
      | none => rw [hL] at hc; exact hc
      | some s =>
        rw [hL] at hc
        cases s with
        | done x md seen m hh =>
          cases m <;> simp [RunState.setPersisted, CellIs] at hc
        | _ => exact hc
    case dumpState r d =>
      split <;> exact ⟨fun h => Or.inl h, by simp, by simp, fun h => Or.inl ⟨h, by simp [PersistTask]⟩⟩
    case timer r last =>
      cases hL : L.s with
      | none => simp [CellIs]
      | some s =>
        simp only [timerEff]
        split
        · exact ⟨fun h => Or.inl h, by simp, by simp, fun h => Or.inl ⟨h, by simp [PersistTask]⟩⟩
        · exact ⟨fun h => Or.inl h, by unfold rearm; split <;> simp, by unfold rearm; split <;> simp, fun h => Or.inl ⟨h, by simp [PersistTask]⟩⟩
    case timeoutWrite r last =>
      cases hL : L.s with
      | none => simp [CellIs]
      | some s =>
        simp only [RunState.timeoutWrite]
        split
        · exact ⟨fun h => h.elim, by simp only [subIf, rearm]; split <;> simp, by simp only [subIf, rearm]; split <;> simp, fun h => h.elim⟩
        · exact ⟨fun h => Or.inl h, by simp only [subIf, rearm]; split <;> simp, by simp only [subIf, rearm]; split <;> simp, fun h => Or.inl ⟨h, by simp [PersistTask]⟩⟩

theorem persist_run (acts : List (RunsAct T)) (rid : RunId) :
    Persist rid (proj ((init : Runs T).run acts) rid) :=
  init_proj_induction' ⟨fun h => h.elim, by simp [Loc.init], by simp [Loc.init], fun h => h.elim⟩
    (fun _ _ hb h hs => persist_step hb h hs) acts

/-! ## Deliveries -/

def deliveredAll (rid : RunId) (evs : List (Event T)) : List (WorkerTest T) :=
  evs.flatMap (deliveredIn rid)

def lostAll (rid : RunId) (evs : List (Event T)) : List (WorkerTest T) := evs.flatMap (lostIn rid)

def flightAll (rid : RunId) (ps : List (Pending T)) : List (WorkerTest T) :=
  ps.flatMap (inFlight rid)

/-- Every test taken from the queue is in flight, delivered or lost. -/
def Accounted (rid : RunId) (L : Loc T) : Prop :=
  (handedOut rid L.evs).Perm
    (deliveredAll rid L.evs ++ lostAll rid L.evs ++ flightAll rid L.ps)

theorem accounted_step {rid : RunId} {L L' : Loc T} (hb : Base L) (h : Accounted rid L)
    (hs : LStep rid L L') : Accounted rid L' := by
  have key : ∀ (evs : List (Event T)) (ps ps' : List (Pending T)),
      (handedOut rid evs ++ flightAll rid ps).Perm
        (deliveredAll rid evs ++ lostAll rid evs ++ flightAll rid ps') →
      (flightAll rid L.ps).Perm (flightAll rid ps) →
      (handedOut rid (L.evs ++ evs)).Perm
        (deliveredAll rid (L.evs ++ evs) ++ lostAll rid (L.evs ++ evs) ++ flightAll rid ps') := by
    intro evs ps ps' h1 h2
    classical
    rw [List.perm_iff_count] at h1 h2 ⊢
    have h0 := h
    rw [Accounted, List.perm_iff_count] at h0
    intro x
    have e0 := h0 x
    have e1 := h1 x
    have e2 := h2 x
    simp only [handedOut, deliveredAll, lostAll, List.flatMap_append, List.count_append] at e0 e1 e2 ⊢
    omega
  cases hs with
  | join p hp =>
    cases hL : L.s with
    | none =>
      refine key [] L.ps _ ?_ (List.Perm.refl _)
      simp [handedOut, deliveredAll, lostAll, Loc.app, flightAll, inFlight, joinEff]
    | some s =>
      refine key [] L.ps _ ?_ (List.Perm.refl _)
      simp [handedOut, deliveredAll, lostAll, Loc.app, flightAll, inFlight, joinEff]
  | req r hr =>
    cases hL : L.s with
    | none =>
      refine key [_] L.ps _ ?_ (List.Perm.refl _)
      simp [handedOut, pulledIn, deliveredAll, deliveredIn, lostAll, lostIn, reqEff, Loc.app]
    | some s =>
      refine key _ L.ps _ ?_ (List.Perm.refl _)
      cases r <;> simp only [reqEff, exec, subIf]
      case nextWork e =>
        split
        · simp [handedOut, pulledIn, deliveredAll, deliveredIn, lostAll, lostIn, Loc.app, flightAll, inFlight,
            List.perm_append_comm]
        · simp [handedOut, pulledIn, deliveredAll, deliveredIn, lostAll, lostIn, Loc.app, flightAll, inFlight]
        · simp [handedOut, pulledIn, deliveredAll, deliveredIn, lostAll, lostIn, Loc.app, flightAll, inFlight]
      all_goals first
        | (simp [handedOut, pulledIn, deliveredAll, deliveredIn, lostAll, lostIn, Loc.app, flightAll, inFlight]; done)
        | (split <;> simp [handedOut, pulledIn, deliveredAll, deliveredIn, lostAll, lostIn, Loc.app, flightAll, inFlight])
  | cont p a b ans ok hp hm hr =>
    have hpo := hb.ps p (by rw [hm]; simp)
    have hperm : (flightAll rid L.ps).Perm (flightAll rid (p :: (a ++ b))) := by
      rw [hm]
      exact List.Perm.flatMap_right _ List.perm_middle
    refine key _ _ _ ?_ hperm
    have hcomm : ∀ x y z : List (WorkerTest T), (x ++ (y ++ z)).Perm (y ++ (z ++ x)) := fun x y z => by
      rw [← List.append_assoc y]
      exact List.perm_append_comm
    cases p <;> simp only [Pending.rid] at hp <;> simp only [contEff]
    case joinRemote p =>
      cases ans <;> cases hL : L.s <;>
        simp [loadRemote, createFresh, handedOut, pulledIn, deliveredAll, deliveredIn, lostAll, lostIn, Loc.app, flightAll, inFlight]
    case joinRead p =>
      cases hL : L.s <;>
        simp [handedOut, pulledIn, deliveredAll, deliveredIn, lostAll, lostIn, Loc.app, flightAll, inFlight]
    case pulled r e items =>
      subst hp
      split
      · simp [handedOut, deliveredAll, lostAll, Loc.app, flightAll, inFlight]
        exact hcomm _ _ _
      · simp [handedOut, pulledIn, deliveredAll, deliveredIn, lostAll, lostIn, Loc.app, flightAll, inFlight]
        exact hcomm _ _ _
      · rename_i hn
        exfalso
        cases hL : L.s with
        | none => rw [hL] at hpo; exact hpo
        | some s =>
          rw [hL] at hpo hn
          cases s with
          | hasWork => simp [RunState.atEnd] at hn
          | _ => exact hpo
    case markEnd r e items =>
      subst hp
      cases hL : L.s with
      | none => rw [hL] at hpo; exact hpo.elim
      | some s =>
        simp only [subIf]
        split <;> simp [handedOut, pulledIn, deliveredAll, deliveredIn, lostAll, lostIn, Loc.app, flightAll, inFlight] <;>
          exact hcomm _ _ _
    case respond r e items eow plan =>
      subst hp
      split
      · cases plan <;> simp [planTasks, handedOut, pulledIn, deliveredAll, deliveredIn, lostAll, lostIn, Loc.app, flightAll, inFlight]
      · simp [handedOut, pulledIn, deliveredAll, deliveredIn, lostAll, lostIn, Loc.app, flightAll, inFlight]
    case sub => simp [handedOut, deliveredAll, lostAll, Loc.app, flightAll, inFlight]
    case dumpManifest =>
      split <;> simp [handedOut, pulledIn, deliveredAll, deliveredIn, lostAll, lostIn, Loc.app, flightAll, inFlight]
    case setPersisted => simp [handedOut, deliveredAll, lostAll, Loc.app, flightAll, inFlight]
    case dumpState =>
      split <;> simp [handedOut, pulledIn, deliveredAll, deliveredIn, lostAll, lostIn, Loc.app, flightAll, inFlight]
    case timer r last =>
      cases hL : L.s with
      | none => simp [handedOut, pulledIn, deliveredAll, deliveredIn, lostAll, lostIn, Loc.app, flightAll, inFlight]
      | some s =>
        simp only [timerEff, rearm]
        split
        · simp [handedOut, pulledIn, deliveredAll, deliveredIn, lostAll, lostIn, Loc.app, flightAll, inFlight]
        · split <;> simp [handedOut, pulledIn, deliveredAll, deliveredIn, lostAll, lostIn, Loc.app, flightAll, inFlight]
    case timeoutWrite r last =>
      cases hL : L.s with
      | none => simp [handedOut, pulledIn, deliveredAll, deliveredIn, lostAll, lostIn, Loc.app, flightAll, inFlight]
      | some s =>
        simp only [rearm, subIf]
        split <;> split <;> simp [handedOut, pulledIn, deliveredAll, deliveredIn, lostAll, lostIn, Loc.app, flightAll, inFlight]

theorem accounted_run (acts : List (RunsAct T)) (rid : RunId) :
    Accounted rid (proj ((init : Runs T).run acts) rid) :=
  init_proj_induction' (by simp [Accounted, Loc.init, handedOut, deliveredAll, lostAll, flightAll])
    (fun _ _ hb h hs => accounted_step hb h hs) acts

end Abq.Runs
