import Verif.Spec.Answers
import Verif.Proof.RunEnds

/-! # Every request is answered: the accounts -/

namespace Abq.Runs
variable {T α : Type}

/-- What is counted: in events, in what is pending, and in what is asked. -/
structure Ledger (T α : Type) where
  ev : Event T → List α
  ps : Pending T → List α
  act : RunsAct T → List α

def Ledger.eff (l : Ledger T α) (x : Eff T) : List α := x.evs.flatMap l.ev ++ x.next.flatMap l.ps

def Ledger.of (l : Ledger T α) (σ : Runs T) : List α := σ.events.flatMap l.ev ++ σ.pending.flatMap l.ps

theorem Ledger.apply (l : Ledger T α) (σ : Runs T) (rid : RunId) (x : Eff T) :
    (l.of (σ.apply rid x)).Perm (l.of σ ++ l.eff x) := by
  simp only [Ledger.of, Ledger.eff, Runs.apply, List.flatMap_append, List.append_assoc]
  refine List.Perm.append_left _ ?_
  rw [← List.append_assoc, ← List.append_assoc]
  exact List.Perm.append_right _ List.perm_append_comm

theorem Ledger.take (l : Ledger T α) (σ : Runs T) (i : Nat) (p : Pending T) (h : σ.pending[i]? = some p) :
    (l.of { σ with pending := σ.pending.eraseIdx i } ++ l.ps p).Perm (l.of σ) := by
  simp only [Ledger.of, List.append_assoc]
  refine List.Perm.append_left _ ?_
  obtain ⟨a, b, h1, h2⟩ : ∃ a b, σ.pending = a ++ p :: b ∧ σ.pending.eraseIdx i = a ++ b := by
    obtain ⟨hlt, hp⟩ := List.getElem?_eq_some_iff.1 h
    refine ⟨σ.pending.take i, σ.pending.drop (i + 1), ?_, List.eraseIdx_eq_take_drop_succ _ _⟩
    rw [← hp, ← List.drop_eq_getElem_cons hlt, List.take_append_drop]
  rw [h1] at h2 ⊢
  rw [h2, List.flatMap_append, List.flatMap_append, List.flatMap_cons, List.append_assoc]
  exact List.Perm.append_left _ List.perm_append_comm

/-- The accounts are kept by a step in which every piece of code that runs keeps them. -/
theorem Ledger.step (l : Ledger T α) (σ : Runs T) (a : RunsAct T)
    (hj : ∀ p, a = .join p → (l.eff (joinEff (σ.get p.rid) p)).Perm (l.act a))
    (hr : ∀ rid r, a = .request rid r → (r.writes && σ.readLocked rid) = false →
      (l.eff (reqEff rid (σ.get rid) r)).Perm (l.act a))
    (hd : ∀ rid r, a = .request rid r → r.writes = true → l.act a = [])
    (hn : ∀ i ans ok, a = .resume i ans ok → l.act a = [])
    (hc : ∀ i ans ok p, a = .resume i ans ok → σ.pending[i]? = some p →
      (p.writes && σ.readLocked p.rid) = false → (l.eff (contEff (σ.get p.rid) ans ok p)).Perm (l.ps p)) :
    (l.of (σ.step a)).Perm (l.of σ ++ l.act a) := by
  cases a with
  | join p =>
    exact (l.apply σ p.rid _).trans (List.Perm.append_left _ (hj p rfl))
  | request rid r =>
    simp only [Runs.step]
    split
    · rename_i h
      rw [hd rid r rfl (by simp at h; exact h.1), List.append_nil]
    · rename_i h
      exact (l.apply σ rid _).trans (List.Perm.append_left _ (hr rid r rfl (by simpa using h)))
  | resume i ans ok =>
    rw [hn i ans ok rfl, List.append_nil]
    simp only [Runs.step]
    split
    · exact List.Perm.refl _
    · rename_i p hp
      split
      · exact List.Perm.refl _
      · rename_i hw
        refine (l.apply _ p.rid _).trans ?_
        refine (List.Perm.append_left _ (hc i ans ok p rfl hp (by simpa using hw))).trans ?_
        exact l.take σ i p hp

/-! ## Requests to join -/

def joinLedger : Ledger T JoinParams where
  ev | .joined p _ => [p]
     | _ => []
  ps | .joinRemote p => [p]
     | .joinRead p => [p]
     | _ => []
  act | .join p => [p]
      | _ => []

theorem joinLedger_exec (rid : RunId) (s : Option (RunState T)) (r : Req T) :
    joinLedger.eff (reqEff rid s r) = [] := by
  cases s with
  | none => rfl
  | some s =>
    cases r <;> simp only [reqEff, exec, subIf]
    case nextWork e => split <;> rfl
    all_goals first
      | rfl
      | (split <;> rfl)

theorem joinLedger_plan (rid : RunId) (pl : Option (Plan T)) : (planTasks rid pl).flatMap joinLedger.ps = [] := by
  cases pl <;> rfl

theorem joinLedger_sub (rid : RunId) (b : Bool) : (subIf rid b : List (Pending T)).flatMap joinLedger.ps = [] := by
  cases b <;> rfl

theorem joinLedger_rearm (rid : RunId) (pr : Progress) : (rearm rid pr : List (Pending T)).flatMap joinLedger.ps = [] := by
  cases pr <;> rfl

theorem joinLedger_cont (s : Option (RunState T)) (ans : RemoteAns) (ok : Bool) (p : Pending T) :
    joinLedger.eff (contEff s ans ok p) = joinLedger.ps p := by
  cases p <;> simp only [contEff]
  case joinRemote => cases ans <;> cases s <;> rfl
  case joinRead => cases s <;> rfl
  case pulled => split <;> rfl
  case markEnd =>
    cases s <;> simp [Ledger.eff, joinLedger_sub, List.flatMap_cons]
    all_goals simp [joinLedger]
  case respond => cases ok <;> simp [Ledger.eff, joinLedger_plan] <;> simp [joinLedger]
  case sub => rfl
  case dumpManifest => cases ok <;> rfl
  case setPersisted => rfl
  case dumpState => cases ok <;> rfl
  case timer =>
    cases s <;> simp only [timerEff]
    · rfl
    · split
      · rfl
      · simp [Ledger.eff, joinLedger_rearm]; simp [joinLedger]
  case timeoutWrite =>
    cases s <;> simp [Ledger.eff, joinLedger_rearm, joinLedger_sub] <;> simp [joinLedger]

theorem joinLedger_run (σ : Runs T) (acts : List (RunsAct T)) :
    (joinLedger.of (σ.run acts)).Perm (joinLedger.of σ ++ acts.flatMap joinLedger.act) := by
  induction acts generalizing σ with
  | nil => simp [Runs.run]
  | cons a acts ih =>
    refine (ih (σ.step a)).trans ?_
    rw [List.flatMap_cons, ← List.append_assoc]
    refine List.Perm.append_right _ (joinLedger.step σ a ?_ ?_ ?_ ?_ ?_)
    · rintro p rfl
      cases σ.get p.rid <;> exact List.Perm.refl _
    · rintro rid r rfl -
      rw [joinLedger_exec]
      exact List.Perm.refl _
    · rintro rid r rfl -; rfl
    · rintro i ans ok rfl; rfl
    · rintro i ans ok p - - -
      rw [joinLedger_cont]

/-! ## Answers on their way -/

def sentLedger : Ledger T (Spec.Answer T) where
  ev | .delivered r e items eow => [(r, e, items, eow)]
     | .lost r e items eow => [(r, e, items, eow)]
     | _ => []
  ps | .respond r e items eow _ => [(r, e, items, eow)]
     | _ => []
  act _ := []

def made : Event T → List (Spec.Answer T)
  | .work r e items eow => [(r, e, items, eow)]
  | _ => []

theorem sentLedger_exec (rid : RunId) (s : Option (RunState T)) (r : Req T) :
    sentLedger.eff (reqEff rid s r) = (reqEff rid s r).evs.flatMap made := by
  cases s with
  | none => rfl
  | some s =>
    cases r <;> simp only [reqEff, exec, subIf]
    case nextWork e => split <;> rfl
    all_goals first
      | rfl
      | (split <;> rfl)

theorem sentLedger_plan (rid : RunId) (pl : Option (Plan T)) : (planTasks rid pl).flatMap sentLedger.ps = [] := by
  cases pl <;> rfl

theorem sentLedger_sub (rid : RunId) (b : Bool) : (subIf rid b : List (Pending T)).flatMap sentLedger.ps = [] := by
  cases b <;> rfl

theorem sentLedger_rearm (rid : RunId) (pr : Progress) : (rearm rid pr : List (Pending T)).flatMap sentLedger.ps = [] := by
  cases pr <;> rfl

theorem sentLedger_cont (s : Option (RunState T)) (ans : RemoteAns) (ok : Bool) (p : Pending T) :
    sentLedger.eff (contEff s ans ok p) = sentLedger.ps p ++ (contEff s ans ok p).evs.flatMap made := by
  cases p <;> simp only [contEff]
  case joinRemote => cases ans <;> cases s <;> rfl
  case joinRead => cases s <;> rfl
  case pulled => split <;> rfl
  case markEnd =>
    cases s <;> simp [Ledger.eff, sentLedger_sub, List.flatMap_cons]
    all_goals simp [sentLedger, made]
  case respond => cases ok <;> simp [Ledger.eff, sentLedger_plan] <;> simp [sentLedger, made]
  case sub => rfl
  case dumpManifest => cases ok <;> rfl
  case setPersisted => rfl
  case dumpState => cases ok <;> rfl
  case timer =>
    cases s <;> simp only [timerEff]
    · rfl
    · split
      · rfl
      · simp [Ledger.eff, sentLedger_rearm]; simp [sentLedger, made]
  case timeoutWrite =>
    cases s <;> simp [Ledger.eff, sentLedger_rearm, sentLedger_sub] <;> simp [sentLedger, made]

theorem sent_step (σ : Runs T) (a : RunsAct T) (h : (sentLedger.of σ).Perm (σ.events.flatMap made)) :
    (sentLedger.of (σ.step a)).Perm ((σ.step a).events.flatMap made) := by
  have go : ∀ (τ : Runs T) (rid : RunId) (x : Eff T), (sentLedger.of τ ++ sentLedger.eff x).Perm
      (τ.events.flatMap made ++ x.evs.flatMap made) →
      (sentLedger.of (τ.apply rid x)).Perm ((τ.apply rid x).events.flatMap made) := by
    intro τ rid x hx
    refine (sentLedger.apply τ rid x).trans ?_
    simpa [Runs.apply] using hx
  cases a with
  | join p =>
    refine go _ _ _ ?_
    have : sentLedger.eff (joinEff (σ.get p.rid) p) = (joinEff (σ.get p.rid) p).evs.flatMap made := by
      cases σ.get p.rid <;> rfl
    rw [this]
    exact List.Perm.append_right _ h
  | request rid r =>
    simp only [Runs.step]
    split
    · exact h
    · refine go _ _ _ ?_
      rw [sentLedger_exec]
      exact List.Perm.append_right _ h
  | resume i ans ok =>
    simp only [Runs.step]
    split
    · exact h
    · rename_i p hp
      split
      · exact h
      · refine go _ _ _ ?_
        rw [sentLedger_cont, ← List.append_assoc]
        exact List.Perm.append_right _ ((sentLedger.take σ i p hp).trans h)

theorem sent_run (acts : List (RunsAct T)) (σ : Runs T) (h : (sentLedger.of σ).Perm (σ.events.flatMap made)) :
    (sentLedger.of (σ.run acts)).Perm ((σ.run acts).events.flatMap made) := by
  induction acts generalizing σ with
  | nil => exact h
  | cons a acts ih => exact ih _ (sent_step σ a h)

/-! ## Requests for tests -/

def testLedger (rid : RunId) : Ledger T Entity where
  ev | .work r e _ _ => if r = rid then [e] else []
     | _ => []
  ps | .pulled r e _ => if r = rid then [e] else []
     | .markEnd r e _ => if r = rid then [e] else []
     | _ => []
  act | .request r (.nextWork e) => if r = rid then [e] else []
      | _ => []

theorem testLedger_plan (rid r : RunId) (pl : Option (Plan T)) : (planTasks r pl).flatMap (testLedger rid).ps = [] := by
  cases pl <;> rfl

theorem testLedger_sub (rid r : RunId) (b : Bool) : (subIf r b : List (Pending T)).flatMap (testLedger rid).ps = [] := by
  cases b <;> rfl

theorem testLedger_rearm (rid r : RunId) (pr : Progress) :
    (rearm r pr : List (Pending T)).flatMap (testLedger rid).ps = [] := by
  cases pr <;> rfl

theorem testLedger_cont (rid : RunId) (s : Option (RunState T)) (ans : RemoteAns) (ok : Bool) (p : Pending T)
    (h1 : p.rid = rid → s.isSome) (h2 : ∀ r, .panicked r ∉ (contEff s ans ok p).evs) :
    (testLedger rid).eff (contEff s ans ok p) = (testLedger rid).ps p := by
  cases p <;> simp only [contEff] at h2 ⊢
  case joinRemote => cases ans <;> cases s <;> rfl
  case joinRead => cases s <;> rfl
  case pulled r e items =>
    split
    · simp [Ledger.eff, testLedger]
    · simp [Ledger.eff, testLedger]
    · rename_i hs
      rw [hs] at h2
      exact absurd List.mem_cons_self (h2 r)
  case markEnd r e items =>
    cases s with
    | none =>
      have : r ≠ rid := fun hr => by simpa using h1 hr
      simp [Ledger.eff, testLedger, this]
    | some s =>
      simp [Ledger.eff, testLedger_sub, List.flatMap_cons]
      simp [testLedger]
  case respond => cases ok <;> simp [Ledger.eff, testLedger_plan] <;> simp [testLedger]
  case sub => rfl
  case dumpManifest => cases ok <;> rfl
  case setPersisted => rfl
  case dumpState => cases ok <;> rfl
  case timer =>
    cases s <;> simp only [timerEff]
    · rfl
    · split
      · rfl
      · simp [Ledger.eff, testLedger_rearm]; simp [testLedger]
  case timeoutWrite =>
    cases s <;> simp [Ledger.eff, testLedger_rearm, testLedger_sub] <;> simp [testLedger]

theorem testLedger_exec (rid r : RunId) (s : Option (RunState T)) (q : Req T)
    (h1 : r = rid → s.isSome) (h2 : ∀ r', .panicked r' ∉ (reqEff r s q).evs) :
    (testLedger rid).eff (reqEff r s q) = (testLedger rid).act (.request r q) := by
  cases s with
  | none =>
    have : r ≠ rid := fun hr => by simpa using h1 hr
    cases q <;> simp [reqEff, Ledger.eff, testLedger, this]
  | some s =>
    cases q <;> simp only [reqEff, exec, subIf] at h2 ⊢
    case nextWork e =>
      split
      · simp [Ledger.eff, testLedger]
      · simp [Ledger.eff, testLedger]
      · rename_i hs
        rw [hs] at h2
        exact absurd List.mem_cons_self (h2 r)
    all_goals first
      | rfl
      | (split <;> rfl)

end Abq.Runs
