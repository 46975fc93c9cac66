import Verif.Proof.AllRunsChange
import Verif.Proof.JobQueueSeq

/-! # Which continuations can be pending in which state of a run -/

namespace Abq.Runs
variable {T : Type}

/-- Well-formed run states. -/
def StOk : Option (RunState T) → Prop
  | some (.waiting _ b _ _) => 0 < b
  | some (.hasWork q b _ _ _) => 0 < b ∧ q.WF
  | _ => True

/-- The manifest is known to be used up, or the run was cancelled. -/
def Over : Option (RunState T) → Prop
  | some (.hasWork q _ _ _ _) => q.isAtEnd = true
  | some (.done ..) => True
  | some (.cancelled _) => True
  | _ => False

/-- The manifest was used up and there is a cell saying whether it was written. -/
def HasCell : Option (RunState T) → Prop
  | some (.done _ _ _ (.cell _) _) => True
  | _ => False

def IsWork : Option (RunState T) → Prop
  | some (.hasWork ..) => True
  | _ => False

/-- What must be the case for a continuation to be pending. -/
def PsOk (s : Option (RunState T)) : Pending T → Prop
  | .joinRemote _ => True
  | .joinRead _ => s ≠ none
  | .pulled .. => IsWork s
  | .markEnd .. => Over s
  | .respond _ _ _ _ none => s ≠ none
  | .respond _ _ _ _ (some _) => HasCell s
  | .sub _ => s ≠ none
  | .dumpManifest .. => HasCell s
  | .setPersisted _ => HasCell s
  | .dumpState .. => HasCell s
  | .timer .. => s ≠ none
  | .timeoutWrite .. => s ≠ none

theorem clampBatch_pos (n : NonZero) : 0 < clampBatch n.val := by
  have := n.property
  unfold clampBatch
  split <;> omega

theorem stOk_change {rid : RunId} {w : Bool} {evs : List (Event T)} {s s' : Option (RunState T)}
    (h : Change rid w s evs s') (ho : StOk s) :
    StOk s' := by
  cases h with
  | refl => exact ho
  | create p => exact clampBatch_pos p.hint
  | load d => trivial
  | waiting => exact ho
  | manifest flat md => exact ⟨ho, JobQueue.wf_new _ _⟩
  | active => exact ho
  | pull hq => exact ⟨ho.1, (JobQueue.getWork_pulled ho.2 ho.1 hq).wf ho.2⟩
  | _ => trivial

theorem over_change {rid : RunId} {w : Bool} {evs : List (Event T)} {s s' : Option (RunState T)}
    (h : Change rid w s evs s') (ho : StOk s)
    (hs : Over s) : Over s' := by
  cases h with
  | refl => exact hs
  | pull hq =>
    have hp := JobQueue.getWork_pulled ho.2 ho.1 hq
    simp only [Over, JobQueue.isAtEnd, decide_eq_true_eq] at hs ⊢
    have := hp.le
    rw [hp.queue]
    omega
  | active => exact hs
  | create | load | waiting | manifest | empty | cancelWaiting => exact absurd hs (by simp [Over])
  | _ => trivial

theorem hasCell_change {rid : RunId} {w : Bool} {evs : List (Event T)} {s s' : Option (RunState T)}
    (h : Change rid w s evs s')
    (hs : HasCell s) : HasCell s' := by
  cases h with
  | refl => exact hs
  | @seen x md seen seen' m h => cases m <;> simp_all [HasCell]
  | persisted => trivial
  | _ => exact absurd hs (by simp [HasCell])

theorem isSome_change {rid : RunId} {w : Bool} {evs : List (Event T)} {s s' : Option (RunState T)}
    (h : Change rid w s evs s')
    (hs : s ≠ none) : s' ≠ none := by
  cases h with
  | refl => exact hs
  | _ => simp

theorem isWork_change {rid : RunId} {evs : List (Event T)} {s s' : Option (RunState T)}
    (h : Change rid false s evs s')
    (hs : IsWork s) : IsWork s' := by
  cases h with
  | refl => exact hs
  | active => trivial
  | pull => trivial
  | _ => exact absurd hs (by simp [IsWork])

theorem psOk_change {rid : RunId} {w : Bool} {evs : List (Event T)} {s s' : Option (RunState T)} {p : Pending T}
    (h : Change rid w s evs s')
    (ho : StOk s) (hw : w = true → p.reads = false) (hp : PsOk s p) : PsOk s' p := by
  cases p with
  | joinRemote => trivial
  | joinRead => exact isSome_change h hp
  | pulled =>
    cases w with
    | true => exact absurd (hw rfl) (by simp [Pending.reads])
    | false => exact isWork_change h hp
  | markEnd => exact over_change h ho hp
  | respond rid e items eow plan =>
    cases plan with
    | none => exact isSome_change h hp
    | some => exact hasCell_change h hp
  | sub => exact isSome_change h hp
  | dumpManifest => exact hasCell_change h hp
  | setPersisted => exact hasCell_change h hp
  | dumpState => exact hasCell_change h hp
  | timer => exact isSome_change h hp
  | timeoutWrite => exact isSome_change h hp

theorem psOk_subIf {rid : RunId} {b : Bool} {s : Option (RunState T)} (hs : s ≠ none) :
    ∀ p ∈ (subIf rid b : List (Pending T)), PsOk s p := by
  intro p hp
  unfold subIf at hp
  split at hp
  · simp only [List.mem_singleton] at hp
    subst hp; exact hs
  · simp at hp

theorem psOk_rearm {rid : RunId} {x : Progress} {s : Option (RunState T)} (hs : s ≠ none) :
    ∀ p ∈ (rearm rid x : List (Pending T)), PsOk s p := by
  intro p hp
  unfold rearm at hp
  split at hp
  · simp only [List.mem_singleton] at hp
    subst hp; exact hs
  · simp at hp

theorem exec_psOk (rid : RunId) (s : RunState T) (r : Req T) :
    ∀ p ∈ (exec rid s r).next, PsOk (exec rid s r).state p := by
  cases r <;> simp only [exec]
  case manifestFailed => exact psOk_subIf (by simp)
  case emptyManifest => exact psOk_subIf (by simp)
  case cancel => exact psOk_subIf (by simp)
  case nextWork e =>
    cases s with
    | hasWork q b md act h =>
      simp only [RunState.pull]
      cases q.getWork e.tag b with
      | none => simp
      | some x => simp [PsOk, IsWork]
    | _ => simp [RunState.pull, PsOk]
  all_goals simp

theorem joinEff_psOk (s : Option (RunState T)) (p : JoinParams) :
    ∀ q ∈ (joinEff s p).next, PsOk (joinEff s p).state q := by
  cases s <;> simp [joinEff, PsOk]

theorem contEff_psOk (s : Option (RunState T)) (ans : RemoteAns) (ok : Bool) (p : Pending T)
    (hp : PsOk s p) : ∀ q ∈ (contEff s ans ok p).next, PsOk (contEff s ans ok p).state q := by
  cases p <;> simp only [contEff]
  case joinRemote p =>
    cases ans <;> cases s <;> simp [loadRemote, createFresh, PsOk]
  case joinRead => cases s <;> simp
  case pulled rid e items =>
    split
    · rename_i hb
      intro q hq
      simp only [List.mem_singleton] at hq
      subst hq
      cases s with
      | none => simp at hb
      | some s => cases s <;> simp_all [RunState.atEnd, PsOk, Over]
    · rename_i hb
      intro q hq
      simp only [List.mem_singleton] at hq
      subst hq
      cases s with
      | none => simp at hb
      | some s => simp [PsOk]
    · simp
  case markEnd rid e items =>
    cases s with
    | none => simp
    | some s =>
      intro q hq
      rcases List.mem_cons.1 hq with rfl | hq
      · cases s <;> simp [RunState.markEnd, PsOk, HasCell]
      · exact psOk_subIf (by simp) q hq
  case respond rid e items eow plan =>
    split
    · cases plan with
      | none => simp [planTasks]
      | some pl =>
        intro q hq
        simp only [planTasks, List.mem_cons, List.not_mem_nil, or_false] at hq
        rcases hq with rfl | rfl <;> exact hp
    · simp
  case sub => simp
  case dumpManifest =>
    split
    · intro q hq
      simp only [List.mem_singleton] at hq
      subst hq; exact hp
    · simp
  case setPersisted => simp
  case dumpState => split <;> simp
  case timer =>
    cases s with
    | none => simp
    | some s =>
      simp only [timerEff]
      split
      · simp [PsOk]
      · exact psOk_rearm (by simp)
  case timeoutWrite =>
    cases s with
    | none => simp
    | some s =>
      intro q hq
      rcases List.mem_append.1 hq with hq | hq
      · exact psOk_rearm (by simp) q hq
      · exact psOk_subIf (by simp) q hq

/-- The basic invariant of one run. -/
structure Base (L : Loc T) : Prop where
  st : StOk L.s
  ps : ∀ p ∈ L.ps, PsOk L.s p

theorem base_init : Base (Loc.init : Loc T) := ⟨trivial, by simp [Loc.init]⟩

theorem base_step {rid : RunId} {L L' : Loc T} (h : Base L) (hs : LStep rid L L') : Base L' := by
  obtain ⟨w, evs, hc, -, hw⟩ := hs.change
  refine ⟨stOk_change hc h.st, ?_⟩
  intro p hp
  have hkeep : p ∈ L.ps → PsOk L'.s p := fun hm =>
    psOk_change hc h.st (fun hw' => hw hw' p hm) (h.ps p hm)
  cases hs with
  | join q hq =>
    rcases List.mem_append.1 hp with hp | hp
    · exact hkeep hp
    · exact joinEff_psOk _ _ p hp
  | req r hr =>
    rcases List.mem_append.1 hp with hp | hp
    · exact hkeep hp
    · cases hL : L.s with
      | none => rw [hL] at hp; simp [reqEff] at hp
      | some s =>
        rw [hL] at hp
        have := exec_psOk rid s r p hp
        simpa only [Loc.app, hL, reqEff] using this
  | cont q a b ans ok hq hm hr =>
    rcases List.mem_append.1 hp with hp | hp
    · refine hkeep ?_
      rw [hm]
      rcases List.mem_append.1 hp with hp | hp
      · exact List.mem_append_left _ hp
      · exact List.mem_append_right _ (List.mem_cons_of_mem _ hp)
    · exact contEff_psOk L.s ans ok q (h.ps q (by rw [hm]; simp)) p hp

theorem base_run (acts : List (RunsAct T)) (rid : RunId) :
    Base (proj ((init : Runs T).run acts) rid) :=
  init_proj_induction base_init (fun _ _ h hs => base_step h hs) acts

/-- Induction over the history of one run with the basic invariant at hand. -/
theorem init_proj_induction' {rid : RunId} {I : Loc T → Prop} (h0 : I Loc.init)
    (hs : ∀ L L', Base L → I L → LStep rid L L' → I L') (acts : List (RunsAct T)) :
    I (proj ((init : Runs T).run acts) rid) :=
  (init_proj_induction (I := fun L => Base L ∧ I L) ⟨base_init, h0⟩
    (fun L L' h hst => ⟨base_step h.1 hst, hs L L' h.1 h.2 hst⟩) acts).2

theorem run_proj_induction' {rid : RunId} {I : Loc T → Prop}
    (hs : ∀ L L', Base L → I L → LStep rid L L' → I L') (pre acts : List (RunsAct T))
    (h0 : I (proj ((init : Runs T).run pre) rid)) :
    I (proj ((init : Runs T).run (pre ++ acts)) rid) := by
  rw [run_append]
  exact (run_proj_induction (I := fun L => Base L ∧ I L)
    (fun L L' h hst => ⟨base_step h.1 hst, hs L L' h.1 h.2 hst⟩) _ ⟨base_run pre rid, h0⟩ acts).2

end Abq.Runs
