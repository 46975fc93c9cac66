import Verif.Proof.AllRunsLocal

/-! # How the state of one run can change in one step -/

namespace Abq.Runs
variable {T : Type}

/-- Events other than the arrival of the manifest and the hand-out of tests. -/
def Quiet (evs : List (Event T)) : Prop :=
  ∀ ev ∈ evs, (∀ rid flat, ev ≠ .manifest rid flat true) ∧ ∀ rid e items, ev ≠ .pulled rid e items

/-- The possible changes of the state of a run, with the events of the step. The flag says that
the change is made under the write lock of the run. -/
inductive Change (rid : RunId) :
    Bool → Option (RunState T) → List (Event T) → Option (RunState T) → Prop where
  | refl (s : Option (RunState T)) {evs : List (Event T)} (hq : Quiet evs) : Change rid false s evs s
  | create (p : JoinParams) (hp : p.rid = rid) :
      Change rid false none [.joined p (.fresh true false)] (some (.fresh p))
  | load (d : RunDoc) : Change rid false none [.loaded rid d] (some (.loaded d))
  | waiting {ws ws' : WorkerSet Unit} {b : Nat} {st : TestStrategy} {h : String}
      {evs : List (Event T)} (hq : Quiet evs) :
      Change rid false (some (.waiting ws b st h)) evs (some (.waiting ws' b st h))
  | manifest {ws : WorkerSet Unit} {b : Nat} {st : TestStrategy} {h : String}
      (flat : List (T × Nat)) (md : String) :
      Change rid true (some (.waiting ws b st h)) [.manifest rid flat true]
        (some ((RunState.waiting ws b st h).addManifest flat md).1)
  | active {q : JobQueue (WorkerTest T)} {b : Nat} {md : String} {act act' : WorkerSet (Option Nat)}
      {h : String} {evs : List (Event T)} (hq : Quiet evs) :
      Change rid false (some (.hasWork q b md act h)) evs (some (.hasWork q b md act' h))
  | pull {q q' : JobQueue (WorkerTest T)} {b : Nat} {md : String}
      {act act' : WorkerSet (Option Nat)} {h : String} {e : Entity} {items : List (WorkerTest T)}
      (hq : q.getWork e.tag b = some (q', items)) :
      Change rid false (some (.hasWork q b md act h)) [.pulled rid e items]
        (some (.hasWork q' b md act' h))
  | mark {q : JobQueue (WorkerTest T)} {b : Nat} {md : String} {act : WorkerSet (Option Nat)}
      {h : String} {evs : List (Event T)} (hq : Quiet evs) :
      Change rid true (some (.hasWork q b md act h)) evs (some (RunState.hasWork q b md act h).markEnd.1)
  | seen {x : Int} {md : String} {seen seen' : WorkerSet Bool} {m : ManifestPersistence}
      {h : Option String} {evs : List (Event T)} (hq : Quiet evs) :
      Change rid false (some (.done x md seen m h)) evs (some (.done x md seen' m h))
  | persisted {x : Int} {md : String} {seen : WorkerSet Bool} {b : Bool} {h : Option String} :
      Change rid false (some (.done x md seen (.cell b) h)) [] (some (.done x md seen (.cell true) h))
  | empty {ws : WorkerSet Unit} {b : Nat} {st : TestStrategy} {h : String} :
      Change rid true (some (.waiting ws b st h)) [.emptyManifest rid true]
        (some (.done 0 "" [] .emptyManifest (some h)))
  | cancelWaiting {ws : WorkerSet Unit} {b : Nat} {st : TestStrategy} {h : String}
      (r : CancelReason) {evs : List (Event T)} (hq : Quiet evs) :
      Change rid true (some (.waiting ws b st h)) evs (some (.cancelled r))
  | cancelWork {q : JobQueue (WorkerTest T)} {b : Nat} {md : String} {act : WorkerSet (Option Nat)}
      {h : String} (r : CancelReason) {evs : List (Event T)} (hq : Quiet evs) :
      Change rid true (some (.hasWork q b md act h)) evs (some (.cancelled r))
  | cancelAgain (r r' : CancelReason) {evs : List (Event T)} (hq : Quiet evs) :
      Change rid true (some (.cancelled r)) evs (some (.cancelled r'))

theorem exec_change (rid : RunId) (s : RunState T) (r : Req T) :
    ∃ w, Change rid w (some s) (exec rid s r).evs (exec rid s r).state ∧ (w = true → r.writes = true) := by
  cases r <;> simp only [exec]
  case addManifest flat md =>
    cases s
    case waiting => exact ⟨true, .manifest flat md, fun _ => rfl⟩
    all_goals exact ⟨false, .refl _ (by simp [Quiet, RunState.addManifest, RunState.pull]), by simp⟩
  case manifestFailed =>
    cases s
    case waiting => exact ⟨true, .cancelWaiting _ (by simp [Quiet, RunState.addManifest, RunState.pull]), fun _ => rfl⟩
    all_goals exact ⟨false, .refl _ (by simp [Quiet, RunState.addManifest, RunState.pull]), by simp⟩
  case emptyManifest =>
    cases s
    case waiting => exact ⟨true, .empty, fun _ => rfl⟩
    all_goals exact ⟨false, .refl _ (by simp [Quiet, RunState.addManifest, RunState.pull]), by simp⟩
  case initMetadata e =>
    cases s
    case done x md seen m h =>
      simp only [RunState.initMetadata]
      split
      · exact ⟨false, .seen (by simp [Quiet, RunState.addManifest, RunState.pull]), by simp⟩
      · exact ⟨false, .refl _ (by simp [Quiet, RunState.addManifest, RunState.pull]), by simp⟩
    all_goals exact ⟨false, .refl _ (by simp [Quiet, RunState.addManifest, RunState.pull]), by simp⟩
  case nextWork e =>
    cases s
    case waiting => exact ⟨false, .refl _ (by simp [Quiet, RunState.addManifest, RunState.pull]), by simp⟩
    case cancelled => exact ⟨false, .refl _ (by simp [Quiet, RunState.addManifest, RunState.pull]), by simp⟩
    case done => exact ⟨false, .seen (by simp [Quiet, RunState.addManifest, RunState.pull]), by simp⟩
    case hasWork q b md act h =>
      simp only [RunState.pull]
      cases hq : q.getWork e.tag b with
      | none => exact ⟨false, .active (by simp [Quiet, RunState.addManifest, RunState.pull]), by simp⟩
      | some r => exact ⟨false, .pull hq, by simp⟩
  case retryManifest e =>
    cases s
    case hasWork => exact ⟨false, .active (by simp [Quiet, RunState.addManifest, RunState.pull]), by simp⟩
    case done x md seen m h =>
      cases m with
      | cell b =>
        cases b
        · exact ⟨false, .refl _ (by simp [Quiet, RunState.addManifest, RunState.pull]), by simp⟩
        · exact ⟨false, .seen (by simp [Quiet, RunState.addManifest, RunState.pull]), by simp⟩
      | emptyManifest => exact ⟨false, .refl _ (by simp [Quiet, RunState.addManifest, RunState.pull]), by simp⟩
    all_goals exact ⟨false, .refl _ (by simp [Quiet, RunState.addManifest, RunState.pull]), by simp⟩
  case complete e time =>
    cases s
    case hasWork => exact ⟨false, .active (by simp [Quiet, RunState.addManifest, RunState.pull]), by simp⟩
    case done => exact ⟨false, .seen (by simp [Quiet, RunState.addManifest, RunState.pull]), by simp⟩
    all_goals exact ⟨false, .refl _ (by simp [Quiet, RunState.addManifest, RunState.pull]), by simp⟩
  case cancel e reason =>
    cases s
    case waiting => exact ⟨true, .cancelWaiting _ (by simp [Quiet, RunState.addManifest, RunState.pull]), fun _ => rfl⟩
    case hasWork => exact ⟨true, .cancelWork _ (by simp [Quiet, RunState.addManifest, RunState.pull]), fun _ => rfl⟩
    case cancelled => exact ⟨true, .cancelAgain _ _ (by simp [Quiet, RunState.addManifest, RunState.pull]), fun _ => rfl⟩
    case done => exact ⟨false, .seen (by simp [Quiet, RunState.addManifest, RunState.pull]), by simp⟩
  all_goals exact ⟨false, .refl _ (by simp [Quiet, RunState.addManifest, RunState.pull]), by simp⟩

theorem progress_eligible (s : RunState T) (last : Nat) (h : (s.progress last).2 = true) :
    (∃ ws b st hs, s = .waiting ws b st hs) ∨ (∃ q b md act hs, s = .hasWork q b md act hs ∧ q.ptr ≤ last) := by
  cases s with
  | waiting ws b st hs => exact Or.inl ⟨_, _, _, _, rfl⟩
  | hasWork q b md act hs =>
    refine Or.inr ⟨q, b, md, act, hs, rfl, ?_⟩
    simp only [RunState.progress, JobQueue.readIndex] at h
    by_cases hlt : q.ptr > last
    · simp [hlt] at h
    · omega
  | done => simp [RunState.progress] at h
  | cancelled => simp [RunState.progress] at h

theorem contEff_change (s : Option (RunState T)) (ans : RemoteAns) (ok : Bool) (p : Pending T) :
    ∃ w, Change p.rid w s (contEff s ans ok p).evs (contEff s ans ok p).state ∧ (w = true → p.writes = true) := by
  cases p <;> simp only [contEff]
  case joinRemote p =>
    cases ans <;> cases s <;> simp only [loadRemote, createFresh]
    case found.none => exact ⟨false, .load _, by simp⟩
    case notFound.none => exact ⟨false, .create p rfl, by simp⟩
    case incompatible.none => exact ⟨false, .create p rfl, by simp⟩
    all_goals exact ⟨false, .refl _ (by simp [Quiet, RunState.addManifest, RunState.pull]), by simp⟩
  case joinRead p =>
    cases s with
    | none => exact ⟨false, .refl _ (by simp [Quiet, RunState.addManifest, RunState.pull]), by simp⟩
    | some s =>
      cases s
      case waiting => exact ⟨false, .waiting (by simp [Quiet, RunState.addManifest, RunState.pull]), by simp⟩
      case hasWork q b md act h =>
        simp only [RunState.join]
        split <;> exact ⟨false, .active (by simp [Quiet, RunState.addManifest, RunState.pull]), by simp⟩
      case done =>
        simp only [RunState.join]
        split <;> exact ⟨false, .refl _ (by simp [Quiet, RunState.addManifest, RunState.pull]), by simp⟩
      case cancelled => exact ⟨false, .refl _ (by simp [Quiet, RunState.addManifest, RunState.pull]), by simp⟩
  case pulled => split <;> exact ⟨false, .refl _ (by simp [Quiet, RunState.addManifest, RunState.pull]), by simp⟩
  case markEnd =>
    cases s with
    | none => exact ⟨false, .refl _ (by simp [Quiet, RunState.addManifest, RunState.pull]), by simp⟩
    | some s =>
      cases s
      case hasWork => exact ⟨true, .mark (by simp [Quiet, RunState.addManifest, RunState.pull]), fun _ => rfl⟩
      all_goals exact ⟨false, .refl _ (by simp [Quiet, RunState.addManifest, RunState.pull]), by simp⟩
  case respond => split <;> exact ⟨false, .refl _ (by simp [Quiet, RunState.addManifest, RunState.pull]), by simp⟩
  case sub => exact ⟨false, .refl _ (by simp [Quiet, RunState.addManifest, RunState.pull]), by simp⟩
  case dumpManifest => split <;> exact ⟨false, .refl _ (by simp [Quiet, RunState.addManifest, RunState.pull]), by simp⟩
  case setPersisted =>
    cases s with
    | none => exact ⟨false, .refl _ (by simp [Quiet, RunState.addManifest, RunState.pull]), by simp⟩
    | some s =>
      cases s
      case done x md seen m h =>
        cases m
        · exact ⟨false, .persisted, by simp⟩
        · exact ⟨false, .refl _ (by simp [Quiet, RunState.addManifest, RunState.pull]), by simp⟩
      all_goals exact ⟨false, .refl _ (by simp [Quiet, RunState.addManifest, RunState.pull]), by simp⟩
  case dumpState => split <;> exact ⟨false, .refl _ (by simp [Quiet, RunState.addManifest, RunState.pull]), by simp⟩
  case timer =>
    cases s with
    | none => exact ⟨false, .refl _ (by simp [Quiet, RunState.addManifest, RunState.pull]), by simp⟩
    | some s =>
      simp only [timerEff]
      split <;> exact ⟨false, .refl _ (by simp [Quiet, RunState.addManifest, RunState.pull]), by simp⟩
  case timeoutWrite rid last =>
    cases s with
    | none => exact ⟨false, .refl _ (by simp [Quiet, RunState.addManifest, RunState.pull]), by simp⟩
    | some s =>
      simp only [RunState.timeoutWrite]
      split
      · rename_i h
        rcases progress_eligible s last h with ⟨ws, b, st, hs, rfl⟩ | ⟨q, b, md, act, hs, rfl, _⟩
        · exact ⟨true, .cancelWaiting _ (by simp [Quiet, RunState.addManifest, RunState.pull]), fun _ => rfl⟩
        · exact ⟨true, .cancelWork _ (by simp [Quiet, RunState.addManifest, RunState.pull]), fun _ => rfl⟩
      · exact ⟨false, .refl _ (by simp [Quiet, RunState.addManifest, RunState.pull]), by simp⟩

/-- Every step of a run is one of the changes; changes under the write lock happen only while no
request holds the read lock. -/
theorem LStep.change {rid : RunId} {L L' : Loc T} (h : LStep rid L L') :
    ∃ w evs, Change rid w L.s evs L'.s ∧ L'.evs = L.evs ++ evs ∧
      (w = true → ∀ q ∈ L.ps, q.reads = false) := by
  cases h with
  | join p hp =>
    refine ⟨false, [], ?_, ?_, by simp⟩
    · have : (joinEff L.s p).state = L.s := by cases h : L.s <;> simp [joinEff]
      simp only [Loc.app, this]
      exact .refl _ (by simp [Quiet, RunState.addManifest, RunState.pull])
    · cases h : L.s <;> simp [joinEff, Loc.app]
  | req r h =>
    cases hs : L.s with
    | none =>
      refine ⟨false, [.noRun rid r.panicsUnknown], ?_, ?_, by simp⟩
      · simp only [Loc.app, reqEff]
        exact .refl _ (by simp [Quiet, RunState.addManifest, RunState.pull])
      · simp only [Loc.app, reqEff]
    | some s =>
      obtain ⟨w, hc, hw⟩ := exec_change rid s r
      refine ⟨w, _, by simpa only [Loc.app, reqEff] using hc, ?_, fun hw' => h (hw hw')⟩
      simp only [Loc.app, reqEff]
  | cont p a b ans ok hp hm h =>
    subst hp
    obtain ⟨w, hc, hw⟩ := contEff_change L.s ans ok p
    exact ⟨w, _, hc, rfl, fun hw' => h (hw hw')⟩

end Abq.Runs
