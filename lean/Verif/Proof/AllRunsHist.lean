import Verif.Proof.AllRunsInv
import Verif.Proof.ManifestView
import Verif.Spec.AllRuns

/-! # The history of a run determines its queue -/

namespace Abq.Runs
open Spec
variable {T : Type}

/-- The owners recorded for the tests handed out so far, in order. -/
def ownersIn (rid : RunId) : Event T → List Tag
  | .pulled r e items => if r = rid then List.replicate items.length e.tag else []
  | _ => []

def owners (rid : RunId) (evs : List (Event T)) : List Tag := evs.flatMap (ownersIn rid)

theorem owners_length (rid : RunId) (evs : List (Event T)) :
    (owners rid evs).length = (handedOut rid evs).length := by
  unfold owners handedOut
  induction evs with
  | nil => rfl
  | cons ev evs ih =>
    simp only [List.flatMap_cons, List.length_append, ih]
    congr 1
    cases ev <;> simp [ownersIn, pulledIn]
    split <;> simp

theorem handedOut_append (rid : RunId) (a b : List (Event T)) :
    handedOut rid (a ++ b) = handedOut rid a ++ handedOut rid b := by simp [handedOut]

theorem owners_append (rid : RunId) (a b : List (Event T)) :
    owners rid (a ++ b) = owners rid a ++ owners rid b := by simp [owners]

theorem manifests_append (rid : RunId) (a b : List (Event T)) :
    manifests rid (a ++ b) = manifests rid a ++ manifests rid b := by simp [manifests]

theorem handedTo_append (rid : RunId) (t : Tag) (a b : List (Event T)) :
    handedTo rid t (a ++ b) = handedTo rid t a ++ handedTo rid t b := by simp [handedTo]

theorem quiet_none {rid : RunId} {evs : List (Event T)} (h : Quiet evs) :
    handedOut rid evs = [] ∧ owners rid evs = [] ∧ manifests rid evs = [] := by
  refine ⟨?_, ?_, ?_⟩
  · simp only [handedOut, List.flatMap_eq_nil_iff]
    intro ev hev
    have := (h ev hev).2
    cases ev <;> simp [pulledIn]
    exact absurd rfl (this _ _ _)
  · simp only [owners, List.flatMap_eq_nil_iff]
    intro ev hev
    have := (h ev hev).2
    cases ev <;> simp [ownersIn]
    exact absurd rfl (this _ _ _)
  · simp only [manifests, List.filterMap_eq_nil_iff]
    intro ev hev
    have := (h ev hev).1
    cases ev with
    | manifest r flat added =>
      cases added
      · rfl
      · exact absurd rfl (this _ _)
    | _ => rfl

/-- The tests whose owner is `t` are those handed to `t`. -/
theorem ownedBy_history (rid : RunId) (t : Tag) (evs : List (Event T)) (xs : List (WorkerTest T))
    (ts : List Tag) :
    ownedBy t (handedOut rid evs ++ xs) (owners rid evs ++ ts) =
      handedTo rid t evs ++ ownedBy t xs ts := by
  induction evs with
  | nil => rfl
  | cons ev evs ih =>
    have key : ∀ (items : List (WorkerTest T)) (e : Tag) (ys : List (WorkerTest T)) (us : List Tag),
        ownedBy t (items ++ ys) (List.replicate items.length e ++ us) =
          (if e = t then items else []) ++ ownedBy t ys us := by
      intro items e ys us
      induction items with
      | nil => simp
      | cons x items ih' =>
        rw [List.cons_append, List.length_cons, List.replicate_succ, List.cons_append,
          ownedBy_cons, ih']
        by_cases h : e = t <;> simp [h]
    have hstep : ∀ ys us, ownedBy t (pulledIn rid ev ++ ys) (ownersIn rid ev ++ us) =
        pulledBy rid t ev ++ ownedBy t ys us := by
      intro ys us
      cases ev with
      | pulled r e items =>
        simp only [pulledIn, ownersIn, pulledBy]
        by_cases hr : r = rid
        · simp only [hr, if_true, true_and]
          exact key items e.tag ys us
        · simp [hr]
      | _ => rfl
    simp only [handedOut, owners, handedTo, List.flatMap_cons, List.append_assoc] at ih ⊢
    rw [hstep, ih]

/-- A manifest view that agrees with the history. -/
def ViewOk (rid : RunId) (evs : List (Event T)) (v : ManifestView (WorkerTest T)) : Prop :=
  v.items = handedOut rid evs ∧ v.assigned = owners rid evs ∧
    ∃ flat, manifests rid evs = [flat] ∧ v.items = firstAttempts flat

/-- The queue of a run agrees with the history. -/
structure QueueOk (rid : RunId) (evs : List (Event T)) (q : JobQueue (WorkerTest T))
    (flat : List (T × Nat)) : Prop where
  one : manifests rid evs = [flat]
  queue : q.queue = flat.map (fun p => (⟨p.1, 1⟩, p.2))
  handed : handedOut rid evs = (firstAttempts flat).take q.ptr
  cells : q.assigned = owners rid evs ++ List.replicate (flat.length - q.ptr) .externalClient

/-- The state of a run agrees with the history. -/
def HistOk (rid : RunId) (evs : List (Event T)) : Option (RunState T) → Prop
  | none => manifests rid evs = [] ∧ handedOut rid evs = []
  | some (.waiting ..) => manifests rid evs = [] ∧ handedOut rid evs = []
  | some (.hasWork q ..) => ∃ flat, QueueOk rid evs q flat
  | some (.done ..) => (manifests rid evs = [] ∧ handedOut rid evs = []) ∨
      ∃ flat, manifests rid evs = [flat] ∧ handedOut rid evs = firstAttempts flat
  | some (.cancelled _) => (manifests rid evs = [] ∧ handedOut rid evs = []) ∨
      ∃ flat, manifests rid evs = [flat] ∧ (handedOut rid evs) <+: firstAttempts flat

structure Hist (rid : RunId) (L : Loc T) : Prop where
  st : HistOk rid L.evs L.s
  respond : ∀ r e items eow pl, .respond r e items eow (some pl) ∈ L.ps → ViewOk rid L.evs pl.view
  dump : ∀ r v, .dumpManifest r v ∈ L.ps → ViewOk rid L.evs v
  store : ∀ v ∈ L.store, HasCell L.s ∧ ViewOk rid L.evs v

theorem QueueOk.quiet {rid : RunId} {evs new : List (Event T)} {q : JobQueue (WorkerTest T)}
    {flat : List (T × Nat)} (h : QueueOk rid evs q flat) (hq : Quiet new) :
    QueueOk rid (evs ++ new) q flat := by
  obtain ⟨h1, h2, h3⟩ := quiet_none (rid := rid) hq
  exact ⟨by rw [manifests_append, h3, List.append_nil]; exact h.one, h.queue,
    by rw [handedOut_append, h1, List.append_nil]; exact h.handed,
    by rw [owners_append, h2, List.append_nil]; exact h.cells⟩

theorem histOk_quiet {rid : RunId} {evs new : List (Event T)} {s : Option (RunState T)}
    (h : HistOk rid evs s) (hq : Quiet new) : HistOk rid (evs ++ new) s := by
  have hz := quiet_none (rid := rid) hq
  have h1 : manifests rid (evs ++ new) = manifests rid evs := by
    rw [manifests_append, hz.2.2, List.append_nil]
  have h2 : handedOut rid (evs ++ new) = handedOut rid evs := by
    rw [handedOut_append, hz.1, List.append_nil]
  cases s with
  | none => simp only [HistOk, h1, h2]; exact h
  | some s =>
    cases s with
    | waiting => simp only [HistOk, h1, h2]; exact h
    | hasWork q b md act hs =>
      obtain ⟨flat, hf⟩ := h
      exact ⟨flat, hf.quiet hq⟩
    | done => simp only [HistOk, h1, h2]; exact h
    | cancelled => simp only [HistOk, h1, h2]; exact h

theorem viewOk_quiet {rid : RunId} {evs new : List (Event T)} {v : ManifestView (WorkerTest T)}
    (h : ViewOk rid evs v) (hq : Quiet new) : ViewOk rid (evs ++ new) v := by
  have hz := quiet_none (rid := rid) hq
  have h1 : manifests rid (evs ++ new) = manifests rid evs := by
    rw [manifests_append, hz.2.2, List.append_nil]
  have h2 : handedOut rid (evs ++ new) = handedOut rid evs := by
    rw [handedOut_append, hz.1, List.append_nil]
  have h3 : owners rid (evs ++ new) = owners rid evs := by
    rw [owners_append, hz.2.1, List.append_nil]
  simp only [ViewOk, h1, h2, h3]
  exact h

theorem QueueOk.pull {rid : RunId} {evs : List (Event T)} {q q' : JobQueue (WorkerTest T)}
    {flat : List (T × Nat)} {e : Entity} {items : List (WorkerTest T)} (h : QueueOk rid evs q flat)
    (hw : q.WF) (hp : JobQueue.Pulled q q' e.tag items) :
    QueueOk rid (evs ++ [.pulled rid e items]) q' flat := by
  have hlen : q.queue.length = flat.length := by rw [h.queue]; simp
  have hitems : items = ((firstAttempts flat).drop q.ptr).take (q'.ptr - q.ptr) := by
    rw [hp.items, h.queue]
    simp only [slice, firstAttempts, List.map_take, List.map_drop, List.map_map]
    rfl
  have hfl : (firstAttempts flat).length = flat.length := by simp [firstAttempts]
  have hle := hp.le
  have hle' := hp.le'
  have hil : items.length = q'.ptr - q.ptr := by
    rw [hitems, List.length_take, List.length_drop, hfl]
    omega
  have hol : (owners rid evs).length = q.ptr := by
    rw [owners_length, h.handed, List.length_take, hfl]
    omega
  refine ⟨?_, by rw [hp.queue]; exact h.queue, ?_, ?_⟩
  · rw [manifests_append, h.one]
    rfl
  · rw [handedOut_append, h.handed]
    simp only [handedOut, pulledIn, List.flatMap_cons, List.flatMap_nil, if_true, List.append_nil]
    rw [hitems, ← List.take_add]
    congr 1
    omega
  · rw [hp.assigned, h.cells, owners_append]
    simp only [owners, ownersIn, List.flatMap_cons, List.flatMap_nil, if_true, List.append_nil]
    have hcl : (owners rid evs ++ List.replicate (flat.length - q.ptr) Tag.externalClient).length =
        flat.length := by
      rw [List.length_append, hol, List.length_replicate]; omega
    apply List.ext_getElem?
    intro j
    by_cases hj : j < flat.length
    · rw [assignCells_get (by rw [show List.flatMap (ownersIn rid) evs = owners rid evs from rfl, hcl]; exact hj)]
      rw [show List.flatMap (ownersIn rid) evs = owners rid evs from rfl]
      by_cases h1 : j < q.ptr
      · rw [if_neg (by omega)]
        rw [List.append_assoc, List.getElem?_append_left (by omega),
          List.getElem?_append_left (by omega)]
      · by_cases h2 : j < q'.ptr
        · rw [if_pos ⟨by omega, h2⟩]
          rw [List.append_assoc, List.getElem?_append_right (by omega),
            List.getElem?_append_left (by rw [List.length_replicate]; omega),
            List.getElem?_replicate, if_pos (by omega)]
        · rw [if_neg (by omega)]
          rw [List.getElem?_append_right (by omega), List.getElem?_replicate, if_pos (by omega),
            List.getElem?_append_right (by rw [List.length_append, List.length_replicate]; omega),
            List.getElem?_replicate, if_pos (by rw [List.length_append, List.length_replicate]; omega)]
    · rw [List.getElem?_eq_none (by rw [assignCells_length, show List.flatMap (ownersIn rid) evs = owners rid evs from rfl, hcl]; omega),
        List.getElem?_eq_none]
      rw [List.length_append, List.length_append, show List.flatMap (ownersIn rid) evs = owners rid evs from rfl, hol,
        List.length_replicate, List.length_replicate]
      omega

/-- The tests handed out are the manifest up to the pointer. -/
theorem QueueOk.handed_length {rid : RunId} {evs : List (Event T)} {q : JobQueue (WorkerTest T)}
    {flat : List (T × Nat)} (h : QueueOk rid evs q flat) (hw : q.WF) :
    (handedOut rid evs).length = q.ptr := by
  have hp := hw.ptr
  rw [h.queue] at hp
  rw [h.handed, List.length_take]
  simp only [firstAttempts, List.length_map] at hp ⊢
  omega

theorem QueueOk.atEnd {rid : RunId} {evs : List (Event T)} {q : JobQueue (WorkerTest T)}
    {flat : List (T × Nat)} (h : QueueOk rid evs q flat) (hw : q.WF) (he : q.isAtEnd = true) :
    handedOut rid evs = firstAttempts flat ∧ q.assigned = owners rid evs := by
  simp only [JobQueue.isAtEnd, decide_eq_true_eq] at he
  have hl : q.queue.length = flat.length := by rw [h.queue]; simp
  refine ⟨?_, ?_⟩
  · rw [h.handed, List.take_of_length_le]
    simp only [firstAttempts, List.length_map]
    omega
  · rw [h.cells, show flat.length - q.ptr = 0 by omega]
    simp

theorem histOk_change {rid : RunId} {w : Bool} {s s' : Option (RunState T)} {evs new : List (Event T)}
    (h : HistOk rid evs s) (hb : StOk s) (hc : Change rid w s new s')
    (hm : ∀ q b md act hs, s = some (.hasWork q b md act hs) →
      s' = some (RunState.hasWork q b md act hs).markEnd.1 → q.isAtEnd = true) :
    HistOk rid (evs ++ new) s' := by
  cases hc with
  | refl _ hq => exact histOk_quiet h hq
  | create p hp =>
    have := histOk_quiet (new := [.joined p (.fresh true false)]) h (by simp [Quiet])
    exact this
  | load d =>
    have := histOk_quiet (new := [.loaded rid d]) h (by simp [Quiet])
    exact Or.inl this
  | waiting hq => exact histOk_quiet (s := some (.waiting _ _ _ _)) h hq
  | manifest flat md =>
    refine ⟨flat, ?_⟩
    have ho : owners rid evs = [] := by
      rw [← List.length_eq_zero_iff, owners_length, h.2]; rfl
    constructor
    · rw [manifests_append, h.1]; simp [manifests, manifestIn]
    · simp [JobQueue.new]
    · rw [handedOut_append, h.2]; simp [handedOut, pulledIn, JobQueue.new]
    · rw [owners_append, ho]; simp [owners, ownersIn, JobQueue.new]
  | active hq => exact histOk_quiet (s := some (.hasWork _ _ _ _ _)) h hq
  | pull hg =>
    obtain ⟨flat, hf⟩ := h
    exact ⟨flat, hf.pull hb.2 (JobQueue.getWork_pulled hb.2 hb.1 hg)⟩
  | mark hq =>
    obtain ⟨flat, hf⟩ := h
    have he := hm _ _ _ _ _ rfl rfl
    refine Or.inr ⟨flat, (hf.quiet hq).one, ?_⟩
    exact ((hf.quiet hq).atEnd hb.2 he).1
  | seen hq => exact histOk_quiet (s := some (.done _ _ _ _ _)) h hq
  | persisted => exact histOk_quiet (s := some (.done _ _ _ _ _)) h (by simp [Quiet])
  | empty => exact Or.inl (histOk_quiet (s := some (.waiting _ _ _ _)) h (by simp [Quiet]))
  | cancelWaiting r hq => exact Or.inl (histOk_quiet (s := some (.waiting _ _ _ _)) h hq)
  | cancelWork r hq =>
    obtain ⟨flat, hf⟩ := h
    refine Or.inr ⟨flat, (hf.quiet hq).one, ?_⟩
    rw [(hf.quiet hq).handed]
    exact List.take_prefix _ _
  | cancelAgain r r' hq => exact histOk_quiet (s := some (.cancelled _)) h hq

theorem change_quiet_of_hasCell {rid : RunId} {w : Bool} {s s' : Option (RunState T)}
    {new : List (Event T)} (hc : Change rid w s new s') (h : HasCell s) : Quiet new := by
  cases hc with
  | refl _ hq => exact hq
  | seen hq => exact hq
  | persisted => simp [Quiet]
  | _ => exact absurd h (by simp [HasCell])

/-- Where the plans come from: a step that leaves one is the step marking the end. -/
theorem next_plan {rid : RunId} {L L' : Loc T} (hs : LStep rid L L') :
    (∀ r e items eow pl, .respond r e items eow (some pl) ∈ L'.ps →
      .respond r e items eow (some pl) ∈ L.ps ∨
      ∃ q b md act h, L.s = some (.hasWork q b md act h) ∧
        L'.s = some (RunState.hasWork q b md act h).markEnd.1 ∧ pl.view = q.manifestView) ∧
    (∀ r v, .dumpManifest r v ∈ L'.ps → .dumpManifest r v ∈ L.ps ∨
      ∃ e items eow pl, .respond r e items eow (some pl) ∈ L.ps ∧ pl.view = v) ∧
    (∀ v ∈ L'.store, v ∈ L.store ∨ ∃ r, .dumpManifest r v ∈ L.ps) := by
  cases hs with
  | join p hp =>
    cases h : L.s <;> simp only [Loc.app, joinEff, List.mem_append, List.mem_singleton, reduceCtorEq,
      or_false, Option.toList_none, List.nil_append] <;>
      exact ⟨fun _ _ _ _ _ h => Or.inl h, fun _ _ h => Or.inl h, fun _ h => Or.inl h⟩
  | req r hr =>
    cases h : L.s with
    | none =>
      simp only [Loc.app, reqEff, List.append_nil, Option.toList_none, List.nil_append]
      exact ⟨fun _ _ _ _ _ h => Or.inl h, fun _ _ h => Or.inl h, fun _ h => Or.inl h⟩
    | some s =>
      have hno : (∀ r' e items eow pl, .respond r' e items eow (some pl) ∉ (exec rid s r).next) ∧
          (∀ r' v, .dumpManifest r' v ∉ (exec rid s r).next) ∧ (exec rid s r).stored = none := by
        cases r <;> simp only [exec, subIf]
        case nextWork e => split <;> simp
        all_goals first
          | (split <;> simp)
          | simp
      simp only [Loc.app, reqEff, List.mem_append, hno.2.2, Option.toList_none, List.nil_append]
      refine ⟨fun r' e items eow pl h' => ?_, fun r' v h' => ?_, fun v h' => Or.inl h'⟩
      · rcases h' with h' | h'
        · exact Or.inl h'
        · exact absurd h' (hno.1 _ _ _ _ _)
      · rcases h' with h' | h'
        · exact Or.inl h'
        · exact absurd h' (hno.2.1 _ _)
  | cont p a b ans ok hp hm hr =>
    have hk : ∀ q, q ∈ a ++ b → q ∈ L.ps := by
      intro q hq
      rw [hm]
      rcases List.mem_append.1 hq with hq | hq
      · exact List.mem_append_left _ hq
      · exact List.mem_append_right _ (List.mem_cons_of_mem _ hq)
    have hpm : p ∈ L.ps := by rw [hm]; simp
    simp only [Loc.app, List.mem_append]
    have hk' : ∀ q, q ∈ a ∨ q ∈ b → q ∈ L.ps := fun q hq => hk q (List.mem_append.2 hq)
    suffices hnew : (∀ r e items eow pl, .respond r e items eow (some pl) ∈ (contEff L.s ans ok p).next →
        ∃ q b md act h, L.s = some (.hasWork q b md act h) ∧
        (contEff L.s ans ok p).state = some (RunState.hasWork q b md act h).markEnd.1 ∧ pl.view = q.manifestView) ∧
        (∀ r v, .dumpManifest r v ∈ (contEff L.s ans ok p).next →
          ∃ e items eow pl, p = .respond r e items eow (some pl) ∧ pl.view = v) ∧
        (∀ v ∈ (contEff L.s ans ok p).stored.toList, ∃ r, p = .dumpManifest r v) by
      refine ⟨fun r e items eow pl h => ?_, fun r v h => ?_, fun v h => ?_⟩
      · rcases h with h | h
        · exact Or.inl (hk' _ h)
        · exact Or.inr (hnew.1 _ _ _ _ _ h)
      · rcases h with h | h
        · exact Or.inl (hk' _ h)
        · obtain ⟨e, items, eow, pl, rfl, h2⟩ := hnew.2.1 _ _ h
          exact Or.inr ⟨e, items, eow, pl, hpm, h2⟩
      · rcases h with h | h
        · obtain ⟨r, rfl⟩ := hnew.2.2 v h
          exact Or.inr ⟨r, hpm⟩
        · exact Or.inl h
    cases p <;> simp only [contEff]
    case joinRemote p => cases ans <;> cases L.s <;> simp [loadRemote, createFresh]
    case joinRead => cases L.s <;> simp
    case pulled => split <;> simp
    case markEnd r e items =>
      cases hL : L.s with
      | none => simp
      | some s =>
        cases s with
        | hasWork q b md act h =>
          simp only [RunState.markEnd, subIf, Option.isSome_some, if_true, List.mem_cons,
            List.not_mem_nil, reduceCtorEq, false_or, or_false, Pending.respond.injEq,
            Option.some.injEq, Option.toList_none]
          refine ⟨?_, fun _ _ h => h.elim, fun _ h => h.elim⟩
          rintro r' e' items' eow pl ⟨-, -, -, -, rfl⟩
          exact ⟨_, _, _, _, _, rfl, rfl, rfl⟩
        | _ => simp [RunState.markEnd, subIf]
    case respond r e items eow plan =>
      split
      · cases plan with
        | none => simp [planTasks]
        | some pl =>
          refine ⟨by simp [planTasks], fun r' v h => ?_, by simp⟩
          simp only [planTasks, List.mem_cons, Pending.dumpManifest.injEq, reduceCtorEq,
            List.not_mem_nil, or_false] at h
          obtain ⟨rfl, rfl⟩ := h
          exact ⟨_, _, _, _, rfl, rfl⟩
      · simp
    case sub => simp
    case dumpManifest => split <;> simp
    case setPersisted => simp
    case dumpState => split <;> simp
    case timer =>
      cases L.s with
      | none => simp
      | some s =>
        simp only [timerEff, rearm]
        split
        · simp
        · split <;> simp
    case timeoutWrite =>
      cases L.s with
      | none => simp
      | some s =>
        simp only [rearm, subIf]
        split <;> split <;> simp

/-- Only the continuation that saw the end of the queue marks the end. -/
theorem mark_atEnd {rid : RunId} {L L' : Loc T} (hb : Base L) (hs : LStep rid L L')
    {q : JobQueue (WorkerTest T)} {b : Nat} {md : String} {act : WorkerSet (Option Nat)} {h : String}
    (h1 : L.s = some (.hasWork q b md act h))
    (h2 : L'.s = some (RunState.hasWork q b md act h).markEnd.1) : q.isAtEnd = true := by
  cases hs with
  | join p hp => simp [Loc.app, joinEff, h1, RunState.markEnd] at h2
  | req r hr =>
    simp only [Loc.app, reqEff, h1] at h2
    exfalso
    obtain ⟨w, hc, -⟩ := exec_change rid (.hasWork q b md act h) r
    rw [h2] at hc
    cases r <;> simp only [exec] at h2
    case nextWork e =>
      simp only [RunState.pull] at h2
      cases hg : q.getWork e.tag b <;> simp [hg, RunState.markEnd] at h2
    all_goals simp [RunState.addManifest, RunState.manifestFailed, RunState.emptyManifest,
      RunState.initMetadata, RunState.retryManifest, RunState.complete, RunState.cancel,
      RunState.markEnd] at h2
  | cont p a' b' ans ok hp hm hr =>
    have hpo := hb.ps p (by rw [hm]; simp)
    rw [h1] at hpo
    simp only [Loc.app, h1] at h2
    cases p <;> simp only [contEff] at h2
    case markEnd => exact hpo
    case joinRemote p => cases ans <;> simp [loadRemote, createFresh, RunState.markEnd] at h2
    case joinRead p =>
      simp only [RunState.join] at h2
      split at h2 <;> simp [RunState.markEnd] at h2
    case pulled => split at h2 <;> simp [RunState.markEnd] at h2
    case respond => split at h2 <;> simp [RunState.markEnd] at h2
    case sub => simp [RunState.markEnd] at h2
    case dumpManifest => split at h2 <;> simp [RunState.markEnd] at h2
    case setPersisted => simp [RunState.markEnd, RunState.setPersisted] at h2
    case dumpState => split at h2 <;> simp [RunState.markEnd] at h2
    case timer => simp only [timerEff] at h2; split at h2 <;> simp [RunState.markEnd] at h2
    case timeoutWrite =>
      simp only [RunState.timeoutWrite] at h2
      split at h2 <;> simp [RunState.markEnd] at h2

theorem hist_step {rid : RunId} {L L' : Loc T} (hb : Base L) (h : Hist rid L)
    (hs : LStep rid L L') : Hist rid L' := by
  obtain ⟨w, evs, hc, he, hw⟩ := hs.change
  have hst : HistOk rid L'.evs L'.s := by
    rw [he]
    exact histOk_change h.st hb.st hc (fun q b md act hh h1 h2 => mark_atEnd hb hs h1 h2)
  have hb' := base_step hb hs
  obtain ⟨n1, n2, n3⟩ := next_plan hs
  have hview : ∀ v, HasCell L.s → ViewOk rid L.evs v → ViewOk rid L'.evs v := by
    intro v hcell hv
    rw [he]
    exact viewOk_quiet hv (change_quiet_of_hasCell hc hcell)
  refine ⟨hst, ?_, ?_, ?_⟩
  · intro r e items eow pl hp
    rcases n1 _ _ _ _ _ hp with hp | ⟨q, b, md, act, hh, h1, h2, h3⟩
    · exact hview _ (hb.ps _ hp) (h.respond _ _ _ _ _ hp)
    · have hend := mark_atEnd hb hs h1 h2
      have hhist := h.st
      rw [h1] at hhist
      obtain ⟨flat, hf⟩ := hhist
      have hst' := hb.st
      rw [h1] at hst'
      have hae := hf.atEnd hst'.2 hend
      have hq : Quiet evs := by
        rw [h1, h2] at hc
        generalize hx : some (RunState.hasWork q b md act hh) = x at hc
        generalize hy : some (RunState.hasWork q b md act hh).markEnd.1 = y at hc
        cases hc with
        | refl _ hq => exact hq
        | mark hq => exact hq
        | active hq => exact hq
        | waiting hq => exact hq
        | seen hq => exact hq
        | cancelWork _ hq => exact hq
        | cancelWaiting _ hq => exact hq
        | cancelAgain _ _ hq => exact hq
        | persisted => simp [Quiet]
        | empty => simp [Quiet]
        | create => simp [Quiet]
        | load => simp [Quiet]
        | manifest => cases hx
        | pull => cases hy
      rw [he]
      refine viewOk_quiet ⟨?_, ?_, flat, hf.one, ?_⟩ hq
      · rw [h3, hae.1]
        simp [JobQueue.manifestView, JobQueue.intoManifestView, hf.queue, firstAttempts]
      · rw [h3, ← hae.2]; rfl
      · rw [h3]
        simp [JobQueue.manifestView, JobQueue.intoManifestView, hf.queue, firstAttempts]
  · intro r v hp
    rcases n2 _ _ hp with hp | ⟨e, items, eow, pl, hq, rfl⟩
    · exact hview _ (hb.ps _ hp) (h.dump _ _ hp)
    · have : HasCell L.s := hb.ps _ hq
      exact hview _ this (h.respond _ _ _ _ _ hq)
  · intro v hv
    rcases n3 v hv with hv | ⟨r, hp⟩
    · obtain ⟨h1, h2⟩ := h.store v hv
      exact ⟨hasCell_change hc h1, hview _ h1 h2⟩
    · have : HasCell L.s := hb.ps _ hp
      exact ⟨hasCell_change hc this, hview _ this (h.dump _ _ hp)⟩

theorem hist_run (acts : List (RunsAct T)) (rid : RunId) :
    Hist rid (proj ((init : Runs T).run acts) rid) :=
  init_proj_induction' ⟨⟨rfl, rfl⟩, by simp [Loc.init], by simp [Loc.init], by simp [Loc.init]⟩
    (fun _ _ hb h hs => hist_step hb h hs) acts

end Abq.Runs
