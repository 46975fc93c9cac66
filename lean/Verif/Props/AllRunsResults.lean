import Verif.Props.AllRunsLife

/-!
# C16, C22, C52, C55: results, retries, hand-out and persistence seen from the registry of runs
-/

namespace Abq.Props
open Abq Runs Spec WorkerSet
variable {T : Type}

/-! ## C16 -/

theorem filter_split {γ : Type} {f : γ → Bool} {l x y : List γ} {e : γ}
    (h : l.filter f = x ++ e :: y) : ∃ x' y', l = x' ++ e :: y' ∧ x'.filter f = x := by
  induction l generalizing x with
  | nil => simp at h
  | cons z l ih =>
    rw [List.filter_cons] at h
    split at h
    · rename_i hz
      cases x with
      | nil =>
        simp only [List.nil_append, List.cons.injEq] at h
        exact ⟨[], l, by simp [h.1], rfl⟩
      | cons w x =>
        simp only [List.cons_append, List.cons.injEq] at h
        obtain ⟨x', y', h1, h2⟩ := ih h.2
        refine ⟨z :: x', y', by rw [h1]; rfl, ?_⟩
        rw [List.filter_cons, if_pos hz, h2, h.1]
    · rename_i hz
      obtain ⟨x', y', h1, h2⟩ := ih h
      refine ⟨z :: x', y', by rw [h1]; rfl, ?_⟩
      rw [List.filter_cons, if_neg hz, h2]

theorem noFetch_filter {rid : RunId} {t : Tag} {evs : List (Event T)} (h : NoFetchAfterCompletion rid t evs) :
    NoFetchAfterCompletion rid t (evs.filter (fun ev => ev.rid == rid)) := by
  intro a e items b hab he hi
  obtain ⟨x', y', h1, h2⟩ := filter_split hab
  have := h x' e items y' h1 he hi
  rw [← h2, finished_filter]
  exact this

theorem val_mem {α : Type} {ws : WorkerSet α} {t : Tag} {v : α} (h : val ws t = some v) :
    ∃ p ∈ ws, p.1.tag = t ∧ p.2 = v := by
  unfold val lookup at h
  rw [Option.map_eq_some_iff] at h
  obtain ⟨p, h1, h2⟩ := h
  exact ⟨p, List.mem_of_find?_eq_some h1, by simpa using List.find?_some h1, h2⟩

theorem mem_val {α : Type} {ws : WorkerSet α} {p : Entity × α} (hn : (tags ws).Nodup) (h : p ∈ ws) :
    val ws p.1.tag = some p.2 := by
  unfold val lookup
  induction ws with
  | nil => cases h
  | cons q ws ih =>
    have hn' := List.nodup_cons.1 hn
    rw [List.find?_cons]
    rcases List.mem_cons.1 h with rfl | h
    · simp
    · have : q.1.tag ≠ p.1.tag := fun e => hn'.1 (List.mem_map.2 ⟨p, h, e.symm⟩)
      rw [decide_eq_false this]
      exact ih hn'.2 h

/-- What an answer about the results says, in terms of who is recorded as active. -/
theorem read_step {rid : RunId} {s0 s1 : Option (RunState T)} {ans : ReadAns} (h1 : Step1 rid s0 [.read rid ans] s1) (t : Tag) :
    (Active s0 t → ans ≠ .readFromCell ∧ ∀ l, ans = .inProgress l → t ∈ l) ∧
    ((recorded s0).Nodup → ∀ l, ans = .inProgress l → t ∈ l → t ∈ recorded s0 ∧ ∀ g, Fine s0 t g → g = false) := by
  generalize hx : [(.read rid ans : Event T)] = evs' at h1
  cases h1 with
  | req s r =>
    cases r <;> simp only [exec] at hx
    case nextWork e => split at hx <;> cases hx
    case readCell =>
      have hans : ans = s.readCell := by simpa using hx
      subst hans
      cases s with
      | waiting => simp [RunState.readCell]
      | cancelled r => cases r <;> simp [RunState.readCell]
      | hasWork q b md act h =>
        simp only [RunState.readCell]
        refine ⟨fun ho => ⟨by simp, ?_⟩, ?_⟩
        · intro l hl
          simp only [ReadAns.inProgress.injEq] at hl
          subst hl
          obtain ⟨p, hp1, hp2, hp3⟩ := val_mem ho
          exact List.mem_map.2 ⟨p, List.mem_filter.2 ⟨hp1, by simp [hp3]⟩, hp2⟩
        · intro hn l hl ht
          simp only [ReadAns.inProgress.injEq] at hl
          subst hl
          obtain ⟨p, hp, rfl⟩ := List.mem_map.1 ht
          obtain ⟨hp1, hp2⟩ := List.mem_filter.1 hp
          refine ⟨List.mem_map_of_mem hp1, ?_⟩
          rintro g (⟨n, hv⟩ | hg)
          · rw [mem_val hn hp1] at hv
            rw [Option.some.inj hv] at hp2
            cases hp2
          · exact hg
      | done x md seen m h =>
        simp only [RunState.readCell]
        have hmem : Active (some (.done x md seen m h) : Option (RunState T)) t →
            t ∈ (seen.filter (fun p => p.2)).map (fun p => p.1.tag) := by
          intro ho
          obtain ⟨p, hp1, hp2, hp3⟩ := val_mem ho
          exact List.mem_map.2 ⟨p, List.mem_filter.2 ⟨hp1, hp3⟩, hp2⟩
        split
        · rename_i hemp
          rw [List.isEmpty_iff] at hemp
          refine ⟨fun ho => ?_, by simp⟩
          have := hmem ho
          rw [hemp] at this
          cases this
        · refine ⟨fun ho => ⟨by simp, ?_⟩, ?_⟩
          · intro l hl
            simp only [ReadAns.inProgress.injEq] at hl
            subst hl
            exact hmem ho
          · intro hn l hl ht
            simp only [ReadAns.inProgress.injEq] at hl
            subst hl
            obtain ⟨p, hp, rfl⟩ := List.mem_map.1 ht
            obtain ⟨hp1, hp2⟩ := List.mem_filter.1 hp
            refine ⟨List.mem_map_of_mem hp1, ?_⟩
            rintro g (hv | hg)
            · rw [mem_val hn hp1] at hv
              rw [Option.some.inj hv] at hp2
              cases hp2
            · exact hg
    all_goals cases hx
  | _ => cases hx

theorem read_history (rid : RunId) (ans : ReadAns) (t : Tag) (acts : List (RunsAct T)) :
    Always (fun a ev => ev = .read rid ans → NoFetchAfterCompletion rid t a → owes rid t a = true →
      ans ≠ .readFromCell ∧ ∀ l, ans = .inProgress l → t ∈ l)
      (proj ((init : Runs T).run acts) rid).evs := by
  refine always_run (I := fun L => NoFetchAfterCompletion rid t L.evs → ActInv rid t L)
    (fun acts h => actInv_run acts rid t h) ?_ acts
  intro L L' ev hb hI hs he hev hno ho
  subst hev
  obtain ⟨evs, h1, h2⟩ := hs.step1 hb
  rw [he] at h2
  rw [← List.append_cancel_left h2] at h1
  exact (read_step h1 t).1 ((hI hno).owes ho)

theorem listed_history (rid : RunId) (l : List Tag) (t : Tag) (acts : List (RunsAct T)) :
    Always (fun a ev => ev = .read rid (.inProgress l) → t ∈ l → known rid t a = true ∧ gone rid t a = false)
      (proj ((init : Runs T).run acts) rid).evs := by
  refine always_run (I := fun L => Track rid L ∧ Fine L.s t (gone rid t L.evs))
    (fun acts => ⟨track_run acts rid, fine_run acts rid t⟩) ?_ acts
  intro L L' ev hb hI hs he hev ht
  subst hev
  obtain ⟨evs, h1, h2⟩ := hs.step1 hb
  rw [he] at h2
  rw [← List.append_cancel_left h2] at h1
  obtain ⟨hr, hg⟩ := (read_step h1 t).2 hI.1.nodup l rfl ht
  exact ⟨hI.1.known t hr, hg _ hI.2⟩

/-- C16 (partial): provided a runner that reported completion asks for more tests only after joining
again, as long as it owes results they are not served from storage, and an answer that the results are
not complete lists it. Missing: a runner that asks for tests after reporting completion, for which the
statement is false (`C16_full_statement_fails`). -/
theorem C16_results_when_complete_partial (acts : List (RunsAct T)) (rid : RunId) (ans : ReadAns)
    (a b : List (Event T))
    (h : ((init : Runs T).run acts).events = a ++ .read rid ans :: b) (t : Tag)
    (hno : NoFetchAfterCompletion rid t a) (ho : owes rid t a = true) :
    ans ≠ .readFromCell ∧ ∀ l, ans = .inProgress l → t ∈ l := by
  have := always_global (read_history rid ans t acts) h rfl rfl (noFetch_filter hno)
  rw [owes_filter] at this
  exact this ho

example : owes "run" (Sample.w 1).tag ((init : Runs Nat).run Sample.pulls).events = true := rfl


/-- C16: an answer that the results are not complete names only runners that the queue has heard of in
this run, and that have neither reported completion nor given up, or have come back since. -/
theorem C16_waits_for (acts : List (RunsAct T)) (rid : RunId) (l : List Tag) (a b : List (Event T))
    (h : ((init : Runs T).run acts).events = a ++ .read rid (.inProgress l) :: b) (t : Tag) (ht : t ∈ l) :
    known rid t a = true ∧ gone rid t a = false := by
  have := always_global (listed_history rid l t acts) h rfl rfl ht
  rwa [known_filter, gone_filter] at this

example : ∃ a, ((init : Runs Nat).run (Sample.pulls ++ [.request "run" .readCell])).events =
    a ++ .read "run" (.inProgress [(Sample.w 1).tag, (Sample.w 2).tag]) :: [] := ⟨_, rfl⟩


/-- Completing early, and then fetching. -/
def fetchAfterCompletion : List (RunsAct Nat) :=
  Sample.serving ++
    [.request "run" (.nextWork (Sample.w 1)), .resume 1 .notFound true,
     .request "run" (.complete (Sample.w 1) 5), .request "run" (.complete (Sample.w 2) 6),
     .request "run" (.nextWork (Sample.w 1)), .resume 2 .notFound true, .resume 2 .notFound true]

/-- C16, the full statement is false of the code: a runner that asks for tests after it reported
completion is not recorded as active again, and the results are served as complete although it
has been handed a test. -/
theorem C16_full_statement_fails :
    (((init : Runs Nat).run (fetchAfterCompletion ++ [.request "run" .readCell])).events =
      ((init : Runs Nat).run fetchAfterCompletion).events ++ [.read "run" .readFromCell]) ∧
    owes "run" (Sample.w 1).tag ((init : Runs Nat).run fetchAfterCompletion).events = true :=
  ⟨rfl, by decide⟩

example : ((init : Runs Nat).run (Sample.pulls ++ [.request "run" .readCell])).events.getLast? =
    some (.read "run" (.inProgress [(Sample.w 1).tag, (Sample.w 2).tag])) := rfl

/-- Only the runner that has not reported completion is waited for. -/
example : ((init : Runs Nat).run (Sample.pulls ++ [.request "run" (.complete (Sample.w 1) 1),
    .request "run" .readCell])).events.getLast? = some (.read "run" (.inProgress [(Sample.w 2).tag])) := rfl

example : gone "run" (Sample.w 1).tag ((init : Runs Nat).run (Sample.pulls ++ [.request "run" (.complete (Sample.w 1) 1)])).events = true ∧
    gone "run" (Sample.w 2).tag ((init : Runs Nat).run (Sample.pulls ++ [.request "run" (.complete (Sample.w 1) 1)])).events = false := by
  decide

example : ((init : Runs Nat).run (Sample.pulls ++ [.request "run" (.complete (Sample.w 1) 1),
    .request "run" (.complete (Sample.w 2) 1), .request "run" .readCell])).events.getLast? =
    some (.read "run" .readFromCell) := rfl

/-! ## C22 -/

/-- C22: a worker is told to fetch its tests from storage only when the manifest of the run is
in storage, or the run was taken over from the remote store. -/
theorem C22_fetch_only_when_stored (acts : List (RunsAct T)) (rid : RunId) (e : Entity)
    (h : answer ((init : Runs T).run acts) rid (.retryManifest e) =
      [.retry rid e .fetchFromPersistence]) :
    (∃ v, (rid, v) ∈ ((init : Runs T).run acts).store) ∨
      ((init : Runs T).run acts).events.any (isLoad rid) = true := by
  rw [answer_eq _ _ _ (by simp [Req.writes])] at h
  have hw := (persist_run acts rid (T := T)).written
  cases hs : ((init : Runs T).run acts).get rid with
  | none => rw [hs] at h; simp [reqEff] at h
  | some s =>
    have hL : (proj ((init : Runs T).run acts) rid).s = some s := hs
    rw [hs] at h
    rw [hL] at hw
    simp only [reqEff, exec, List.cons.injEq, Event.retry.injEq, true_and, and_true] at h
    have hcell : CellIs true (some s) := by
      cases s with
      | done x md seen m hh =>
        cases m with
        | cell b => cases b <;> simp_all [RunState.retryManifest, CellIs]
        | emptyManifest => simp [RunState.retryManifest] at h
      | _ => simp [RunState.retryManifest] at h
    rcases hw hcell with h1 | h1
    · left
      cases hst : (proj ((init : Runs T).run acts) rid).store with
      | nil => exact absurd hst h1
      | cons v l =>
        have : v ∈ (proj ((init : Runs T).run acts) rid).store := by rw [hst]; simp
        obtain ⟨p, hp1, hp2⟩ := List.mem_map.1 this
        obtain ⟨hp3, hp4⟩ := List.mem_filter.1 hp1
        refine ⟨v, ?_⟩
        have : p = (rid, v) := by
          obtain ⟨r, w⟩ := p
          simp only [beq_iff_eq] at hp4 hp2
          rw [hp4, ← hp2]
        rw [← this]
        exact hp3
    · right
      rw [List.any_eq_true] at h1 ⊢
      obtain ⟨ev, h2, h3⟩ := h1
      exact ⟨ev, (List.mem_filter.1 h2).1, h3⟩

/-- C22: whatever manifest is in storage for a run is its whole manifest, and the tests found in
it for a runner are exactly those handed to that runner, in the order they were handed out. -/
theorem C22_stored_manifest (acts : List (RunsAct T)) (rid : RunId)
    (v : ManifestView (WorkerTest T)) (h : (rid, v) ∈ ((init : Runs T).run acts).store) (t : Tag) :
    v.getPartitionForEntity t = some (handedTo rid t ((init : Runs T).run acts).events) ∧
      ∃ flat, manifests rid ((init : Runs T).run acts).events = [flat] ∧
        v.items = firstAttempts flat := by
  have hv : v ∈ (proj ((init : Runs T).run acts) rid).store :=
    List.mem_map.2 ⟨(rid, v), List.mem_filter.2 ⟨h, by simp⟩, rfl⟩
  obtain ⟨-, h1, h2, flat, h3, h4⟩ := (hist_run acts rid).store v hv
  have e1 : manifests rid (proj ((init : Runs T).run acts) rid).evs =
      manifests rid ((init : Runs T).run acts).events := manifests_filter _ _
  refine ⟨?_, flat, by rw [← e1]; exact h3, h4⟩
  rw [getPartition_spec v t (by rw [h1, h2, owners_length]), h1, h2]
  have := ownedBy_history rid t (proj ((init : Runs T).run acts) rid).evs [] []
  simp only [List.append_nil] at this
  rw [this]
  have e2 : handedTo rid t (proj ((init : Runs T).run acts) rid).evs =
      handedTo rid t ((init : Runs T).run acts).events := handedTo_filter _ _ _
  rw [e2]
  simp [ownedBy]

/-- C22: while the run is serving tests, the retry manifest of a runner is what was handed to
it. -/
theorem C22_live_retry (acts : List (RunsAct T)) (rid : RunId) (e : Entity)
    (h : phaseOf ((init : Runs T).run acts) rid = some .serving)
    (hext : e.tag ≠ .externalClient) :
    answer ((init : Runs T).run acts) rid (.retryManifest e) =
      [.retry rid e (.manifest (handedTo rid e.tag ((init : Runs T).run acts).events))] := by
  rw [answer_eq _ _ _ (by simp [Req.writes])]
  obtain ⟨s, hs, hph⟩ := phaseOf_some h
  have hst := (hist_run acts rid (T := T)).st
  have hL : (proj ((init : Runs T).run acts) rid).s = some s := hs
  rw [hL] at hst
  have hok := (base_run acts rid (T := T)).st
  rw [hL] at hok
  cases s with
  | hasWork q b md act hh =>
    obtain ⟨flat, hf⟩ := hst
    rw [hs]
    simp only [reqEff, exec, RunState.retryManifest, List.cons.injEq, Event.retry.injEq,
      RetryAns.manifest.injEq, true_and, and_true]
    have e2 : handedTo rid e.tag (proj ((init : Runs T).run acts) rid).evs =
        handedTo rid e.tag ((init : Runs T).run acts).events := handedTo_filter _ _ _
    rw [← e2]
    have hq : q.getPartitionForEntity e.tag = ownedBy e.tag (firstAttempts flat) q.assigned := by
      have hqq := hf.queue
      unfold JobQueue.getPartitionForEntity ownedBy
      rw [hqq]
      simp only [firstAttempts, List.zip_map_left, List.filter_map, List.map_map]
      rfl
    have hlen := hf.handed_length hok.2
    have hsplit : firstAttempts flat =
        handedOut rid (proj ((init : Runs T).run acts) rid).evs ++ (firstAttempts flat).drop q.ptr := by
      rw [hf.handed, List.take_append_drop]
    rw [hq, hf.cells, hsplit, ownedBy_history]
    have : ownedBy e.tag ((firstAttempts flat).drop q.ptr)
        (List.replicate (flat.length - q.ptr) .externalClient) = [] := by
      unfold ownedBy
      rw [List.map_eq_nil_iff, List.filter_eq_nil_iff]
      intro p hp
      have := (List.of_mem_zip hp).2
      rw [List.mem_replicate] at this
      rw [this.2]
      simpa using fun hc => hext hc.symm
    rw [this, List.append_nil]
  | _ => cases hph

example : answer ((init : Runs Nat).run Sample.persisted) "run" (.retryManifest (Sample.w 1)) =
    [.retry "run" (Sample.w 1) .fetchFromPersistence] := rfl

example : ((init : Runs Nat).run Sample.persisted).store.map
    (fun p => p.2.getPartitionForEntity (Sample.w 2).tag) = [some [⟨11, 1⟩]] := by decide

/-! ## C52 -/

/-- The history of a cancelled run says that it was cancelled. -/
theorem cancelled_history (acts : List (RunsAct T)) (rid : RunId) :
    ∀ r, (proj ((init : Runs T).run acts) rid).s = some (.cancelled r) →
      manifests rid (proj ((init : Runs T).run acts) rid).evs ≠ [] →
      (proj ((init : Runs T).run acts) rid).evs.any (cancelsServing rid) = true := by
  refine (init_proj_induction' (I := fun L => Hist rid L ∧ ∀ r, L.s = some (.cancelled r) →
    manifests rid L.evs ≠ [] → L.evs.any (cancelsServing rid) = true) ?_ ?_ acts).2
  · refine ⟨?_, ?_⟩
    · exact hist_run [] rid
    · intro r h; cases h
  · intro L L' hb ⟨hh, ih⟩ hs
    have hh' := hist_step hb hh hs
    refine ⟨hh', ?_⟩
    intro r hL' hm
    obtain ⟨evs, h1, h2⟩ := hs.step1 hb
    have hst := hh.st
    rw [h2, List.any_append, Bool.or_eq_true]
    rw [h2, manifests_append] at hm
    generalize hL : L.s = s0 at h1 hst
    rw [hL'] at h1
    generalize hy : some (RunState.cancelled r : RunState T) = s1 at h1
    have old : s0 = some (.cancelled r) → manifests rid evs = [] →
        L.evs.any (cancelsServing rid) = true := by
      intro h3 h4
      refine ih r (hL.trans h3) ?_
      rw [h4, List.append_nil] at hm
      exact hm
    cases h1 with
    | silent s => subst hy; exact Or.inl (old rfl rfl)
    | setPersisted =>
      cases s0 with
      | none => cases hy
      | some s =>
        cases s with
        | cancelled r' => cases hy; exact Or.inl (old rfl rfl)
        | done x md seen m h => cases m <;> cases hy
        | _ => cases hy
    | fatal s p hp => subst hy; exact Or.inl (old rfl rfl)
    | create => cases hy
    | load => cases hy
    | joined s p hp =>
      cases s with
      | cancelled r' => cases hy; exact Or.inl (old rfl rfl)
      | hasWork q b md act h => simp only [RunState.join] at hy; split at hy <;> cases hy
      | done x md seen m h => simp only [RunState.join] at hy; split at hy <;> cases hy
      | _ => cases hy
    | noRun => cases hy
    | req s q =>
      cases s with
      | waiting ws b st h =>
        exfalso
        apply hm
        rw [hst.1]
        cases q <;> simp only [exec] at hy ⊢
        case nextWork => simp only [RunState.pull] at hy ⊢; cases hy
        all_goals first
          | rfl
          | cases hy
      | hasWork qq b md act h =>
        cases q <;> simp only [exec] at hy ⊢
        case cancel e rr => right; simp [RunState.cancel, cancelsServing]
        case nextWork e =>
          simp only [RunState.pull] at hy
          split at hy <;> simp at hy
          all_goals (rename_i hp; split at hp <;> simp at hp)
          all_goals (split at hy <;> simp at hy)
        all_goals cases hy
      | done x md seen m h =>
        cases q <;> simp only [exec] at hy
        case nextWork e => simp only [RunState.pull] at hy; cases hy
        case initMetadata e => simp only [RunState.initMetadata] at hy; split at hy <;> cases hy
        case retryManifest e =>
          cases m with
          | cell b => cases b <;> cases hy
          | emptyManifest => cases hy
        all_goals cases hy
      | cancelled r' =>
        cases q <;> simp only [exec] at hy ⊢ <;> left
        case cancel e rr =>
          refine ih r' hL ?_
          have h0 : manifests rid (exec rid (RunState.cancelled r' : RunState T) (Req.cancel e rr)).evs = [] := rfl
          rw [h0, List.append_nil] at hm
          exact hm
        case nextWork => cases hy; exact old rfl rfl
        case addManifest => cases hy; exact old rfl rfl
        all_goals (cases hy; exact old rfl rfl)
    | work => cases hy
    | mark s e items ho =>
      cases s with
      | cancelled r' => cases hy; exact Or.inl (old rfl rfl)
      | _ => cases hy
    | delivered s => subst hy; exact Or.inl (old rfl rfl)
    | lost s => subst hy; exact Or.inl (old rfl rfl)
    | storeFailed s => cases hy; exact Or.inl (old rfl rfl)
    | progress s last h => cases hy; exact Or.inl (old rfl rfl)
    | timeout s last =>
      cases s with
      | waiting =>
        exfalso
        apply hm
        rw [hst.1]
        rfl
      | hasWork q b md act h =>
        right
        by_cases hg : q.readIndex > last
        · simp [RunState.timeoutWrite, RunState.progress, hg] at hy
        · simp [RunState.timeoutWrite, RunState.progress, hg, cancelsServing]
      | cancelled r' => cases hy; exact Or.inl (old rfl rfl)
      | done => cases hy

/-- C52: a worker is told that it has seen the end of the manifest only when every test of the
manifest has been handed out, in order and once each, or the run was cancelled. -/
theorem C52_end_only_after_all (acts : List (RunsAct T)) (rid : RunId) (e : Entity)
    (items : List (WorkerTest T)) (flat : List (T × Nat)) (a b : List (Event T))
    (h : ((init : Runs T).run acts).events = a ++ .work rid e items true :: b)
    (hm : flat ∈ manifests rid a) :
    handedOut rid a = firstAttempts flat ∨ a.any (cancelsServing rid) = true := by
  have hall := always_run (rid := rid)
    (I := fun L => Hist rid L ∧ ∀ r, L.s = some (.cancelled r) →
      manifests rid L.evs ≠ [] → L.evs.any (cancelsServing rid) = true)
    (P := fun a ev => ev = .work rid e items true → flat ∈ manifests rid a →
      handedOut rid a = firstAttempts flat ∨ a.any (cancelsServing rid) = true)
    (fun acts => ⟨hist_run acts rid, cancelled_history acts rid⟩)
    (by
      intro L L' ev hb ⟨hh, hcan⟩ hs he hev hm
      subst hev
      obtain ⟨evs, h1, h2⟩ := hs.step1 hb
      rw [he] at h2
      have h3 := List.append_cancel_left h2
      rw [← h3] at h1
      have hok := hb.st
      have hst := hh.st
      clear hs hb he h2
      generalize hL : L.s = s0 at h1 hst hok
      generalize L'.s = s1 at h1
      have fin : Over s0 → handedOut rid L.evs = firstAttempts flat ∨
          L.evs.any (cancelsServing rid) = true := by
        intro ho
        cases s0 with
        | none => exact absurd ho (by simp [Over])
        | some s =>
          cases s with
          | waiting => exact absurd ho (by simp [Over])
          | hasWork q b md act hq =>
            left
            obtain ⟨flat', hf⟩ := hst
            rw [hf.one] at hm
            simp only [List.mem_singleton] at hm
            rw [hm]
            exact (hf.atEnd hok.2 ho).1
          | done =>
            left
            rcases hst with ⟨h4, -⟩ | ⟨flat', h4, h5⟩
            · rw [h4] at hm; cases hm
            · rw [h4] at hm
              simp only [List.mem_singleton] at hm
              rw [hm, h5]
          | cancelled r =>
            right
            exact hcan r hL (fun hc => by rw [hc] at hm; cases hm)
      generalize hx : [(.work rid e items true : Event T)] = evs' at h1
      cases h1 with
      | mark s e' items' ho => exact fin ho
      | req s r =>
        cases r <;> simp only [exec] at hx
        case nextWork e' =>
          cases s with
          | waiting => rw [hst.1] at hm; cases hm
          | hasWork q b md act h =>
            simp only [RunState.pull] at hx
            cases hg : q.getWork e'.tag b <;> simp [hg] at hx
          | done => exact fin trivial
          | cancelled => exact fin trivial
        all_goals cases hx
      | work => cases hx
      | _ => cases hx) acts
  have := always_global hall h rfl rfl (by rw [manifests_filter]; exact hm)
  rw [handedOut_filter] at this
  rcases this with h1 | h1
  · exact Or.inl h1
  · right
    rw [List.any_eq_true] at h1 ⊢
    obtain ⟨ev, h2, h3⟩ := h1
    exact ⟨ev, (List.mem_filter.1 h2).1, h3⟩

example : ((init : Runs Nat).run Sample.pulls).events =
    ((init : Runs Nat).run (Sample.pulls.take 11)).events ++ .work "run" (Sample.w 2) [⟨11, 1⟩] true :: [] ∧
    [(10, 0), (11, 0)] ∈ manifests "run" ((init : Runs Nat).run (Sample.pulls.take 11)).events := ⟨rfl, by decide⟩


/-- C52: every test handed out was written to the worker that asked, or is being written, or its
writing failed; none twice. -/
theorem C52_every_test_accounted (acts : List (RunsAct T)) (rid : RunId) :
    (handedOut rid ((init : Runs T).run acts).events).Perm
      (((init : Runs T).run acts).events.flatMap (deliveredIn rid) ++
        ((init : Runs T).run acts).events.flatMap (lostIn rid) ++
        ((init : Runs T).run acts).pending.flatMap (inFlight rid)) := by
  have h := accounted_run acts rid (T := T)
  unfold Accounted deliveredAll lostAll flightAll at h
  have e1 : handedOut rid (proj ((init : Runs T).run acts) rid).evs =
      handedOut rid ((init : Runs T).run acts).events := handedOut_filter _ _
  have e2 : (proj ((init : Runs T).run acts) rid).evs.flatMap (deliveredIn rid) =
      ((init : Runs T).run acts).events.flatMap (deliveredIn rid) :=
    flatMap_filter _ rid (by intro ev h; cases ev <;> simp_all [deliveredIn, Event.rid]) _
  have e3 : (proj ((init : Runs T).run acts) rid).evs.flatMap (lostIn rid) =
      ((init : Runs T).run acts).events.flatMap (lostIn rid) :=
    flatMap_filter _ rid (by intro ev h; cases ev <;> simp_all [lostIn, Event.rid]) _
  have e4 : (proj ((init : Runs T).run acts) rid).ps.flatMap (inFlight rid) =
      ((init : Runs T).run acts).pending.flatMap (inFlight rid) := by
    show (((init : Runs T).run acts).pending.filter _).flatMap _ = _
    induction ((init : Runs T).run acts).pending with
    | nil => rfl
    | cons p l ih =>
      rw [List.filter_cons]
      split
      · simp [ih]
      · rename_i hp
        rw [List.flatMap_cons, ih]
        have : inFlight rid p = [] := by
          cases p <;> simp_all [inFlight, Pending.rid]
        rw [this, List.nil_append]
  rw [e1, e2, e3, e4] at h
  exact h

/-- C52 (partial): once the tests of a run are exhausted and nothing is being written, the tests
delivered to workers are exactly those of the manifest, each once. Missing: tests whose bundle
could not be written to the worker are not handed out again
(`C52_full_statement_fails`). -/
theorem C52_all_delivered_partial (acts : List (RunsAct T)) (rid : RunId) (flat : List (T × Nat))
    (h : phaseOf ((init : Runs T).run acts) rid = some .exhausted)
    (hm : flat ∈ manifests rid ((init : Runs T).run acts).events)
    (hlost : ((init : Runs T).run acts).events.flatMap (lostIn rid) = [])
    (hfl : ((init : Runs T).run acts).pending.flatMap (inFlight rid) = []) :
    (((init : Runs T).run acts).events.flatMap (deliveredIn rid)).Perm (firstAttempts flat) := by
  have h1 := C52_every_test_accounted acts rid (T := T)
  rw [hlost, hfl, List.append_nil, List.append_nil] at h1
  rcases C09_how_runs_get_exhausted acts rid h with ⟨h2, -⟩ | ⟨flat', h2, h3⟩
  · rw [h2] at hm; cases hm
  · rw [h2] at hm
    simp only [List.mem_singleton] at hm
    rw [hm, ← h3]
    exact h1.symm

/-- C52, the full statement is false of the code: if the bundle of worker 2 cannot be written, its
test is delivered to nobody although the run is exhausted and nothing is in progress. -/
theorem C52_full_statement_fails :
    phaseOf ((init : Runs Nat).run (Sample.pulls ++ [.resume 1 .notFound false])) "run" =
      some .exhausted ∧
    ((init : Runs Nat).run (Sample.pulls ++ [.resume 1 .notFound false])).events.flatMap
      (deliveredIn "run") = [⟨10, 1⟩] ∧
    ((init : Runs Nat).run (Sample.pulls ++ [.resume 1 .notFound false])).pending.flatMap
      (inFlight "run") = [] ∧
    [(10, 0), (11, 0)] ∈ manifests "run"
      ((init : Runs Nat).run (Sample.pulls ++ [.resume 1 .notFound false])).events := by
  decide

example : phaseOf ((init : Runs Nat).run Sample.persisted) "run" = some .exhausted ∧
    [(10, 0), (11, 0)] ∈ manifests "run" ((init : Runs Nat).run Sample.persisted).events ∧
    ((init : Runs Nat).run Sample.persisted).events.flatMap (lostIn "run") = [] ∧
    ((init : Runs Nat).run Sample.persisted).pending.flatMap (inFlight "run") = [] := by decide

/-! ## C55 -/

/-- C55 (partial): when a worker is told that the manifest of an exhausted run is not yet
persisted, a task that will persist it is in progress, or a failure hit it. Missing: after a
failure no task is left and the manifest is never persisted (`C55_full_statement_fails`). -/
theorem C55_persistence_in_progress_partial (acts : List (RunsAct T)) (rid : RunId) (e : Entity)
    (h : answer ((init : Runs T).run acts) rid (.retryManifest e) =
      [.retry rid e .notYetPersisted])
    (hf : ((init : Runs T).run acts).events.any (persistenceFailure rid) = false) :
    ∃ p ∈ ((init : Runs T).run acts).pending, persistenceTask rid p = true := by
  rw [answer_eq _ _ _ (by simp [Req.writes])] at h
  have hw := (persist_run acts rid (T := T)).going
  cases hs : ((init : Runs T).run acts).get rid with
  | none => rw [hs] at h; simp [reqEff] at h
  | some s =>
    have hL : (proj ((init : Runs T).run acts) rid).s = some s := hs
    rw [hs] at h
    rw [hL] at hw
    simp only [reqEff, exec, List.cons.injEq, Event.retry.injEq, true_and, and_true] at h
    have hcell : CellIs false (some s) := by
      cases s with
      | done x md seen m hh =>
        cases m with
        | cell b => cases b <;> simp_all [RunState.retryManifest, CellIs]
        | emptyManifest => simp [RunState.retryManifest] at h
      | _ => simp [RunState.retryManifest] at h
    rcases hw hcell with ⟨p, h1, h2⟩ | h1
    · obtain ⟨h3, h4⟩ := List.mem_filter.1 h1
      refine ⟨p, h3, ?_⟩
      have h4' : p.rid = rid := by simpa using h4
      cases p with
      | respond r e items eow plan =>
        cases eow <;> cases plan <;> simp_all [PersistTask, persistenceTask, Pending.rid]
      | dumpManifest => simpa [persistenceTask, Pending.rid] using h4
      | setPersisted => simpa [persistenceTask, Pending.rid] using h4
      | _ => exact absurd h2 (by simp [PersistTask])
    · exfalso
      rw [List.any_eq_true] at h1
      obtain ⟨ev, h2, h3⟩ := h1
      rw [List.any_eq_false] at hf
      refine hf ev (List.mem_filter.1 h2).1 ?_
      cases ev <;> simp only [persistFailure, Bool.false_eq_true] at h3
      · rename_i r e items eow
        cases eow <;> simp_all [persistFailure, persistenceFailure]
      · simpa [persistenceFailure] using h3

/-- Nothing will ever persist the manifest of an exhausted run. -/
structure Stuck (rid : RunId) (L : Loc T) : Prop where
  st : ∃ x md seen h, L.s = some (.done x md seen (.cell false) h)
  ps : ∀ p ∈ L.ps, (∀ r e items eow pl, p ≠ .respond r e items eow (some pl)) ∧
    (∀ r v, p ≠ .dumpManifest r v) ∧ ∀ r, p ≠ .setPersisted r

theorem subIf_stuck (rid : RunId) (b : Bool) : ∀ p ∈ (subIf rid b : List (Pending T)),
    (∀ r e items eow pl, p ≠ .respond r e items eow (some pl)) ∧
    (∀ r v, p ≠ .dumpManifest r v) ∧ ∀ r, p ≠ .setPersisted r := by
  unfold subIf; split <;> simp

theorem stuck_step {rid : RunId} {L L' : Loc T} (h : Stuck rid L)
    (hs : LStep rid L L') : Stuck rid L' := by
  obtain ⟨⟨x, md, seen, hh, hst⟩, hps⟩ := h
  have build : ∀ (y : Eff T) (ps : List (Pending T)),
      (∃ x md seen h, y.state = some (.done x md seen (.cell false) h)) →
      (∀ q ∈ ps, q ∈ L.ps) → (∀ p ∈ y.next, (∀ r e items eow pl, p ≠ .respond r e items eow (some pl)) ∧
        (∀ r v, p ≠ .dumpManifest r v) ∧ ∀ r, p ≠ .setPersisted r) →
      Stuck rid ({ L with ps := ps }.app y) := by
    intro y ps h1 h2 h3
    refine ⟨h1, ?_⟩
    intro p hp
    rcases List.mem_append.1 hp with hp | hp
    · exact hps p (h2 p hp)
    · exact h3 p hp
  cases hs with
  | join p hp =>
    refine build _ L.ps ?_ (fun _ h => h) ?_ <;> simp [joinEff, hst]
  | req r hr =>
    rw [hst]
    cases r <;> simp only [reqEff, exec]
    case initMetadata e =>
      refine build _ L.ps ?_ (fun _ h => h) (by simp)
      simp only [RunState.initMetadata]
      split <;> exact ⟨_, _, _, _, rfl⟩
    all_goals
      refine build _ L.ps ⟨_, _, _, _, rfl⟩ (fun _ h => h) ?_
    case nextWork => simp [RunState.pull]
    case cancel => intro p hp; exact subIf_stuck rid _ p (by simpa only using hp)
    case manifestFailed => intro p hp; exact subIf_stuck rid _ p (by simpa only using hp)
    case emptyManifest => intro p hp; exact subIf_stuck rid _ p (by simpa only using hp)
    all_goals simp
  | cont p a b ans ok hp hm hr =>
    have hpo := hps p (by rw [hm]; simp)
    have hsub : ∀ q ∈ a ++ b, q ∈ L.ps := by
      intro q hq
      rw [hm]
      rcases List.mem_append.1 hq with hq | hq
      · exact List.mem_append_left _ hq
      · exact List.mem_append_right _ (List.mem_cons_of_mem _ hq)
    rw [hst]
    cases p <;> simp only [contEff]
    case joinRemote p =>
      cases ans <;> refine build _ _ ⟨_, _, _, _, rfl⟩ hsub ?_ <;> simp [loadRemote, createFresh]
    case joinRead p =>
      refine build _ _ ?_ hsub (by simp)
      simp only [RunState.join]
      split <;> exact ⟨_, _, _, _, rfl⟩
    case pulled => exact build _ _ ⟨_, _, _, _, rfl⟩ hsub (by simp [RunState.atEnd])
    case markEnd =>
      exact build _ _ ⟨_, _, _, _, rfl⟩ hsub (by simp [RunState.markEnd, subIf])
    case respond r e items eow plan =>
      cases plan with
      | some pl => exact absurd rfl (hpo.1 _ _ _ _ _)
      | none => cases ok <;> exact build _ _ ⟨_, _, _, _, rfl⟩ hsub (by simp [planTasks])
    case sub => exact build _ _ ⟨_, _, _, _, rfl⟩ hsub (by simp)
    case dumpManifest => exact absurd rfl (hpo.2.1 _ _)
    case setPersisted => exact absurd rfl (hpo.2.2 _)
    case dumpState => cases ok <;> exact build _ _ ⟨_, _, _, _, rfl⟩ hsub (by simp)
    case timer => exact build _ _ ⟨_, _, _, _, rfl⟩ hsub (by simp [timerEff, RunState.progress, rearm])
    case timeoutWrite =>
      exact build _ _ ⟨_, _, _, _, rfl⟩ hsub
        (by simp [RunState.timeoutWrite, RunState.progress, rearm, subIf])

/-- No task that persists the manifest is in progress. -/
theorem stuck_tasks (acts : List (RunsAct T)) (rid : RunId)
    (hno : ∀ p ∈ ((init : Runs T).run acts).pending, persistenceTask rid p = false) :
    ∀ p ∈ (proj ((init : Runs T).run acts) rid).ps, (∀ r e items eow pl, p ≠ .respond r e items eow (some pl)) ∧
      (∀ r v, p ≠ .dumpManifest r v) ∧ ∀ r, p ≠ .setPersisted r := by
  intro p hp
  have hm := List.mem_filter.1 hp
  have hr : p.rid = rid := by simpa using hm.2
  have hf := hno p hm.1
  refine ⟨?_, ?_, ?_⟩
  · rintro r e items eow pl rfl
    obtain rfl := (persist_run acts rid (T := T)).eow _ _ _ _ _ hp
    simp [persistenceTask, Pending.rid] at hf hr
    exact hf hr
  · rintro r v rfl
    simp [persistenceTask, Pending.rid] at hf hr
    exact hf hr
  · rintro r rfl
    simp [persistenceTask, Pending.rid] at hf hr
    exact hf hr

/-- A run whose manifest is not yet persisted, as a retrying worker sees it. -/
theorem unpersisted {σ : Runs T} {rid : RunId} {e : Entity}
    (h : answer σ rid (.retryManifest e) = [.retry rid e .notYetPersisted]) :
    ∃ x md seen hh, σ.get rid = some (.done x md seen (.cell false) hh) := by
  rw [answer_eq _ _ _ (by simp [Req.writes])] at h
  cases hs : σ.get rid with
  | none => rw [hs] at h; simp [reqEff] at h
  | some s =>
    rw [hs] at h
    simp only [reqEff, exec, List.cons.injEq, Event.retry.injEq, true_and, and_true] at h
    cases s with
    | done x md seen m hh =>
      cases m with
      | cell b => cases b <;> simp_all [RunState.retryManifest]
      | emptyManifest => simp [RunState.retryManifest] at h
    | _ => simp [RunState.retryManifest] at h

theorem get_resume {σ : Runs T} {i : Nat} {p : Pending T} {s : RunState T} (hp : σ.pending[i]? = some p)
    (hw : p.writes = false) (hs : σ.get p.rid = some s) (hc : (contEff (some s) .notFound true p).state = some s') :
    (σ.run [.resume i .notFound true]).get p.rid = some s' ∧
    (σ.run [.resume i .notFound true]).pending = σ.pending.eraseIdx i ++ (contEff (some s) .notFound true p).next := by
  have e : σ.run [.resume i .notFound true] =
      { σ with pending := σ.pending.eraseIdx i }.apply p.rid (contEff (σ.get p.rid) .notFound true p) := by
    simp only [run, List.foldl_cons, List.foldl_nil, step, hp, hw, Bool.false_and, Bool.false_eq_true, if_false]
  rw [e, hs]
  refine ⟨?_, rfl⟩
  have h1 := lookup_put σ.runs p.rid p.rid (contEff (some s) .notFound true p).state (by rw [hc]; simp)
  rw [if_pos rfl, hc] at h1
  show List.lookup p.rid (put σ.runs p.rid (contEff (some s) .notFound true p).state) = some s'
  rw [hc]
  exact h1

/-- A persistence task that is not hit by a failure makes the manifest available. -/
theorem persists {σ : Runs T} {rid : RunId} {i : Nat} {p : Pending T} {x : Int} {md : String}
    {seen : WorkerSet Bool} {hh : Option String} (hs : σ.get rid = some (.done x md seen (.cell false) hh)) (hp : σ.pending[i]? = some p)
    (ht : persistenceTask rid p = true) :
    ∃ more, (σ.run more).get rid = some (.done x md seen (.cell true) hh) := by
  have set : ∀ (σ : Runs T) (i : Nat), σ.get rid = some (.done x md seen (.cell false) hh) → σ.pending[i]? = some (.setPersisted rid) →
      ∃ more, (σ.run more).get rid = some (.done x md seen (.cell true) hh) := by
    intro σ i hs hp
    exact ⟨_, (get_resume hp rfl hs rfl).1⟩
  have dump : ∀ (σ : Runs T) (i : Nat) v, σ.get rid = some (.done x md seen (.cell false) hh) →
      σ.pending[i]? = some (.dumpManifest rid v) →
      ∃ more, (σ.run more).get rid = some (.done x md seen (.cell true) hh) := by
    intro σ i v hs hp
    obtain ⟨h1, h2⟩ := get_resume hp rfl hs rfl
    obtain ⟨more, h3⟩ := set _ (σ.pending.eraseIdx i).length h1 (by rw [h2]; simp [contEff])
    exact ⟨[.resume i .notFound true] ++ more, by rw [run_append]; exact h3⟩
  cases p with
  | respond r e items eow plan =>
    cases eow <;> cases plan <;> simp only [persistenceTask, Bool.false_eq_true] at ht
    rename_i pl
    obtain rfl : r = rid := by simpa using ht
    obtain ⟨h1, h2⟩ := get_resume hp rfl hs rfl
    obtain ⟨more, h3⟩ := dump _ (σ.pending.eraseIdx i).length pl.view h1 (by rw [h2]; simp [contEff, planTasks])
    exact ⟨[.resume i .notFound true] ++ more, by rw [run_append]; exact h3⟩
  | dumpManifest r v =>
    obtain rfl : r = rid := by simpa [persistenceTask] using ht
    exact dump _ i v hs hp
  | setPersisted r =>
    obtain rfl : r = rid := by simpa [persistenceTask] using ht
    exact set _ i hs hp
  | _ => simp [persistenceTask] at ht

/-- C55, exactly: when a worker is told that the manifest of an exhausted run is not yet persisted, some continuation makes it
available precisely if a task that will persist it is in progress. -/
theorem C55_available_iff (acts : List (RunsAct T)) (rid : RunId) (e : Entity)
    (h : answer ((init : Runs T).run acts) rid (.retryManifest e) = [.retry rid e .notYetPersisted]) :
    (∃ more e', answer ((init : Runs T).run (acts ++ more)) rid (.retryManifest e') = [.retry rid e' .fetchFromPersistence]) ↔
      ∃ p ∈ ((init : Runs T).run acts).pending, persistenceTask rid p = true := by
  obtain ⟨x, md, seen, hh, hs⟩ := unpersisted h
  constructor
  · rintro ⟨more, e', h1⟩
    refine Classical.byContradiction fun hno => ?_
    have hst := run_proj_induction' (rid := rid) (I := Stuck (T := T) rid) (fun _ _ _ h hs => stuck_step h hs) acts more
      ⟨⟨x, md, seen, hh, hs⟩, fun p hp => stuck_tasks acts rid (fun q hq => by
        cases hb : persistenceTask rid q with
        | false => rfl
        | true => exact absurd ⟨q, hq, hb⟩ hno) p hp⟩
    obtain ⟨x, md, seen, hh, hst⟩ := hst.st
    have hst' : ((init : Runs T).run (acts ++ more)).get rid = some (.done x md seen (.cell false) hh) := hst
    rw [answer_eq _ _ _ (by simp [Req.writes]), hst'] at h1
    simp [reqEff, exec, RunState.retryManifest] at h1
  · rintro ⟨p, hp, ht⟩
    obtain ⟨i, hi⟩ := List.getElem?_of_mem hp
    obtain ⟨more, h1⟩ := persists hs hi ht
    refine ⟨more, e, ?_⟩
    rw [run_append, answer_eq _ _ _ (by simp [Req.writes]), h1]
    rfl

/-- C55: and if none is, every worker that retries is told so for ever. -/
theorem C55_stuck_for_ever (acts : List (RunsAct T)) (rid : RunId) (e : Entity)
    (h : answer ((init : Runs T).run acts) rid (.retryManifest e) = [.retry rid e .notYetPersisted])
    (hno : ∀ p ∈ ((init : Runs T).run acts).pending, persistenceTask rid p = false) (more : List (RunsAct T)) (e' : Entity) :
    answer ((init : Runs T).run (acts ++ more)) rid (.retryManifest e') = [.retry rid e' .notYetPersisted] := by
  obtain ⟨x, md, seen, hh, hs⟩ := unpersisted h
  have hst := run_proj_induction' (rid := rid) (I := Stuck (T := T) rid) (fun _ _ _ h hs => stuck_step h hs) acts more
    ⟨⟨x, md, seen, hh, hs⟩, stuck_tasks acts rid hno⟩
  obtain ⟨x, md, seen, hh, hst⟩ := hst.st
  have hst' : ((init : Runs T).run (acts ++ more)).get rid = some (.done x md seen (.cell false) hh) := hst
  rw [answer_eq _ _ _ (by simp [Req.writes]), hst']
  rfl

/-- While the last bundle is on its way the manifest can still become available. -/
example : answer ((init : Runs Nat).run Sample.pulls) "run" (.retryManifest (Sample.w 1)) =
    [.retry "run" (Sample.w 1) .notYetPersisted] ∧
    ((init : Runs Nat).run Sample.pulls).pending.any (persistenceTask "run") = true := ⟨rfl, rfl⟩

/-- The last bundle cannot be written to worker 2. -/
def lastBundleLost : List (RunsAct Nat) := Sample.pulls ++ [.resume 1 .notFound false]

/-- C55, the full statement is false of the code: when the last bundle cannot be written to the
worker, the plan to persist the manifest is dropped with it, and whatever happens afterwards,
every worker that retries is told for ever that the manifest is not yet persisted. -/
theorem C55_full_statement_fails (more : List (RunsAct Nat)) (e : Entity) :
    answer ((init : Runs Nat).run (lastBundleLost ++ more)) "run" (.retryManifest e) =
      [.retry "run" e .notYetPersisted] := by
  have h := run_proj_induction' (rid := "run") (I := Stuck (T := Nat) "run")
    (fun _ _ _ h hs => stuck_step h hs) lastBundleLost more
    ⟨⟨_, _, _, _, rfl⟩, by
      have : (proj ((init : Runs Nat).run lastBundleLost) "run").ps =
          [.timer "run" 0, .sub "run"] := rfl
      rw [this]
      simp⟩
  obtain ⟨x, md, seen, hh, hst⟩ := h.st
  have hst' : ((init : Runs Nat).run (lastBundleLost ++ more)).get "run" =
    some (.done x md seen (.cell false) hh) := hst
  rw [answer_eq _ _ _ (by simp [Req.writes]), hst']
  rfl

example : answer ((init : Runs Nat).run Sample.pulls) "run" (.retryManifest (Sample.w 1)) =
    [.retry "run" (Sample.w 1) .notYetPersisted] ∧
    ((init : Runs Nat).run Sample.pulls).events.any (persistenceFailure "run") = false := ⟨rfl, rfl⟩

/-- When it was lost, no task is left. -/
example : answer ((init : Runs Nat).run lastBundleLost) "run" (.retryManifest (Sample.w 1)) =
    [.retry "run" (Sample.w 1) .notYetPersisted] ∧
    ∀ p ∈ ((init : Runs Nat).run lastBundleLost).pending, persistenceTask "run" p = false := by
  refine ⟨rfl, ?_⟩
  have : ((init : Runs Nat).run lastBundleLost).pending.all (fun p => !persistenceTask "run" p) = true := rfl
  simpa using this

end Abq.Props
