import Verif.Spec.Retries

/-! # The retry tracker follows the history (C25, C26, C58) -/

namespace Abq.Retries
open Spec

/-- Number of attempts, from the first one on, without a non-failing one. -/
def streak (log : List Results) (id : WorkId) : Nat → Nat
  | 0 => 0
  | k + 1 => if streak log id k = k ∧ failedOn log id (k + 1) = true then k + 1 else streak log id k

theorem streak_le (log : List Results) (id : WorkId) (k : Nat) : streak log id k ≤ k := by
  induction k with
  | zero => simp [streak]
  | succ k ih => simp only [streak]; split <;> omega

theorem streak_eq_iff (log : List Results) (id : WorkId) (k : Nat) :
    streak log id k = k ↔ alwaysFailed log id k = true := by
  induction k with
  | zero => simp [streak, alwaysFailed]
  | succ k ih =>
    have hle := streak_le log id k
    have : alwaysFailed log id (k + 1) = true ↔
        alwaysFailed log id k = true ∧ failedOn log id (k + 1) = true := by
      simp [alwaysFailed, List.range_succ, List.all_append]
    rw [this, ← ih]
    simp only [streak]
    split
    · rename_i h; simp [h]
    · rename_i h
      constructor
      · intro e; omega
      · intro e; exact absurd e h

/-- The status the tracker should hold. -/
def statusOf : Nat → Status
  | 0 => .hasNonFailingAttempt
  | k + 1 => .alwaysFailedOn (k + 1)

theorem failedOn_append (log rs : List Results) (id : WorkId) (j : Nat) :
    failedOn (log ++ rs) id j = (failedOn log id j || failedOn rs id j) := by
  simp [failedOn, List.any_append]

/-- Results of attempt `k` change a streak of earlier attempts not at all. -/
theorem streak_append_lt (log rs : List Results) (id : WorkId) (k j : Nat)
    (h : ∀ r ∈ rs, r.runNumber = k) (hj : j < k) : streak (log ++ rs) id j = streak log id j := by
  induction j with
  | zero => rfl
  | succ j ih =>
    have h0 : failedOn rs id (j + 1) = false := by
      simp only [failedOn, List.any_eq_false]
      intro r hr
      have := h r hr
      simp; omega
    simp only [streak, ih (by omega), failedOn_append, h0, Bool.or_false]

theorem streak_append (log rs : List Results) (id : WorkId) (k : Nat)
    (h : ∀ r ∈ rs, r.runNumber = k + 1) :
    streak (log ++ rs) id (k + 1) =
      if streak log id k = k ∧ failedOn rs id (k + 1) = true then k + 1
      else streak log id (k + 1) := by
  simp only [streak, streak_append_lt log rs id (k + 1) k h (by omega), failedOn_append,
    Bool.or_eq_true]
  grind

/-! ## Entries -/

def ids (es : List Entry) : List WorkId := es.map (·.spec.workId)

theorem lastIdx_some (id : WorkId) (es : List Entry) (h : id ∈ ids es) :
    ∃ i, lastIdx id es = some i ∧ ∃ hi : i < es.length, es[i].spec.workId = id := by
  have hmem : ∃ e ∈ es, e.spec.workId = id := by simpa [ids] using h
  obtain ⟨e, he, hid⟩ := hmem
  cases hf : es.reverse.findIdx? (fun e => e.spec.workId == id) with
  | none =>
    rw [List.findIdx?_eq_none_iff] at hf
    have := hf e (by simpa using he)
    simp [hid] at this
  | some i =>
    obtain ⟨hi, hp, -⟩ := List.findIdx?_eq_some_iff_getElem.mp hf
    simp only [List.length_reverse] at hi
    refine ⟨es.length - 1 - i, by simp [lastIdx, hf], by omega, ?_⟩
    simpa [List.getElem_reverse] using hp

theorem modify_eq_map (es : List Entry) (hn : (ids es).Nodup) (f : Entry → Entry) (i : Nat)
    (hi : i < es.length) (id : WorkId) (hid : es[i].spec.workId = id) :
    es.modify i f = es.map (fun e => if e.spec.workId = id then f e else e) := by
  apply List.ext_getElem
  · simp
  · intro j h1 h2
    simp only [List.length_modify] at h1
    simp only [List.getElem_modify, List.getElem_map]
    by_cases hij : i = j
    · subst hij; simp [hid]
    · have : es[j].spec.workId ≠ id := by
        intro e
        have hp := List.pairwise_iff_getElem.mp hn
        rcases Nat.lt_or_gt_of_ne hij with hlt | hlt
        · exact hp i j (by simpa [ids] using hi) (by simpa [ids] using h1) hlt (by simp [ids, hid, e])
        · exact hp j i (by simpa [ids] using h1) (by simpa [ids] using hi) hlt (by simp [ids, hid, e])
      simp [hij, this]

@[simp] theorem addFocus_workId (s : TestSpec) (id : TestId) :
    (s.addFocus id).workId = s.workId ∧ (s.addFocus id).case = s.case := by
  unfold TestSpec.addFocus
  split
  · simp
  · split <;> simp

@[simp] theorem accountFailure_workId (e : Entry) (run : Nat) (id : TestId) :
    (e.accountFailure run id).spec.workId = e.spec.workId ∧
      (e.accountFailure run id).spec.case = e.spec.case := by
  unfold Entry.accountFailure
  cases e.status with
  | hasNonFailingAttempt => dsimp only; split <;> simp
  | alwaysFailedOn l => dsimp only; split <;> simp

/-- All the failures of one piece of work, on its entry. -/
def Entry.failures (run : Nat) (e : Entry) (rs : List Result) : Entry :=
  rs.foldl (fun e r => if r.failed then e.accountFailure run r.id else e) e

theorem failures_ids (run : Nat) (rs : List Result) (e : Entry) :
    (e.failures run rs).spec.workId = e.spec.workId ∧ (e.failures run rs).spec.case = e.spec.case := by
  induction rs generalizing e with
  | nil => simp [Entry.failures]
  | cons r rs ih =>
    have := ih (if r.failed then e.accountFailure run r.id else e)
    simp only [Entry.failures, List.foldl_cons] at this ⊢
    rw [this.1, this.2]
    split <;> simp

theorem accountFailures_eq (id : WorkId) (run : Nat) (rs : List Result) :
    ∀ es : List Entry, (ids es).Nodup → id ∈ ids es →
      accountFailures es id run rs =
        some (es.map (fun e => if e.spec.workId = id then e.failures run rs else e)) := by
  induction rs with
  | nil =>
    intro es _ _
    simp [accountFailures, Entry.failures]
  | cons r rs ih =>
    intro es hn hm
    simp only [accountFailures]
    split
    · rename_i hfail
      obtain ⟨i, hi, hlt, hid⟩ := lastIdx_some id es hm
      rw [hi]
      dsimp only
      rw [modify_eq_map es hn _ i hlt id hid]
      have hids : ids (es.map (fun e => if e.spec.workId = id then e.accountFailure run r.id else e)) =
          ids es := by
        simp only [ids, List.map_map]
        apply List.map_congr_left
        intro e _
        simp only [Function.comp]
        split <;> simp
      rw [ih _ (by rw [hids]; exact hn) (by rw [hids]; exact hm)]
      simp only [List.map_map, Option.some.injEq]
      apply List.map_congr_left
      intro e _
      simp only [Function.comp]
      by_cases h : e.spec.workId = id <;> simp [h, Entry.failures, hfail]
    · rename_i hfail
      rw [ih es hn hm]
      simp [Entry.failures, hfail]

theorem failures_status (k : Nat) (rs : List Result) :
    ∀ (e : Entry) (s : Nat), e.status = statusOf s → s ≤ k + 1 →
      (e.failures (k + 1) rs).status =
        statusOf (if (s = k ∨ s = k + 1) ∧ rs.any (fun x => x.failed) = true then k + 1 else s) := by
  induction rs with
  | nil => intro e s h _; simp [Entry.failures, h]
  | cons r rs ih =>
    intro e s h hs
    have hstep : (e.failures (k + 1) (r :: rs)) =
        (if r.failed then e.accountFailure (k + 1) r.id else e).failures (k + 1) rs := by
      simp [Entry.failures]
    rw [hstep]
    cases hr : r.failed with
    | false =>
      simp only [Bool.false_eq_true, if_false]
      rw [ih e s h hs]
      simp [hr]
    | true =>
      simp only [if_true]
      have hst : (e.accountFailure (k + 1) r.id).status =
          statusOf (if s = k ∨ s = k + 1 then k + 1 else s) := by
        unfold Entry.accountFailure
        rw [h]
        cases s with
        | zero =>
          simp only [statusOf, initRunNumber]
          by_cases hk : k = 0
          · subst hk; simp [statusOf]
          · have : ¬ (k + 1 = 1) := by omega
            have h2 : ¬ (0 = k ∨ 0 = k + 1) := by omega
            rw [if_neg h2]
            simp [hk, h, statusOf]
        | succ s =>
          simp only [statusOf]
          by_cases hk : s + 1 = k
          · subst hk; simp [statusOf]
          · by_cases hk2 : s = k
            · subst hk2
              have : ¬ (s + 1 + 1 = s + 1) := by omega
              simp [h, statusOf]
            · have h3 : ¬ (s + 1 + 1 = k + 1) := by omega
              have h4 : ¬ (s + 1 = k ∨ s + 1 = k + 1) := by omega
              rw [if_neg h4]
              simp [hk, h, statusOf]
      rw [ih _ _ hst (by split <;> omega)]
      congr 1
      simp only [List.any_cons, hr, Bool.true_or, and_true]
      by_cases h1 : s = k ∨ s = k + 1
      · simp [h1]
      · simp [h1]

/-! ## The simulation -/

structure Sim (mx : Nat) (h : Hist) (t : Tracker) : Prop where
  max : t.maxRunNumber = mx
  cur : t.currentRunNumber = h.attempt
  pos : 1 ≤ h.attempt
  le : h.attempt ≤ mx
  entries : t.entries.map (fun e => (e.spec.workId, e.spec.case)) = h.manifest.map (fun s => (s.workId, s.case))
  status : ∀ e ∈ t.entries, e.status = statusOf (streak h.log e.spec.workId h.attempt)
  nodup : (h.manifest.map (·.workId)).Nodup
  todoNodup : h.todo.Nodup
  todoMem : ∀ id ∈ h.todo, id ∈ h.manifest.map (·.workId)
  logMem : ∀ r ∈ h.log, r.workId ∈ h.manifest.map (·.workId)
  logRun : ∀ r ∈ h.log, r.runNumber ≤ h.attempt
  first : h.complete = false → h.attempt = 1
  todoFresh : ∀ r ∈ h.log, r.runNumber = h.attempt → r.workId ∉ h.todo
  state : if h.manifest = [] then t.state = .notStarted
    else ∃ last, (h.todo ≠ [] → h.todo.getLast? = some last) ∧
      t.state = if h.complete then .hydrated last h.todo.isEmpty else .waiting last h.todo.isEmpty

theorem sim_ids {max : Nat} {h : Hist} {t : Tracker} (s : Sim max h t) :
    ids t.entries = h.manifest.map (·.workId) := by
  have := congrArg (List.map Prod.fst) s.entries
  simpa [ids, Function.comp_def] using this

theorem sim_start (max : Nat) (hm : 1 ≤ max) : Sim max start (Tracker.new max) where
  max := rfl
  cur := rfl
  pos := by simp [start]
  le := hm
  entries := rfl
  status := by simp [Tracker.new]
  nodup := by simp [start]
  todoNodup := by simp [start]
  todoMem := by simp [start]
  logMem := by simp [start]
  logRun := by simp [start]
  first := by simp [start]
  todoFresh := by simp [start]
  state := by simp [start, Tracker.new]

theorem streak_fresh (log : List Results) (id : WorkId) (k : Nat) (h : ∀ r ∈ log, r.workId ≠ id) :
    streak log id k = 0 := by
  have : ∀ j, failedOn log id j = false := by
    intro j
    simp only [failedOn, List.any_eq_false]
    intro r hr
    simp [h r hr]
  induction k with
  | zero => rfl
  | succ k ih => simp [streak, this, ih]

/-- One item of the manifest. -/
theorem sim_item {max : Nat} {h : Hist} {t : Tracker} (s : Sim max h t) (hc : h.complete = false)
    (sp : TestSpec) (hf : sp.workId ∉ h.manifest.map (·.workId)) :
    ∃ st, t.state.noteItem sp.workId = some st ∧
      Sim max { h with manifest := h.manifest ++ [sp], todo := h.todo ++ [sp.workId] }
        { t with state := st, entries := t.entries ++ [⟨sp, .hasNonFailingAttempt⟩] } := by
  have hst : t.state.noteItem sp.workId = some (.waiting sp.workId false) := by
    have := s.state
    split at this
    · rw [this]; rfl
    · obtain ⟨last, -, h2⟩ := this
      rw [h2]; simp [hc, Assembled.noteItem]
  refine ⟨_, hst, ?_⟩
  have htodo : sp.workId ∉ h.todo := fun hm => hf (s.todoMem _ hm)
  exact
    { max := s.max
      cur := s.cur
      pos := s.pos
      le := s.le
      entries := by simp [s.entries]
      status := by
        intro e he
        simp only [List.mem_append, List.mem_singleton] at he
        rcases he with he | rfl
        · exact s.status e he
        · dsimp only
          rw [streak_fresh]
          · rfl
          · intro r hr e
            exact hf (e ▸ s.logMem r hr)
      nodup := by
        simp only [List.map_append, List.map_cons, List.map_nil]
        rw [List.nodup_append]
        refine ⟨s.nodup, by simp, ?_⟩
        intro a ha b hb e
        simp only [List.mem_singleton] at hb
        subst hb; subst e
        exact hf ha
      todoNodup := by
        rw [List.nodup_append]
        refine ⟨s.todoNodup, by simp, ?_⟩
        intro a ha b hb e
        simp only [List.mem_singleton] at hb
        subst hb; subst e
        exact htodo ha
      todoMem := by
        intro id hid
        simp only [List.mem_append, List.mem_singleton] at hid
        simp only [List.map_append, List.mem_append, List.map_cons, List.map_nil, List.mem_singleton]
        rcases hid with hid | hid
        · exact .inl (s.todoMem id hid)
        · exact .inr hid
      logMem := by
        intro r hr
        simp only [List.map_append, List.mem_append]
        exact .inl (s.logMem r hr)
      logRun := s.logRun
      first := s.first
      todoFresh := by
        intro r hr hrun hmem
        simp only [List.mem_append, List.mem_singleton] at hmem
        rcases hmem with hmem | hmem
        · exact s.todoFresh r hr hrun hmem
        · exact hf (hmem ▸ s.logMem r hr)
      state := by
        have : h.manifest ++ [sp] ≠ [] := by simp
        simp only [this, if_false]
        exact ⟨sp.workId, by simp, by simp [hc]⟩ }

theorem sim_items {max : Nat} (ws : List WorkerTest) :
    ∀ {h : Hist} {t : Tracker}, Sim max h t → h.complete = false →
      ((h.manifest ++ ws.map (·.spec)).map (·.workId)).Nodup →
      ∃ t', t.hydrateItems ws = some t' ∧
        Sim max { h with manifest := h.manifest ++ ws.map (·.spec)
                         todo := h.todo ++ ws.map (·.spec.workId) } t' := by
  induction ws with
  | nil => intro h t s _ _; exact ⟨t, rfl, by simpa using s⟩
  | cons w ws ih =>
    intro h t s hc hn
    have hf : w.spec.workId ∉ h.manifest.map (·.workId) := by
      simp only [List.map_append, List.map_cons, List.nodup_append] at hn
      intro hm
      exact hn.2.2 _ hm _ (by simp) rfl
    obtain ⟨st, hst, s'⟩ := sim_item s hc w.spec hf
    obtain ⟨t', ht', s''⟩ := ih s' hc (by simpa using hn)
    refine ⟨t', by simp [Tracker.hydrateItems, hst, ht'], ?_⟩
    simpa using s''

theorem sim_hydrate {max : Nat} {h : Hist} {t : Tracker} (s : Sim max h t) (ws : List WorkerTest)
    (eow : Bool) (hl : Legal h (.hydrate ws eow)) :
    ∃ t' hy, t.hydrate ws eow = some (t', hy) ∧ Sim max (next max h (.hydrate ws eow)) t' ∧
      hy = (if eow then (if h.manifest ++ ws.map (·.spec) = [] then .emptyManifest else .endOfManifest)
            else .stillHydrating) := by
  obtain ⟨hc, hn, -⟩ := hl
  obtain ⟨t', ht', s'⟩ := sim_items ws s hc hn
  simp only [Tracker.hydrate, ht']
  cases eow with
  | false =>
    refine ⟨t', _, rfl, ?_, rfl⟩
    simp only [next]
    rw [← hc]
    exact s'
  | true =>
    have hst := s'.state
    dsimp only at hst
    by_cases hm : h.manifest ++ ws.map (·.spec) = []
    · rw [if_pos hm] at hst
      refine ⟨{ t' with state := .notStarted }, .emptyManifest, by simp [hst, Assembled.noteEnd], ?_, ?_⟩
      · simp only [next]
        exact { s' with
          first := by simp
          state := by simp [hm] }
      · simp [hm]
    · rw [if_neg hm, hc] at hst
      obtain ⟨last, h1, h2⟩ := hst
      refine ⟨{ t' with state := .hydrated last (h.todo ++ ws.map (·.spec.workId)).isEmpty },
        .endOfManifest, by simp [h2, Assembled.noteEnd], ?_, ?_⟩
      · simp only [next]
        exact { s' with
          first := by simp
          state := by
            rw [if_neg hm]
            exact ⟨last, h1, by simp⟩ }
      · simp [hm]

/-- One result. -/
theorem sim_result {max : Nat} {h : Hist} {t : Tracker} (s : Sim max h t) (r : Results)
    (todo : List WorkId) (htodo : h.todo = r.workId :: todo) (hrun : r.runNumber = h.attempt) :
    ∃ es st, accountFailures t.entries r.workId r.runNumber r.results = some es ∧
      t.state.noteResult r.workId = some st ∧
      Sim max { h with todo, log := h.log ++ [r] } { t with entries := es, state := st } := by
  have hmem : r.workId ∈ h.manifest.map (·.workId) := s.todoMem _ (by simp [htodo])
  have hids := sim_ids s
  have hne : h.manifest ≠ [] := by rintro e; simp [e] at hmem
  have hnd := s.todoNodup
  rw [htodo, List.nodup_cons] at hnd
  obtain ⟨k, hk⟩ : ∃ k, h.attempt = k + 1 := ⟨h.attempt - 1, by have := s.pos; omega⟩
  refine ⟨_, (if h.complete then .hydrated (h.todo.getLast?.getD 0) todo.isEmpty
      else .waiting (h.todo.getLast?.getD 0) todo.isEmpty),
    accountFailures_eq r.workId r.runNumber r.results t.entries (hids ▸ s.nodup)
      (hids ▸ hmem), ?_, ?_⟩
  · have hst := s.state
    rw [if_neg hne] at hst
    obtain ⟨last, h1, h2⟩ := hst
    have hlast : h.todo.getLast? = some last := h1 (by simp [htodo])
    have hp : (r.workId == last) = todo.isEmpty := by
      rw [htodo] at hlast
      cases todo with
      | nil => simp at hlast; simp [hlast]
      | cons a l =>
        have hl : last ∈ a :: l := by
          have : (r.workId :: a :: l).getLast? = (a :: l).getLast? := by simp [List.getLast?_cons_cons]
          rw [this] at hlast
          exact List.mem_of_getLast? hlast
        have : r.workId ≠ last := by rintro rfl; exact hnd.1 hl
        simp [this]
    rw [h2, hlast]
    cases h.complete <;> simp [Assembled.noteResult, hp]
  · exact
      { max := s.max
        cur := s.cur
        pos := s.pos
        le := s.le
        entries := by
          dsimp only
          rw [← s.entries, List.map_map]
          apply List.map_congr_left
          intro e _
          simp only [Function.comp]
          split
          · rw [(failures_ids _ _ _).1, (failures_ids _ _ _).2]
          · rfl
        status := by
          intro e he
          simp only [List.mem_map] at he
          obtain ⟨e0, he0, rfl⟩ := he
          have h0 := s.status e0 he0
          have hle := streak_le h.log e0.spec.workId k
          dsimp only
          rw [hk] at h0 ⊢
          have happ := streak_append h.log [r] e0.spec.workId k (by simp [hrun, hk])
          split
          · rename_i hid
            rw [(failures_ids _ _ _).1, happ, hrun, hk, failures_status k r.results e0 _ h0 (streak_le _ _ _)]
            congr 1
            have hf : failedOn [r] e0.spec.workId (k + 1) = r.results.any (fun x => x.failed) := by
              simp [failedOn, hid, hrun, hk]
            rw [hf]
            have hsk : streak h.log e0.spec.workId (k + 1) = streak h.log e0.spec.workId k := by
              simp only [streak]
              have : failedOn h.log e0.spec.workId (k + 1) = false := by
                simp only [failedOn, List.any_eq_false]
                intro q hq
                have hfr := s.todoFresh q hq
                rw [htodo, hk] at hfr
                intro hh
                simp only [Bool.and_eq_true, beq_iff_eq] at hh
                exact hfr hh.1.2 (by simp [hh.1.1, hid])
              simp [this]
            rw [hsk]
            by_cases ha : r.results.any (fun x => x.failed) = true
            · simp only [ha, and_true]
              by_cases hb : streak h.log e0.spec.workId k = k
              · simp [hb]
              · have : ¬ (streak h.log e0.spec.workId k = k ∨ streak h.log e0.spec.workId k = k + 1) := by
                  omega
                rw [if_neg this, if_neg hb]
            · simp [ha]
          · rename_i hid
            rw [happ, h0]
            have hf : failedOn [r] e0.spec.workId (k + 1) = false := by
              have : r.workId ≠ e0.spec.workId := fun e => hid e.symm
              simp [failedOn, this]
            simp [hf]
        nodup := s.nodup
        todoNodup := hnd.2
        todoMem := fun id hid => s.todoMem id (by simp [htodo, hid])
        logMem := by
          intro q hq
          simp only [List.mem_append, List.mem_singleton] at hq
          rcases hq with hq | rfl
          · exact s.logMem q hq
          · exact hmem
        logRun := by
          intro q hq
          simp only [List.mem_append, List.mem_singleton] at hq
          rcases hq with hq | rfl
          · exact s.logRun q hq
          · exact Nat.le_of_eq hrun
        first := s.first
        todoFresh := by
          intro q hq hqr hm
          simp only [List.mem_append, List.mem_singleton] at hq
          rcases hq with hq | rfl
          · exact s.todoFresh q hq hqr (by simp [htodo, hm])
          · exact hnd.1 hm
        state := by
          have hst := s.state
          rw [if_neg hne] at hst ⊢
          obtain ⟨last, h1, -⟩ := hst
          have hlast : h.todo.getLast? = some last := h1 (by simp [htodo])
          refine ⟨last, ?_, by simp [hlast]⟩
          intro hnil
          dsimp only at hnil ⊢
          rw [htodo] at hlast
          cases todo with
          | nil => exact absurd rfl hnil
          | cons a l => simpa [List.getLast?_cons_cons] using hlast }

theorem sim_account {max : Nat} (rs : List Results) :
    ∀ {h : Hist} {t : Tracker}, Sim max h t → Legal h (.account rs) →
      ∃ t', t.account rs = some t' ∧ Sim max (next max h (.account rs)) t' := by
  induction rs with
  | nil => intro h t s _; exact ⟨t, rfl, by simpa [next] using s⟩
  | cons r rs ih =>
    intro h t s hl
    obtain ⟨⟨rest, hpre⟩, hrun⟩ := hl
    simp only [List.map_cons, List.cons_append] at hpre
    obtain ⟨es, st, h1, h2, s'⟩ := sim_result s r _ hpre.symm (hrun r (by simp))
    obtain ⟨t', ht', s''⟩ := ih s' ⟨⟨rest, rfl⟩, fun q hq => hrun q (by simp [hq])⟩
    refine ⟨t', by simp only [Tracker.account, h1, h2]; exact ht', ?_⟩
    simp only [next] at s'' ⊢
    rw [← hpre]
    simpa using s''

theorem failingSubset_eq {max : Nat} {h : Hist} {t : Tracker} (s : Sim max h t) :
    (failingSubset t.entries h.attempt).map (fun s => (s.workId, s.case)) =
      (toRetry h).map (fun s => (s.workId, s.case)) := by
  have h1 := s.entries
  have h2 := s.status
  have hpos := s.pos
  unfold toRetry failingSubset
  generalize t.entries = es at *
  generalize h.manifest = ms at *
  induction es generalizing ms with
  | nil =>
    cases ms with
    | nil => rfl
    | cons m ms => simp at h1
  | cons e es ih =>
    cases ms with
    | nil => simp at h1
    | cons m ms =>
      simp only [List.map_cons, List.cons.injEq, Prod.mk.injEq] at h1
      obtain ⟨⟨hw, hc⟩, hrest⟩ := h1
      have hih := ih (fun e he => h2 e (List.mem_cons_of_mem _ he)) ms hrest
      have he := h2 e (by simp)
      have hkey : alwaysFailed h.log m.workId h.attempt = true ↔ streak h.log e.spec.workId h.attempt = h.attempt := by
        rw [streak_eq_iff, hw]
      simp only [List.filterMap_cons, List.filter_cons]
      cases hs : streak h.log e.spec.workId h.attempt with
      | zero =>
        have hna : ¬ alwaysFailed h.log m.workId h.attempt = true := by rw [hkey]; omega
        rw [hs] at he
        simp only [he, statusOf, hna]
        exact hih
      | succ k =>
        rw [hs] at he
        simp only [he, statusOf]
        by_cases hk : k + 1 = h.attempt
        · have hna : alwaysFailed h.log m.workId h.attempt = true := by rw [hkey]; omega
          simp [hk, hna, hw, hc, hih]
        · have hna : ¬ alwaysFailed h.log m.workId h.attempt = true := by rw [hkey]; omega
          simp only [hk, if_false, hna]
          exact hih

theorem streak_next (log : List Results) (id : WorkId) (k : Nat) (h : ∀ r ∈ log, r.runNumber ≤ k) :
    streak log id (k + 1) = streak log id k := by
  have : failedOn log id (k + 1) = false := by
    simp only [failedOn, List.any_eq_false]
    intro r hr
    have := h r hr
    simp; omega
  simp [streak, this]

theorem sim_assemble {max : Nat} {h : Hist} {t : Tracker} (s : Sim max h t)
    (hl : Legal h .assemble) :
    Sim max (next max h .assemble) t.assemble.1 ∧
      (t.assemble.2.map (fun b => (b.work.map (·.spec.workId), b.eow))) = answer max h ∧
      ∀ b, t.assemble.2 = some b → b.eow = false →
        b.work.map (fun w => (w.spec.workId, w.spec.case, w.runNumber)) =
          (toRetry h).map (fun s => (s.workId, s.case, h.attempt + 1)) := by
  obtain ⟨hc, hm⟩ := hl
  have hst := s.state
  rw [if_neg hm, hc] at hst
  obtain ⟨last, h1, h2⟩ := hst
  simp only [if_true] at h2
  have hfs := failingSubset_eq s
  have hfid : (failingSubset t.entries h.attempt).map (·.workId) = (toRetry h).map (·.workId) := by
    have := congrArg (List.map Prod.fst) hfs
    simpa [Function.comp_def] using this
  unfold Tracker.assemble
  rw [s.cur, s.max]
  by_cases hmax : h.attempt = max
  · have hans : answer max h = some ([], true) := by simp [answer, hmax]
    rw [if_pos hmax]
    exact ⟨by simpa [next, hans] using s, by simp [hans], by simp⟩
  · rw [if_neg hmax, h2]
    dsimp only
    by_cases htodo : h.todo = []
    · have hans : answer max h = some ((toRetry h).map (·.workId), (toRetry h).isEmpty) := by
        simp [answer, hmax, htodo]
      simp only [htodo, List.isEmpty_nil, if_true]
      generalize hsub : failingSubset t.entries h.attempt = sub at *
      cases hgl : (sub.map (fun s : TestSpec => (⟨s, h.attempt + 1⟩ : WorkerTest))).getLast? with
      | none =>
        have hnil : sub = [] := by simpa using hgl
        have hret : toRetry h = [] := by
          have := congrArg List.length hfid
          simp [hnil] at this
          exact List.length_eq_zero_iff.mp this.symm
        dsimp only
        refine ⟨?_, by simp [hans, hret], by simp⟩
        have : next max h .assemble = h := by simp [next, hans, hret]
        rw [this]; exact s
      | some w =>
        dsimp only
        have hret : toRetry h ≠ [] := by
          intro e
          rw [e] at hfid
          have : sub = [] := by simpa using hfid
          simp [this] at hgl
        obtain ⟨x, xs, hx⟩ : ∃ x xs, (toRetry h).map (·.workId) = x :: xs := by
          cases hh : toRetry h with
          | nil => exact absurd hh hret
          | cons a l => exact ⟨_, _, rfl⟩
        have hwlast : (x :: xs).getLast? = some w.spec.workId := by
          rw [← hx, ← hfid]
          simp only [List.getLast?_map] at hgl ⊢
          cases hgl2 : sub.getLast? with
          | none => simp [hgl2] at hgl
          | some q => simp [hgl2] at hgl ⊢; rw [← hgl]
        have hsubset : ∀ id ∈ x :: xs, id ∈ h.manifest.map (·.workId) := by
          rw [← hx]
          intro id hid
          simp only [toRetry, List.mem_map, List.mem_filter] at hid ⊢
          obtain ⟨q, ⟨hq, -⟩, rfl⟩ := hid
          exact ⟨q, hq, rfl⟩
        have hnd : (x :: xs).Nodup := by
          rw [← hx]
          exact s.nodup.sublist ((List.filter_sublist).map _)
        refine ⟨?_, ?_, ?_⟩
        · have hnext : next max h .assemble = { h with attempt := h.attempt + 1, todo := x :: xs } := by
            simp [next, hans, hx]
          rw [hnext]
          exact
            { max := rfl
              cur := rfl
              pos := by simp
              le := by have := s.le; dsimp only; omega
              entries := s.entries
              status := by
                intro e he
                dsimp only
                rw [streak_next _ _ _ s.logRun]
                exact s.status e he
              nodup := s.nodup
              todoNodup := hnd
              todoMem := hsubset
              logMem := s.logMem
              logRun := fun r hr => Nat.le_succ_of_le (s.logRun r hr)
              first := by simp [hc]
              todoFresh := by
                intro r hr hrun
                have := s.logRun r hr
                dsimp only at hrun
                omega
              state := by
                rw [if_neg hm]
                exact ⟨w.spec.workId, fun _ => hwlast, by simp [hc]⟩ }
        · simp only [hans, Option.map_some, List.map_map, Option.some.injEq, Prod.mk.injEq]
          refine ⟨by simpa [Function.comp_def] using hfid, ?_⟩
          cases hh : toRetry h with
          | nil => exact absurd hh hret
          | cons a l => rfl
        · intro b hb _
          simp only [Option.some.injEq] at hb
          subst hb
          have := congrArg (List.map (fun p : WorkId × Nat => (p.1, p.2, h.attempt + 1))) hfs
          simpa [Function.comp_def] using this
    · have hans : answer max h = none := by simp [answer, hmax, htodo]
      have : h.todo.isEmpty = false := by simpa using htodo
      simp only [this, Bool.false_eq_true, if_false]
      exact ⟨by simpa [next, hans] using s, by simp [hans], by simp⟩

theorem sim_run {max : Nat} (cs : List Call) :
    ∀ {h : Hist} {t : Tracker}, Sim max h t → Legals max h cs →
      ∃ t', runCalls t cs = some t' ∧ Sim max (cs.foldl (next max) h) t' := by
  induction cs with
  | nil => intro h t s _; exact ⟨t, rfl, s⟩
  | cons c cs ih =>
    intro h t s hl
    obtain ⟨hc, hl⟩ := hl
    simp only [runCalls, List.foldl_cons]
    cases c with
    | hydrate ws eow =>
      obtain ⟨t', hy, h1, s', -⟩ := sim_hydrate s ws eow hc
      simp only [call, h1, Option.map_some]
      exact ih s' hl
    | account rs =>
      obtain ⟨t', h1, s'⟩ := sim_account rs s hc
      simp only [call, h1, Option.map_some]
      exact ih s' hl
    | assemble =>
      simp only [call]
      exact ih (sim_assemble s hc).1 hl

/-! ## Focus -/

def focusIds (s : TestSpec) : List TestId := s.focus.getD []

theorem mem_addFocus (s : TestSpec) (x y : TestId) :
    y ∈ focusIds (s.addFocus x) ↔ y ∈ focusIds s ∨ y = x := by
  unfold TestSpec.addFocus focusIds
  cases hf : s.focus with
  | none => simp
  | some l =>
    dsimp only
    split
    · rename_i hm
      simp only [hf, Option.getD_some]
      constructor
      · exact .inl
      · rintro (h | rfl)
        · exact h
        · simpa using hm
    · simp

theorem failures_done (k : Nat) (rs : List Result) (e : Entry) (s : Nat) (h : e.status = statusOf s)
    (hs : s ≠ k) : e.failures (k + 1) rs = e := by
  induction rs with
  | nil => rfl
  | cons r rs ih =>
    simp only [Entry.failures, List.foldl_cons]
    have : e.accountFailure (k + 1) r.id = e := by
      unfold Entry.accountFailure
      rw [h]
      cases s with
      | zero =>
        have : ¬ k = 0 := fun e => hs e.symm
        simp [statusOf, initRunNumber, this]
      | succ s =>
        simp [statusOf, hs]
    rw [this, ite_self]
    exact ih

theorem failures_focus (k : Nat) (rs : List Result) (e : Entry) (h : e.status = statusOf k) :
    (e.failures (k + 1) rs).spec =
      match rs.find? (fun x => x.failed) with
      | some y => e.spec.addFocus y.id
      | none => e.spec := by
  induction rs with
  | nil => rfl
  | cons r rs ih =>
    cases hr : r.failed with
    | false =>
      have : e.failures (k + 1) (r :: rs) = e.failures (k + 1) rs := by simp [Entry.failures, hr]
      rw [this, ih]
      simp [hr]
    | true =>
      have hacc : e.accountFailure (k + 1) r.id = ⟨e.spec.addFocus r.id, .alwaysFailedOn (k + 1)⟩ := by
        unfold Entry.accountFailure
        rw [h]
        cases k with
        | zero => simp [statusOf, initRunNumber]
        | succ k => simp [statusOf]
      have : e.failures (k + 1) (r :: rs) =
          (⟨e.spec.addFocus r.id, .alwaysFailedOn (k + 1)⟩ : Entry).failures (k + 1) rs := by
        simp [Entry.failures, hr, hacc]
      rw [this, failures_done k rs _ (k + 1) rfl (by omega)]
      simp [hr]

/-- What the focus of an entry is. -/
def Foc (h : Hist) (t : Tracker) : Prop :=
  ∀ e ∈ t.entries,
    (∀ x ∈ focusIds e.spec, ∃ r ∈ h.log, r.workId = e.spec.workId ∧
      ∃ y, r.results.find? (fun x => x.failed) = some y ∧ y.id = x) ∧
    (∀ r ∈ h.log, r.workId = e.spec.workId → r.runNumber ≤ streak h.log e.spec.workId h.attempt →
      ∀ y, r.results.find? (fun x => x.failed) = some y → y.id ∈ focusIds e.spec)

theorem foc_result {max : Nat} {h : Hist} {t : Tracker} (s : Sim max h t) (f : Foc h t) (r : Results)
    (todo : List WorkId) (htodo : h.todo = r.workId :: todo) (hrun : r.runNumber = h.attempt)
    (es : List Entry) (st : Assembled)
    (hes : accountFailures t.entries r.workId r.runNumber r.results = some es) :
    Foc { h with todo, log := h.log ++ [r] } { t with entries := es, state := st } := by
  have hmem : r.workId ∈ h.manifest.map (·.workId) := s.todoMem _ (by simp [htodo])
  have hids := sim_ids s
  rw [accountFailures_eq r.workId r.runNumber r.results t.entries (hids ▸ s.nodup) (hids ▸ hmem)] at hes
  obtain rfl := Option.some.inj hes
  obtain ⟨k, hk⟩ : ∃ k, h.attempt = k + 1 := ⟨h.attempt - 1, by have := s.pos; omega⟩
  intro e he
  simp only [List.mem_map] at he
  obtain ⟨e0, he0, rfl⟩ := he
  obtain ⟨f1, f2⟩ := f e0 he0
  have h0 := s.status e0 he0
  have happ := streak_append h.log [r] e0.spec.workId k (by simp [hrun, hk])
  have hle := streak_le h.log e0.spec.workId k
  dsimp only
  rw [hk] at f2 h0 ⊢
  by_cases hid : e0.spec.workId = r.workId
  · rw [if_pos hid, (failures_ids _ _ _).1, hrun, hk]
    have hfold : failedOn h.log e0.spec.workId (k + 1) = false := by
      simp only [failedOn, List.any_eq_false]
      intro q hq
      have hfr := s.todoFresh q hq
      rw [htodo, hk] at hfr
      intro hh
      simp only [Bool.and_eq_true, beq_iff_eq] at hh
      exact hfr hh.1.2 (by simp [hh.1.1, hid])
    have hsk : streak h.log e0.spec.workId (k + 1) = streak h.log e0.spec.workId k := by
      simp [streak, hfold]
    have hf : failedOn [r] e0.spec.workId (k + 1) = r.results.any (fun x => x.failed) := by
      simp [failedOn, hid, hrun, hk]
    rw [happ, hf, hsk]
    rw [hsk] at h0 f2
    by_cases hstk : streak h.log e0.spec.workId k = k
    · rw [hstk] at h0 f2
      rw [failures_focus k r.results e0 h0]
      cases hfind : r.results.find? (fun x => x.failed) with
      | none =>
        have hany : ¬ (r.results.any (fun x => x.failed)) = true := by
          intro ha
          simp only [List.any_eq_true] at ha
          obtain ⟨x, hx, hxf⟩ := ha
          have := List.find?_eq_none.mp hfind x hx
          exact this hxf
        dsimp only
        refine ⟨?_, ?_⟩
        · intro x hx
          obtain ⟨q, hq, hqs⟩ := f1 x hx
          exact ⟨q, by simp [hq], hqs⟩
        · intro q hq hqi hqn y hy
          rw [if_neg (fun hh => hany hh.2), hstk] at hqn
          simp only [List.mem_append, List.mem_singleton] at hq
          rcases hq with hq | rfl
          · exact f2 q hq hqi hqn y hy
          · omega
      | some z =>
        dsimp only
        refine ⟨?_, ?_⟩
        · intro x hx
          rw [mem_addFocus] at hx
          rcases hx with hx | rfl
          · obtain ⟨q, hq, hqs⟩ := f1 x hx
            exact ⟨q, by simp [hq], hqs⟩
          · exact ⟨r, by simp, hid.symm, z, hfind, rfl⟩
        · intro q hq hqi hqn y hy
          rw [mem_addFocus]
          simp only [List.mem_append, List.mem_singleton] at hq
          rcases hq with hq | rfl
          · left
            have h1 : q.runNumber ≠ k + 1 := by
              intro hrr
              exact s.todoFresh q hq (by rw [hk]; exact hrr) (by simp [htodo, hqi, hid])
            have h2 := s.logRun q hq
            exact f2 q hq hqi (by omega) y hy
          · right
            rw [hfind] at hy
            cases hy
            rfl
    · rw [failures_done k r.results e0 _ h0 hstk]
      refine ⟨?_, ?_⟩
      · intro x hx
        obtain ⟨q, hq, hqs⟩ := f1 x hx
        exact ⟨q, by simp [hq], hqs⟩
      · intro q hq hqi hqn y hy
        rw [if_neg (fun hh => hstk hh.1)] at hqn
        simp only [List.mem_append, List.mem_singleton] at hq
        rcases hq with hq | rfl
        · exact f2 q hq hqi hqn y hy
        · omega
  · rw [if_neg hid]
    have hf : failedOn [r] e0.spec.workId (k + 1) = false := by
      have : r.workId ≠ e0.spec.workId := fun e => hid e.symm
      simp [failedOn, this]
    rw [happ, hf]
    refine ⟨?_, ?_⟩
    · intro x hx
      obtain ⟨q, hq, hqs⟩ := f1 x hx
      exact ⟨q, by simp [hq], hqs⟩
    · intro q hq hqi hqn y hy
      simp only [Bool.false_eq_true, and_false, if_false] at hqn
      simp only [List.mem_append, List.mem_singleton] at hq
      rcases hq with hq | rfl
      · exact f2 q hq hqi hqn y hy
      · exact absurd hqi.symm hid

theorem foc_account {max : Nat} (rs : List Results) :
    ∀ {h : Hist} {t t' : Tracker}, Sim max h t → Foc h t → Legal h (.account rs) →
      t.account rs = some t' → Foc (next max h (.account rs)) t' := by
  induction rs with
  | nil => intro h t t' _ f _ ht; cases ht; simpa [next] using f
  | cons r rs ih =>
    intro h t t' s f hl ht
    obtain ⟨⟨rest, hpre⟩, hrun⟩ := hl
    simp only [List.map_cons, List.cons_append] at hpre
    obtain ⟨es, st, h1, h2, s'⟩ := sim_result s r _ hpre.symm (hrun r (by simp))
    have f' := foc_result s f r _ hpre.symm (hrun r (by simp)) es st h1
    simp only [Tracker.account, h1, h2] at ht
    have := ih s' f' ⟨⟨rest, rfl⟩, fun q hq => hrun q (by simp [hq])⟩ ht
    simp only [next] at this ⊢
    rw [← hpre]
    simpa using this

theorem hydrateItems_entries (ws : List WorkerTest) :
    ∀ {t t' : Tracker}, t.hydrateItems ws = some t' →
      t'.entries = t.entries ++ ws.map (fun w => ⟨w.spec, .hasNonFailingAttempt⟩) := by
  induction ws with
  | nil => intro t t' h; cases h; simp
  | cons w ws ih =>
    intro t t' h
    simp only [Tracker.hydrateItems] at h
    split at h
    · cases h
    · have := ih h
      simp [this]

theorem foc_hydrate {max : Nat} {h : Hist} {t t' : Tracker} {hy : Hydration} (s : Sim max h t)
    (f : Foc h t) (ws : List WorkerTest) (eow : Bool) (hl : Legal h (.hydrate ws eow))
    (ht : t.hydrate ws eow = some (t', hy)) : Foc (next max h (.hydrate ws eow)) t' := by
  obtain ⟨hc, hn, hf⟩ := hl
  obtain ⟨t1, ht1, -⟩ := sim_items ws s hc hn
  have hent : t'.entries = t1.entries := by
    simp only [Tracker.hydrate, ht1] at ht
    cases eow with
    | false => simp at ht; rw [ht.1]
    | true =>
      simp only [if_true] at ht
      split at ht
      · cases ht
      · cases ht; rfl
  intro e he
  rw [hent, hydrateItems_entries ws ht1] at he
  simp only [List.mem_append, List.mem_map] at he
  rcases he with he | ⟨w, hw, rfl⟩
  · exact f e he
  · have hfoc := (hf w hw).2
    refine ⟨by simp [focusIds, hfoc], ?_⟩
    intro r hr hri
    exfalso
    have := s.logMem r hr
    rw [hri] at this
    simp only [List.map_append, List.nodup_append] at hn
    exact hn.2.2 _ this _ (by simp only [List.map_map, List.mem_map]; exact ⟨w, hw, rfl⟩) rfl

theorem assemble_entries (t : Tracker) : t.assemble.1.entries = t.entries := by
  unfold Tracker.assemble
  split
  · rfl
  · split
    · rfl
    · rfl
    · split
      · dsimp only; split <;> rfl
      · rfl

theorem foc_assemble {max : Nat} {h : Hist} {t : Tracker} (s : Sim max h t) (f : Foc h t) :
    Foc (next max h .assemble) t.assemble.1 := by
  intro e he
  rw [assemble_entries] at he
  have := f e he
  simp only [next]
  split
  · dsimp only
    rw [streak_next _ _ _ s.logRun]
    exact this
  · exact this

theorem foc_run {max : Nat} (cs : List Call) :
    ∀ {h : Hist} {t t' : Tracker}, Sim max h t → Foc h t → Legals max h cs →
      runCalls t cs = some t' → Foc (cs.foldl (next max) h) t' := by
  induction cs with
  | nil => intro h t t' _ f _ ht; cases ht; exact f
  | cons c cs ih =>
    intro h t t' s f hl ht
    obtain ⟨hc, hl⟩ := hl
    simp only [runCalls] at ht
    cases c with
    | hydrate ws eow =>
      obtain ⟨t1, hy, h1, s', -⟩ := sim_hydrate s ws eow hc
      simp only [call, h1, Option.map_some] at ht
      exact ih s' (foc_hydrate s f ws eow hc h1) hl ht
    | account rs =>
      obtain ⟨t1, h1, s'⟩ := sim_account rs s hc
      simp only [call, h1, Option.map_some] at ht
      exact ih s' (foc_account rs s f hc h1) hl ht
    | assemble =>
      simp only [call] at ht
      exact ih (sim_assemble s hc).1 (foc_assemble s f) hl ht

theorem assemble_work_mem {t : Tracker} {b : Bundle} (h : t.assemble.2 = some b) :
    ∀ w ∈ b.work, ∃ e ∈ t.entries, e.spec = w.spec ∧ e.status = .alwaysFailedOn t.currentRunNumber := by
  intro w hw
  unfold Tracker.assemble at h
  split at h
  · cases h; simp at hw
  · split at h
    · cases h
    · cases h
    · split at h
      · dsimp only at h
        split at h
        rotate_left
        · cases h; simp at hw
        · cases h
          dsimp only at hw
          simp only [failingSubset, List.mem_map, List.mem_filterMap] at hw
          obtain ⟨sp, ⟨e, he, hs⟩, rfl⟩ := hw
          split at hs
          · cases hs
          · rename_i l hl
            split at hs
            · rename_i hlr
              cases hs
              exact ⟨e, he, rfl, by rw [hl, hlr]⟩
            · cases hs
      · cases h

def GoodFrom (max n : Nat) : List (List WorkerTest) → Prop
  | [] => True
  | ws :: rest =>
    n ≤ max ∧ (ws.map (·.spec.workId)).Nodup ∧ (∀ w ∈ ws, w.runNumber = n) ∧ GoodFrom max (n + 1) rest

theorem goodFrom_get {max : Nat} (g : List (List WorkerTest)) :
    ∀ {n : Nat}, GoodFrom max n g → ∀ i (hi : i < g.length),
      n + i ≤ max ∧ (g[i].map (·.spec.workId)).Nodup ∧ ∀ w ∈ g[i], w.runNumber = n + i := by
  induction g with
  | nil => intro n _ i hi; simp at hi
  | cons ws rest ih =>
    intro n hg i hi
    cases i with
    | zero => exact ⟨hg.1, hg.2.1, hg.2.2.1⟩
    | succ i =>
      have := ih hg.2.2.2 i (by simpa using hi)
      rw [show n + (i + 1) = n + 1 + i by omega]
      exact this

theorem given_good {max : Nat} (cs : List Call) :
    ∀ {h : Hist} {t : Tracker}, Sim max h t → Legals max h cs →
      GoodFrom max (h.attempt + 1) (given t cs) := by
  induction cs with
  | nil => intro h t _ _; trivial
  | cons c cs ih =>
    intro h t s hl
    obtain ⟨hc, hl⟩ := hl
    cases c with
    | hydrate ws eow =>
      obtain ⟨t1, hy, h1, s', -⟩ := sim_hydrate s ws eow hc
      simp only [given, call, h1, Option.map_some]
      have := ih s' hl
      exact this
    | account rs =>
      obtain ⟨t1, h1, s'⟩ := sim_account rs s hc
      simp only [given, call, h1, Option.map_some]
      have := ih s' hl
      exact this
    | assemble =>
      obtain ⟨s', hans, hw⟩ := sim_assemble s hc
      have hih := ih s' hl
      simp only [given, call]
      cases hta : t.assemble with
      | mk t1 o =>
      rw [hta] at s' hans hw hih
      dsimp only at s' hans hw hih
      cases o with
      | none =>
        have hn : next max h .assemble = h := by simp [next, ← hans]
        rw [hn] at hih
        exact hih
      | some b =>
        obtain ⟨work, eow⟩ := b
        cases work with
        | nil =>
          have hn : next max h .assemble = h := by simp [next, ← hans]
          rw [hn] at hih
          exact hih
        | cons w l =>
          have heow : eow = false := by
            have h2 := hans.symm
            unfold answer at h2
            split at h2
            · simp at h2
            · split at h2
              · simp only [Option.map_some, Option.some.injEq, Prod.mk.injEq] at h2
                rw [← h2.2]
                cases hr : toRetry h with
                | nil => rw [hr] at h2; simp at h2
                | cons a b => rfl
              · simp at h2
          subst heow
          have hww := hw _ rfl rfl
          have hn : next max h .assemble =
              { h with attempt := h.attempt + 1, todo := (w :: l).map (·.spec.workId) } := by
            simp [next, ← hans]
          rw [hn] at s' hih
          refine ⟨s'.le, s'.todoNodup, ?_, hih⟩
          intro w' hw'
          have hm : (w'.spec.workId, w'.spec.case, w'.runNumber) ∈
              (w :: l).map (fun w => (w.spec.workId, w.spec.case, w.runNumber)) :=
            List.mem_map.mpr ⟨w', hw', rfl⟩
          rw [hww, List.mem_map] at hm
          obtain ⟨q, -, hq⟩ := hm
          simp only [Prod.mk.injEq] at hq
          rw [← hq.2.2]

end Abq.Retries
