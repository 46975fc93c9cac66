import Verif.Spec.Summary
/-! Lemmas about summaries. -/

namespace Abq.Summary

/-! ## Tags -/

def tagOf (t : Tag) (rs : List Result) : Tag := rs.foldl (fun t r => t.next r.runNumber r.status.isFailLike) t

theorem tagOf_us (rs : List Result) : tagOf .ultimatelySucceeded rs = .ultimatelySucceeded := by
  induction rs with
  | nil => rfl
  | cons r rs ih => exact ih

theorem tagOf_uf (rs : List Result) : tagOf .ultimatelyFailed rs = .ultimatelyFailed := by
  induction rs with
  | nil => rfl
  | cons r rs ih => exact ih

theorem tagOf_af (b : Bool) (rs : List Result) :
    tagOf (.alwaysFailed b) rs
      = if rs.all (·.status.isFailLike) then .alwaysFailed b else .ultimatelySucceeded := by
  induction rs with
  | nil => rfl
  | cons r rs ih =>
    show tagOf (Tag.next (.alwaysFailed b) _ _) rs = _
    cases hf : r.status.isFailLike
    · simp [Tag.next, hf, tagOf_us]
    · simp [Tag.next, hf, ih]

theorem tagOf_nf (rs : List Result) :
    tagOf .neverFailed rs =
      match rs.dropWhile (fun r => !r.status.isFailLike) with
      | [] => .neverFailed
      | r :: later =>
        if r.runNumber = 1 then
          (if later.all (·.status.isFailLike) then .alwaysFailed false else .ultimatelySucceeded)
        else .ultimatelyFailed := by
  induction rs with
  | nil => rfl
  | cons r rs ih =>
    show tagOf (Tag.next .neverFailed _ _) rs = _
    cases hf : r.status.isFailLike
    · simp [Tag.next, hf, ih]
    · by_cases h1 : r.runNumber = 1
      · simp [Tag.next, hf, h1, tagOf_af]
      · simp [Tag.next, hf, h1, tagOf_uf]

theorem tagOf_failed (rs : List Result) : tagOf .neverFailed rs = .alwaysFailed false ↔ failedTest rs = true := by
  rw [tagOf_nf]; unfold failedTest
  cases rs.dropWhile (fun r => !r.status.isFailLike) with
  | nil => simp
  | cons r later =>
    by_cases h1 : r.runNumber = 1
    · by_cases h2 : later.all (·.status.isFailLike) = true
      · simp [h1, h2]
      · simp [h1, h2]
    · simp [h1]

theorem tagOf_not_internal (rs : List Result) : tagOf .neverFailed rs ≠ .alwaysFailed true := by
  rw [tagOf_nf]
  cases rs.dropWhile (fun r => !r.status.isFailLike) with
  | nil => simp
  | cons r later =>
    dsimp only
    split
    · split <;> simp
    · simp

/-! ## The status of a test -/

def statusOf : List Result → TestStatus
  | [] => ⟨.neverFailed, false, none, (0, 0)⟩
  | r :: rest => rest.foldl (fun s r => s.update r false) ((newStatus r .neverFailed).update r true)

theorem statusOf_concat (rs : List Result) (r : Result) (h : rs ≠ []) :
    statusOf (rs ++ [r]) = (statusOf rs).update r false := by
  cases rs with
  | nil => exact absurd rfl h
  | cons a rest => simp [statusOf]

theorem foldl_update (s : TestStatus) (rs : List Result) :
    rs.foldl (fun s r => s.update r false) s
      = { s with tag := tagOf s.tag rs, retried := if rs = [] then s.retried else true } := by
  induction rs generalizing s with
  | nil => rfl
  | cons r rs ih =>
    rw [List.foldl_cons, ih]
    simp only [TestStatus.update, tagOf, List.foldl_cons]
    by_cases h : rs = [] <;> simp [h]

theorem statusOf_cons (r : Result) (rest : List Result) :
    statusOf (r :: rest) = ⟨tagOf .neverFailed (r :: rest), decide (rest ≠ []), r.file, r.runner⟩ := by
  show rest.foldl (fun s r => s.update r false) ((newStatus r .neverFailed).update r true) = _
  rw [foldl_update]
  simp only [TestStatus.update, newStatus, tagOf, List.foldl_cons]
  by_cases h : rest = [] <;> simp [h]

theorem statusOf_tag (rs : List Result) : (statusOf rs).tag = tagOf .neverFailed rs := by
  cases rs with
  | nil => rfl
  | cons r rest => rw [statusOf_cons]

theorem statusOf_retried (rs : List Result) : (statusOf rs).retried = decide (2 ≤ rs.length) := by
  cases rs with
  | nil => rfl
  | cons r rest =>
    rw [statusOf_cons]
    cases rest with
    | nil => rfl
    | cons _ _ => simp

/-! ## Histories -/

theorem unresolved_concat (h : List Result) (r : Result) :
    unresolved (h ++ [r]) =
      if r.material then (unresolved h).filter (fun x => x.workId ≠ r.workId) else unresolved h ++ [r] := by
  induction h with
  | nil => by_cases hm : r.material = true <;> simp [unresolved, hm]
  | cons a h ih =>
    simp only [List.cons_append, unresolved, ih, List.any_append]
    by_cases hm : r.material = true
    · simp only [hm, if_true]
      cases ha : a.material
      · by_cases hw : r.workId = a.workId
        · have hw' : ¬ (a.workId ≠ r.workId) := by simp [hw]
          simp only [List.any_cons, List.any_nil, hw, hm]
          by_cases hx : h.any (fun r' => r'.material && r'.workId == a.workId) = true
          · simp [hx]
          · simp [hx, hw]
        · have hw' : a.workId ≠ r.workId := fun e => hw e.symm
          by_cases hx : h.any (fun r' => r'.material && r'.workId == a.workId) = true
          · simp [hx]
          · simp [hx, hw, hw']
      · simp
    · have hm' : r.material = false := by simpa using hm
      simp only [hm', List.any_cons, List.any_nil]
      by_cases hx : (!a.material && !h.any (fun r' => r'.material && r'.workId == a.workId)) = true
      · simp [hx]
      · simp [hx]

theorem resultsOf_concat (h : List Result) (r : Result) (id : String) :
    resultsOf (h ++ [r]) id = resultsOf h id ++ if r.material && r.id == id then [r] else [] := by
  unfold resultsOf
  rw [List.filter_append]
  congr 1
  by_cases h : (r.material && r.id == id) = true
  · rw [if_pos h]; simp only [List.filter_cons, h, if_true, List.filter_nil]
  · rw [if_neg h]; simp only [List.filter_cons, h, List.filter_nil]; rfl

/-! ## Delayed errors -/

def flat (d : List (Nat × List (String × TestStatus))) : List (Nat × (String × TestStatus)) :=
  d.flatMap fun p => p.2.map fun x => (p.1, x)

theorem flat_push (w : Nat) (x : String × TestStatus) (d : List (Nat × List (String × TestStatus))) :
    (flat (pushDelayed w x d)).Perm (flat d ++ [(w, x)]) := by
  induction d with
  | nil => exact List.Perm.refl _
  | cons p rest ih =>
    obtain ⟨w', l⟩ := p
    unfold pushDelayed
    by_cases h : w' = w
    · subst h
      simp only [if_true, flat, List.flatMap_cons, List.map_append, List.map_cons, List.map_nil, List.append_assoc]
      exact List.Perm.append_left _ List.perm_append_comm
    · rw [if_neg h]
      simp only [flat, List.flatMap_cons, List.append_assoc] at ih ⊢
      exact List.Perm.append_left _ ih

theorem flat_filter (w : Nat) (d : List (Nat × List (String × TestStatus))) :
    flat (d.filter fun p => p.1 ≠ w) = (flat d).filter fun p => p.1 ≠ w := by
  induction d with
  | nil => rfl
  | cons p rest ih =>
    obtain ⟨w', l⟩ := p
    by_cases h : w' = w
    · simp only [flat, List.flatMap_cons, List.filter_append] at ih ⊢
      simp only [ne_eq, h, not_true_eq_false, decide_false, Bool.false_eq_true, not_false_eq_true,
        List.filter_cons_of_neg]
      rw [ih]
      have : (l.map fun x => (w, x)).filter (fun p => decide (p.1 ≠ w)) = [] := by
        rw [List.filter_eq_nil_iff]; intro a ha; obtain ⟨x, _, rfl⟩ := List.mem_map.1 ha; simp
      simp only [ne_eq] at this
      rw [this]; rfl
    · simp only [flat, List.flatMap_cons, List.filter_append] at ih ⊢
      have hw : ((w', l) :: rest).filter (fun p => decide (p.1 ≠ w))
          = (w', l) :: rest.filter (fun p => decide (p.1 ≠ w)) := by simp [h]
      rw [hw, List.flatMap_cons, ih]
      congr 1
      symm
      rw [List.filter_eq_self]; intro a ha; obtain ⟨x, _, rfl⟩ := List.mem_map.1 ha; simpa using h

theorem flat_snd (d : List (Nat × List (String × TestStatus))) :
    (d.flatMap (·.2)).map (·.2) = (flat d).map (fun p => p.2.2) := by
  induction d with
  | nil => rfl
  | cons p rest ih =>
    simp only [flat, List.flatMap_cons, List.map_append] at ih ⊢
    rw [ih]
    simp [Function.comp_def]

/-! ## The tracker -/

def placeholder (r : Result) : Nat × (String × TestStatus) := (r.workId, (r.id, newStatus r (.alwaysFailed true)))

structure TInv (h : List Result) (t : Tracker) : Prop where
  attempts : t.totalAttempts = h.length
  time : t.testTime = ((h.filter (·.material)).map (·.runtime)).sum % 18446744073709551616
  tests : ∃ ids, TestsOf h ids ∧ t.tests = ids.map fun id => (id, statusOf (resultsOf h id))
  delayed : (flat t.delayed).Perm ((unresolved h).map placeholder)
  cached : t.cached = none

theorem TInv.new : TInv [] Tracker.new :=
  ⟨rfl, rfl, ⟨[], ⟨List.nodup_nil, by simp [resultsOf]⟩, rfl⟩, List.Perm.refl _, rfl⟩

theorem updateEntry_not_mem (r : Result) (b : Bool) (l : List (String × TestStatus))
    (h : r.id ∉ l.map (·.1)) : updateEntry r b l = l := by
  induction l with
  | nil => rfl
  | cons p rest ih =>
    obtain ⟨k, s⟩ := p
    simp only [List.map_cons, List.mem_cons, not_or] at h
    rw [updateEntry, if_neg (fun e => h.1 e.symm), ih h.2]

theorem updateEntry_map (r : Result) (b : Bool) (ids : List String) (f : String → TestStatus) (hn : ids.Nodup) :
    updateEntry r b (ids.map fun id => (id, f id))
      = ids.map fun id => (id, if id = r.id then (f id).update r b else f id) := by
  induction ids with
  | nil => rfl
  | cons id ids ih =>
    rw [List.nodup_cons] at hn
    simp only [List.map_cons, updateEntry]
    by_cases h : id = r.id
    · rw [if_pos h, if_pos h]
      congr 1
      apply List.map_congr_left
      intro a ha
      have : a ≠ r.id := fun e => hn.1 (by rw [h, ← e]; exact ha)
      rw [if_neg this]
    · rw [if_neg h, if_neg h, ih hn.2]

theorem updateEntry_append (r : Result) (b : Bool) (l l' : List (String × TestStatus))
    (h : r.id ∉ l.map (·.1)) : updateEntry r b (l ++ l') = l ++ updateEntry r b l' := by
  induction l with
  | nil => rfl
  | cons p rest ih =>
    obtain ⟨k, s⟩ := p
    simp only [List.map_cons, List.mem_cons, not_or] at h
    rw [List.cons_append, updateEntry, if_neg (fun e => h.1 e.symm), ih h.2]; rfl

theorem TInv.account {h : List Result} {t : Tracker} (i : TInv h t) (r : Result) : TInv (h ++ [r]) (t.account r) := by
  obtain ⟨ia, it, ⟨ids, hids, its⟩, id, ic⟩ := i
  by_cases hs : r.status = .nativeRunnerError
  · have hm : r.material = false := by simp [Result.material, hs]
    have hr : ∀ x, resultsOf (h ++ [r]) x = resultsOf h x := by intro x; rw [resultsOf_concat]; simp [hm]
    refine ⟨?_, ?_, ⟨ids, ?_, ?_⟩, ?_, ?_⟩
    · simp [Tracker.account, hs, ia]
    · simp [Tracker.account, hs, it, hm]
    · exact ⟨hids.1, fun x => by rw [hr]; exact hids.2 x⟩
    · simp [Tracker.account, hs, its, hr]
    · rw [unresolved_concat, if_neg (by simp [hm])]
      simp only [Tracker.account, hs, if_true, List.map_append, List.map_cons, List.map_nil]
      exact (flat_push _ _ _).trans (id.append_right _)
    · simp [Tracker.account, hs, ic]
  · have hm : r.material = true := by simp [Result.material, hs]
    have hr : ∀ x, resultsOf (h ++ [r]) x = resultsOf h x ++ if r.id = x then [r] else [] := by
      intro x; rw [resultsOf_concat]; simp [hm]
    have hk : t.tests.map (·.1) = ids := by rw [its]; simp [Function.comp_def]
    refine ⟨?_, ?_, ?_, ?_, ?_⟩
    · simp [Tracker.account, hs, ia]
    · simp [Tracker.account, hs, it, hm]
    · by_cases hin : r.id ∈ ids
      · refine ⟨ids, ⟨hids.1, ?_⟩, ?_⟩
        · intro x; rw [hids.2, hr]
          by_cases hx : r.id = x
          · have := (hids.2 x).1 (hx ▸ hin); simp [this]
          · simp [hx]
        · have hc : (!(t.tests.map (·.1)).contains r.id) = false := by rw [hk]; simpa using hin
          simp only [Tracker.account, hs, if_false, hc, Bool.false_eq_true]
          rw [its, updateEntry_map _ _ _ _ hids.1]
          apply List.map_congr_left
          intro x hx
          rw [hr]
          by_cases he : x = r.id
          · subst he
            simp only [if_true]
            rw [statusOf_concat _ _ ((hids.2 _).1 hin)]
          · rw [if_neg he, if_neg (fun e => he e.symm), List.append_nil]
      · have hemp : resultsOf h r.id = [] := Classical.byContradiction fun hne => hin ((hids.2 _).2 hne)
        refine ⟨ids ++ [r.id], ⟨?_, ?_⟩, ?_⟩
        · rw [List.nodup_append]
          refine ⟨hids.1, by simp, ?_⟩
          intro a ha b hb e
          rw [List.mem_singleton] at hb
          exact hin (by rw [← hb, ← e]; exact ha)
        · intro x; rw [List.mem_append, hids.2, hr, List.mem_singleton]
          by_cases hx : r.id = x
          · simp [hx]
          · have : ¬ x = r.id := fun e => hx e.symm
            simp [hx, this]
        · have hc : (!(t.tests.map (·.1)).contains r.id) = true := by rw [hk]; simpa using hin
          simp only [Tracker.account, hs, if_false, hc, if_true]
          rw [updateEntry_append _ _ _ _ (by rw [hk]; exact hin), its, List.map_append]
          congr 1
          · apply List.map_congr_left
            intro x hx
            have : ¬ r.id = x := fun e => hin (e ▸ hx)
            rw [hr, if_neg this, List.append_nil]
          · simp only [updateEntry, if_true, List.map_cons, List.map_nil]
            rw [hr, hemp]; simp [statusOf]
    · rw [unresolved_concat, if_pos hm]
      simp only [Tracker.account, hs, if_false]
      rw [flat_filter]
      have := id.filter (fun p => decide (p.1 ≠ r.workId))
      rw [List.filter_map] at this
      exact this
    · simp [Tracker.account, hs, ic]

theorem tinv_foldl {h : List Result} {t : Tracker} (i : TInv h t) (rs : List Result) :
    TInv (h ++ rs) (rs.foldl Tracker.account t) := by
  induction rs generalizing h t with
  | nil => simpa using i
  | cons r rs ih => simpa using ih (i.account r)

theorem tinv (h : List Result) : TInv h (h.foldl Tracker.account .new) := by
  simpa using tinv_foldl TInv.new h

/-! ## Metrics -/

def isAF (s : TestStatus) : Bool :=
  match s.tag with
  | .alwaysFailed _ => true
  | _ => false

def isInternal (s : TestStatus) : Bool := s.tag == .alwaysFailed true

theorem foldl_count (l : List TestStatus) (m : Metrics) (hm : m.exitCode = 0 ∨ m.exitCode = 1 ∨ m.exitCode = 101) :
    l.foldl Metrics.count m =
      ⟨m.failed + l.countP isAF, m.retried + l.countP (·.retried),
        if l.any isInternal then 101 else if m.exitCode = 0 then (if l.any isAF then 1 else 0) else m.exitCode⟩ := by
  induction l generalizing m with
  | nil =>
    obtain ⟨a, b, c⟩ := m
    by_cases h : c = 0 <;> simp [h]
  | cons s l ih =>
    obtain ⟨a, b, c⟩ := m
    obtain ⟨tag, retried, file, runner⟩ := s
    rw [List.foldl_cons]
    dsimp only at hm
    cases tag with
    | alwaysFailed internal =>
      cases internal
      · by_cases hc : c = 0
        · have : Metrics.count ⟨a, b, c⟩ ⟨.alwaysFailed false, retried, file, runner⟩
              = ⟨a + 1, b + if retried then 1 else 0, 1⟩ := by simp [Metrics.count, hc]
          rw [this, ih _ (by simp)]
          cases retried <;> simp [isAF, isInternal, hc, List.countP_cons] <;> omega
        · have : Metrics.count ⟨a, b, c⟩ ⟨.alwaysFailed false, retried, file, runner⟩
              = ⟨a + 1, b + if retried then 1 else 0, c⟩ := by simp [Metrics.count, hc]
          rw [this, ih _ hm]
          cases retried <;> simp [isAF, isInternal, hc, List.countP_cons] <;> omega
      · have : Metrics.count ⟨a, b, c⟩ ⟨.alwaysFailed true, retried, file, runner⟩
              = ⟨a + 1, b + if retried then 1 else 0, 101⟩ := by simp [Metrics.count]
        rw [this, ih _ (by simp)]
        cases retried <;> simp [isAF, isInternal, List.countP_cons] <;> omega
    | neverFailed =>
      have : Metrics.count ⟨a, b, c⟩ ⟨.neverFailed, retried, file, runner⟩
              = ⟨a, b + if retried then 1 else 0, c⟩ := by simp [Metrics.count]
      rw [this, ih _ hm]
      cases retried <;> simp [isAF, isInternal, List.countP_cons] <;> omega
    | ultimatelySucceeded =>
      have : Metrics.count ⟨a, b, c⟩ ⟨.ultimatelySucceeded, retried, file, runner⟩
              = ⟨a, b + if retried then 1 else 0, c⟩ := by simp [Metrics.count]
      rw [this, ih _ hm]
      cases retried <;> simp [isAF, isInternal, List.countP_cons] <;> omega
    | ultimatelyFailed =>
      have : Metrics.count ⟨a, b, c⟩ ⟨.ultimatelyFailed, retried, file, runner⟩
              = ⟨a, b + if retried then 1 else 0, c⟩ := by simp [Metrics.count]
      rw [this, ih _ hm]
      cases retried <;> simp [isAF, isInternal, List.countP_cons] <;> omega

theorem aggregate_eq (l : List TestStatus) :
    aggregate l = ⟨l.countP isAF, l.countP (·.retried),
      if l.any isInternal then 101 else if l.any isAF then 1 else 0⟩ := by
  unfold aggregate
  rw [foldl_count _ _ (by simp)]
  simp

theorem any_perm {p : TestStatus → Bool} {l l' : List TestStatus} (h : l.Perm l') : l.any p = l'.any p := by
  rw [Bool.eq_iff_iff, List.any_eq_true, List.any_eq_true]
  constructor
  · rintro ⟨x, hx, hp⟩; exact ⟨x, h.mem_iff.1 hx, hp⟩
  · rintro ⟨x, hx, hp⟩; exact ⟨x, h.mem_iff.2 hx, hp⟩

theorem aggregate_perm {l l' : List TestStatus} (h : l.Perm l') : aggregate l = aggregate l' := by
  rw [aggregate_eq, aggregate_eq, h.countP_eq, h.countP_eq, any_perm h, any_perm h]

/-! ## Summaries of runners -/

theorem foldl_pair (l : List TestStatus) (n : Nat) (ss : List RunnerSummary) :
    l.foldl (fun (acc : Nat × List RunnerSummary) s => (acc.1 + 1, countRunner s acc.2)) (n, ss)
      = (n + l.length, l.foldl (fun ss s => countRunner s ss) ss) := by
  induction l generalizing n ss with
  | nil => rfl
  | cons s l ih =>
    simp only [List.foldl_cons, ih, List.length_cons]
    congr 1
    omega

theorem numberOf_bump (f file : String) (l : List (String × Nat)) :
    numberOf f (bump file l) = numberOf f l + if file = f then 1 else 0 := by
  induction l with
  | nil => by_cases h : file = f <;> simp [bump, numberOf, h]
  | cons p rest ih =>
    obtain ⟨g, n⟩ := p
    unfold bump
    by_cases hg : g = file
    · subst hg
      by_cases h : g = f
      · simp [numberOf, h]
      · simp [numberOf, h]
    · rw [if_neg hg]
      by_cases h : g = f
      · have : ¬ file = f := fun e => hg (h.trans e.symm)
        simp [numberOf, h, this]
      · unfold numberOf at ih ⊢
        rw [List.find?_cons_of_neg (by simpa using h), List.find?_cons_of_neg (by simpa using h), ih]

def failsAt (f : String) (t : TestStatus) : Bool := t.tag == .alwaysFailed false && t.file == some f
def retriesAt (f : String) (t : TestStatus) : Bool := t.retried && t.file == some f

theorem count_runner (s : RunnerSummary) (t : TestStatus) : (s.count t).runner = s.runner := by
  unfold RunnerSummary.count
  dsimp only
  split <;> split <;> (try split) <;> rfl

theorem count_failures (s : RunnerSummary) (t : TestStatus) (f : String) :
    numberOf f (s.count t).failuresPerFile = numberOf f s.failuresPerFile + if failsAt f t then 1 else 0 := by
  obtain ⟨tag, retried, file, runner⟩ := t
  cases file with
  | none =>
    have : failsAt f ⟨tag, retried, none, runner⟩ = false := by simp [failsAt]
    rw [this]
    cases retried <;> cases tag <;> try rfl
    all_goals rename_i b; cases b <;> rfl
  | some g =>
    cases tag with
    | alwaysFailed b =>
      cases b
      · cases retried <;>
        · show numberOf f (bump g s.failuresPerFile) = _
          rw [numberOf_bump]
          simp [failsAt]
      · cases retried <;> simp [RunnerSummary.count, failsAt]
    | _ => cases retried <;> simp [RunnerSummary.count, failsAt]

theorem count_retries (s : RunnerSummary) (t : TestStatus) (f : String) :
    numberOf f (s.count t).retriesPerFile = numberOf f s.retriesPerFile + if retriesAt f t then 1 else 0 := by
  obtain ⟨tag, retried, file, runner⟩ := t
  cases file with
  | none =>
    have : retriesAt f ⟨tag, retried, none, runner⟩ = false := by simp [retriesAt]
    rw [this]
    cases retried <;> cases tag <;> try rfl
    all_goals rename_i b; cases b <;> rfl
  | some g =>
    cases retried
    · cases tag with
      | alwaysFailed b => cases b <;> simp [RunnerSummary.count, retriesAt]
      | _ => simp [RunnerSummary.count, retriesAt]
    · have : retriesAt f ⟨tag, true, some g, runner⟩ = (g == f) := by simp [retriesAt]
      rw [this]
      cases tag with
      | alwaysFailed b =>
        cases b <;>
        · show numberOf f (bump g s.retriesPerFile) = _
          rw [numberOf_bump]; simp
      | _ =>
        show numberOf f (bump g s.retriesPerFile) = _
        rw [numberOf_bump]; simp

/-! A map ordered by runner. -/

def Ordered (l : List RunnerSummary) : Prop := l.Pairwise fun a b => Runner.lt a.runner b.runner = true

theorem lt_irrefl (a : Runner) : Runner.lt a a = false := by simp [Runner.lt]

theorem lt_trans {a b c : Runner} (h : Runner.lt a b = true) (h' : Runner.lt b c = true) : Runner.lt a c = true := by
  simp only [Runner.lt, Bool.or_eq_true, Bool.and_eq_true, decide_eq_true_eq, beq_iff_eq] at h h' ⊢
  omega

theorem lt_total (a b : Runner) (h : Runner.lt a b = false) (hne : b ≠ a) : Runner.lt b a = true := by
  obtain ⟨a1, a2⟩ := a
  obtain ⟨b1, b2⟩ := b
  have hne' : ¬ (b1 = a1 ∧ b2 = a2) := fun e => hne (by rw [e.1, e.2])
  rw [← Bool.not_eq_true] at h
  simp only [Runner.lt, Bool.or_eq_true, Bool.and_eq_true, decide_eq_true_eq, beq_iff_eq] at h ⊢
  omega

theorem mem_countRunner (t : TestStatus) (l : List RunnerSummary) (r : Runner) :
    r ∈ (countRunner t l).map (·.runner) ↔ r = t.runner ∨ r ∈ l.map (·.runner) := by
  induction l with
  | nil => simp [countRunner, count_runner]
  | cons s rest ih =>
    unfold countRunner
    split
    · rename_i he
      simp [count_runner, he]
    · split
      · simp [count_runner]
      · rw [List.map_cons, List.mem_cons, ih, List.map_cons, List.mem_cons]
        constructor
        · rintro (h | h | h) <;> simp [h]
        · rintro (h | h | h) <;> simp [h]

theorem ordered_countRunner (t : TestStatus) (l : List RunnerSummary) (h : Ordered l) : Ordered (countRunner t l) := by
  induction l with
  | nil => simp [countRunner, Ordered]
  | cons s rest ih =>
    unfold Ordered at h
    rw [List.pairwise_cons] at h
    unfold countRunner
    split
    · unfold Ordered
      rw [List.pairwise_cons]
      exact ⟨by rw [count_runner]; exact h.1, h.2⟩
    · rename_i hne
      split
      · rename_i hlt
        unfold Ordered
        rw [List.pairwise_cons, List.pairwise_cons]
        refine ⟨?_, h⟩
        rw [count_runner]
        intro a ha
        rcases List.mem_cons.1 ha with rfl | ha
        · exact hlt
        · exact lt_trans hlt (h.1 a ha)
      · rename_i hlt
        unfold Ordered
        rw [List.pairwise_cons]
        refine ⟨?_, ih h.2⟩
        intro a ha
        have : a.runner ∈ (countRunner t rest).map (·.runner) := List.mem_map.2 ⟨a, ha, rfl⟩
        rw [mem_countRunner] at this
        rcases this with e | e
        · rw [e]
          exact lt_total _ _ (by simpa using hlt) hne
        · obtain ⟨b, hb, e⟩ := List.mem_map.1 e
          rw [← e]; exact h.1 b hb

/-- A number kept for a runner. -/
def at' (g : RunnerSummary → Nat) (r : Runner) (l : List RunnerSummary) : Nat :=
  match summaryOf r l with
  | some s => g s
  | none => 0

theorem at_not_mem (g : RunnerSummary → Nat) (r : Runner) (l : List RunnerSummary) (h : r ∉ l.map (·.runner)) :
    at' g r l = 0 := by
  have : summaryOf r l = none := by
    unfold summaryOf
    rw [List.find?_eq_none]
    intro s hs
    have : s.runner ≠ r := fun e => h (List.mem_map.2 ⟨s, hs, e⟩)
    simpa using this
  unfold at'; rw [this]

theorem at_cons_eq (g : RunnerSummary → Nat) (r : Runner) (s : RunnerSummary) (l : List RunnerSummary)
    (h : s.runner = r) : at' g r (s :: l) = g s := by
  unfold at' summaryOf; rw [List.find?_cons_of_pos (by simpa using h)]

theorem at_cons_ne (g : RunnerSummary → Nat) (r : Runner) (s : RunnerSummary) (l : List RunnerSummary)
    (h : s.runner ≠ r) : at' g r (s :: l) = at' g r l := by
  unfold at' summaryOf; rw [List.find?_cons_of_neg (by simpa using h)]

theorem at_countRunner (g : RunnerSummary → Nat) (p : TestStatus → Bool)
    (hg : ∀ s t, g (RunnerSummary.count s t) = g s + if p t then 1 else 0) (h0 : ∀ r, g ⟨r, [], []⟩ = 0)
    (t : TestStatus) (l : List RunnerSummary) (h : Ordered l) (r : Runner) :
    at' g r (countRunner t l) = at' g r l + if t.runner = r ∧ p t = true then 1 else 0 := by
  induction l with
  | nil =>
    by_cases hr : t.runner = r
    · simp only [countRunner]
      rw [at_cons_eq _ _ _ _ (by rw [count_runner]; exact hr), hg, h0]
      simp [at', summaryOf, hr]
    · simp only [countRunner]
      rw [at_cons_ne _ _ _ _ (by rw [count_runner]; exact hr)]
      simp [hr]
  | cons s rest ih =>
    unfold Ordered at h
    rw [List.pairwise_cons] at h
    unfold countRunner
    split
    · rename_i he
      by_cases hr : s.runner = r
      · rw [at_cons_eq _ _ _ _ (by rw [count_runner]; exact hr), hg, at_cons_eq _ _ _ _ hr]
        simp [← he, hr]
      · rw [at_cons_ne _ _ _ _ (by rw [count_runner]; exact hr), at_cons_ne _ _ _ _ hr]
        simp [← he, hr]
    · rename_i hne
      split
      · rename_i hlt
        by_cases hr : t.runner = r
        · rw [at_cons_eq _ _ _ _ (by rw [count_runner]; exact hr), hg, h0, at_not_mem]
          · simp [hr]
          · subst hr
            intro hm
            rw [List.map_cons] at hm
            rcases List.mem_cons.1 hm with e | e
            · exact hne e.symm
            · obtain ⟨b, hb, e⟩ := List.mem_map.1 e
              have := lt_trans hlt (h.1 b hb)
              rw [e, lt_irrefl] at this
              simp at this
        · rw [at_cons_ne _ _ _ _ (by rw [count_runner]; exact hr)]
          simp [hr]
      · by_cases hr : s.runner = r
        · have : ¬ t.runner = r := fun e => hne (hr.trans e.symm)
          rw [at_cons_eq _ _ _ _ hr, at_cons_eq _ _ _ _ hr]
          simp [this]
        · rw [at_cons_ne _ _ _ _ hr, at_cons_ne _ _ _ _ hr, ih h.2]

theorem foldl_countRunner (l : List TestStatus) (ss : List RunnerSummary) (h : Ordered ss) :
    Ordered (l.foldl (fun ss s => countRunner s ss) ss) ∧
    (∀ r, r ∈ (l.foldl (fun ss s => countRunner s ss) ss).map (·.runner)
      ↔ r ∈ l.map (·.runner) ∨ r ∈ ss.map (·.runner)) ∧
    ∀ (g : RunnerSummary → Nat) (p : TestStatus → Bool)
      (_ : ∀ s t, g (RunnerSummary.count s t) = g s + if p t then 1 else 0) (_ : ∀ r, g ⟨r, [], []⟩ = 0) (r : Runner),
      at' g r (l.foldl (fun ss s => countRunner s ss) ss)
        = at' g r ss + l.countP fun t => t.runner == r && p t := by
  induction l generalizing ss with
  | nil => exact ⟨h, by simp, by simp⟩
  | cons t l ih =>
    obtain ⟨i1, i2, i3⟩ := ih (countRunner t ss) (ordered_countRunner t ss h)
    refine ⟨i1, ?_, ?_⟩
    · intro r
      rw [List.foldl_cons, i2, mem_countRunner, List.map_cons, List.mem_cons]
      constructor
      · rintro (h | h | h) <;> simp [h]
      · rintro ((h | h) | h) <;> simp [h]
    · intro g p hg h0 r
      rw [List.foldl_cons, i3 g p hg h0 r, at_countRunner g p hg h0 t ss h r, List.countP_cons]
      by_cases hr : t.runner = r <;> cases hp : p t <;> simp [hr, hp] <;> omega

/-! ## The answer -/

theorem summarise_eq (h : List Result) :
    summarise h =
      let t := h.foldl Tracker.account .new
      let m := aggregate t.statuses
      { exitCode := m.exitCode, count := t.statuses.length, countFailed := m.failed, testsRetried := m.retried,
        testTime := t.testTime, runnerSummaries := t.statuses.foldl (fun ss s => countRunner s ss) [] } := by
  have hc := (tinv h).cached
  unfold summarise Tracker.suiteResult Tracker.load
  rw [hc]
  dsimp only
  have : ∀ (t : Tracker) c, Tracker.statuses { t with cached := c } = t.statuses := fun _ _ => rfl
  rw [this, foldl_pair]
  simp only [this, Nat.zero_add]

/-- The statuses: those of tests, and those of placeholders. -/
theorem statuses_perm (h : List Result) (ids : List String) (hi : TestsOf h ids) :
    (h.foldl Tracker.account .new).statuses.Perm
      ((ids.map fun id => statusOf (resultsOf h id)) ++ (unresolved h).map (newStatus · (.alwaysFailed true))) := by
  obtain ⟨-, -, ⟨ids', hi', ht⟩, hd, -⟩ := tinv h
  have hp : ids'.Perm ids := (List.perm_ext_iff_of_nodup hi'.1 hi.1).2 fun a => by rw [hi'.2, hi.2]
  unfold Tracker.statuses
  apply List.Perm.append
  · rw [ht, List.map_map]
    exact hp.map _
  · rw [flat_snd]
    have := hd.map (fun p => p.2.2)
    rw [List.map_map] at this
    exact this

/-- There is a list of the tests. -/
theorem exists_testsOf (h : List Result) : ∃ ids, TestsOf h ids :=
  let ⟨ids, hi, _⟩ := (tinv h).tests
  ⟨ids, hi⟩

theorem unresolved_newStatus (h : List Result) (p : TestStatus → Bool) (b : Bool)
    (hp : ∀ r, p (newStatus r (.alwaysFailed true)) = b) :
    ((unresolved h).map (newStatus · (.alwaysFailed true))).countP p = if b then (unresolved h).length else 0 := by
  rw [List.countP_map]
  cases b
  · have : (unresolved h).countP (p ∘ fun r => newStatus r (.alwaysFailed true)) = 0 :=
      List.countP_eq_zero.2 fun a _ => by simp [hp]
    simpa using this
  · have : (unresolved h).countP (p ∘ fun r => newStatus r (.alwaysFailed true)) = (unresolved h).length :=
      List.countP_eq_length.2 fun a _ => by simp [hp]
    simpa using this

theorem isAF_statusOf (rs : List Result) : isAF (statusOf rs) = failedTest rs := by
  rw [Bool.eq_iff_iff, ← tagOf_failed, ← statusOf_tag]
  have h1 : (statusOf rs).tag ≠ .alwaysFailed true := by rw [statusOf_tag]; exact tagOf_not_internal rs
  unfold isAF
  revert h1
  cases (statusOf rs).tag with
  | alwaysFailed b => cases b <;> simp
  | _ => simp

theorem isInternal_statusOf (rs : List Result) : isInternal (statusOf rs) = false := by
  have h1 : (statusOf rs).tag ≠ .alwaysFailed true := by rw [statusOf_tag]; exact tagOf_not_internal rs
  unfold isInternal
  simpa using h1

theorem exit_codes (h : List Result) :
    ((summarise h).exitCode = 101 ↔ unresolved h ≠ []) ∧
    ((summarise h).exitCode = 1 ↔ unresolved h = [] ∧ ∃ id, failedTest (resultsOf h id) = true) ∧
    ((summarise h).exitCode = 0 ↔ unresolved h = [] ∧ ∀ id, failedTest (resultsOf h id) = false) := by
  obtain ⟨ids, hi⟩ := exists_testsOf h
  have hp := statuses_perm h ids hi
  have h1 : (h.foldl Tracker.account .new).statuses.any isInternal = true ↔ unresolved h ≠ [] := by
    rw [any_perm hp, List.any_append, List.any_map, List.any_map]
    have : ids.any (isInternal ∘ fun id => statusOf (resultsOf h id)) = false := by
      rw [List.any_eq_false]; intro a _; simp [isInternal_statusOf]
    rw [this, Bool.false_or]
    cases hu : unresolved h with
    | nil => simp
    | cons a l => simp [isInternal, newStatus]
  have h2 : unresolved h = [] → ((h.foldl Tracker.account .new).statuses.any isAF = true
      ↔ ∃ id, failedTest (resultsOf h id) = true) := by
    intro hu
    rw [any_perm hp, hu, List.map_nil, List.append_nil, List.any_map, List.any_eq_true]
    constructor
    · rintro ⟨id, _, hf⟩; exact ⟨id, by simpa [isAF_statusOf] using hf⟩
    · rintro ⟨id, hf⟩
      refine ⟨id, (hi.2 id).2 ?_, by simpa [isAF_statusOf] using hf⟩
      intro e; rw [e] at hf; simp [failedTest] at hf
  have he : (summarise h).exitCode = if (h.foldl Tracker.account .new).statuses.any isInternal then 101
      else if (h.foldl Tracker.account .new).statuses.any isAF then 1 else 0 := by
    rw [summarise_eq]; dsimp only; rw [aggregate_eq]
  rw [he]
  by_cases hu : unresolved h = []
  · have hn : (h.foldl Tracker.account .new).statuses.any isInternal = false := by
      rw [← Bool.not_eq_true, h1]; simpa using hu
    rw [hn]
    have h2' := h2 hu
    by_cases hf : ∃ id, failedTest (resultsOf h id) = true
    · rw [if_neg (by simp), if_pos (h2'.2 hf)]
      refine ⟨by simp [hu], by simp [hu, hf], ?_⟩
      constructor
      · intro e; simp at e
      · rintro ⟨-, hall⟩
        obtain ⟨id, hid⟩ := hf
        rw [hall id] at hid; simp at hid
    · rw [if_neg (by simp), if_neg (fun e => hf (h2'.1 e))]
      refine ⟨by simp [hu], by simp [hf], ?_⟩
      refine ⟨fun _ => ⟨hu, fun id => ?_⟩, fun _ => rfl⟩
      rw [← Bool.not_eq_true]; exact fun e => hf ⟨id, e⟩
  · rw [if_pos (h1.2 hu)]
    simp [hu]

theorem exit_zero_iff (h : List Result) :
    (summarise h).exitCode = 0 ↔ unresolved h = [] ∧ ∀ id, failedTest (resultsOf h id) = false := (exit_codes h).2.2

theorem failed_numbered (r : Result) (rest : List Result) (h1 : r.runNumber = 1)
    (h2 : ∀ r' ∈ rest, r'.runNumber ≠ 1) : failedTest (r :: rest) = failedAlways (r :: rest) := by
  cases hf : r.status.isFailLike
  · have hx : failedTest (r :: rest) = failedTest rest := by simp [failedTest, hf]
    have hy : failedAlways (r :: rest) = false := by simp [failedAlways, hf]
    rw [hx, hy]
    unfold failedTest
    cases hd : rest.dropWhile (fun r => !r.status.isFailLike) with
    | nil => rfl
    | cons a l =>
      have : a ∈ rest := (List.dropWhile_suffix _).subset (by rw [hd]; exact List.mem_cons_self)
      simp [h2 a this]
  · simp [failedTest, failedAlways, hf, h1]

theorem failed_ascending (l : List Result) (hp : l.Pairwise fun a b => a.runNumber < b.runNumber)
    (hpos : ∀ r ∈ l, 1 ≤ r.runNumber) :
    failedTest l = true ↔ (∃ r ∈ l, r.runNumber = 1) ∧ ∀ r ∈ l, r.status.isFailLike = true := by
  cases l with
  | nil => simp [failedTest]
  | cons r rest =>
    rw [List.pairwise_cons] at hp
    have h1 := hpos r List.mem_cons_self
    by_cases hr : r.runNumber = 1
    · rw [failed_numbered r rest hr fun r' h' e => by have := hp.1 r' h'; omega]
      simp only [failedAlways, ne_eq, reduceCtorEq, not_false_eq_true, decide_true, Bool.true_and, List.all_eq_true]
      exact ⟨fun h => ⟨⟨r, List.mem_cons_self, hr⟩, h⟩, fun h => h.2⟩
    · have hno : ∀ x ∈ r :: rest, x.runNumber ≠ 1 := by
        intro x hx
        rcases List.mem_cons.1 hx with rfl | hx
        · exact hr
        · have := hp.1 x hx; omega
      refine ⟨fun h => ?_, fun ⟨⟨x, hx, e⟩, _⟩ => absurd e (hno x hx)⟩
      unfold failedTest at h
      split at h
      · cases h
      · rename_i a l hd
        have ha : a ∈ r :: rest := (List.dropWhile_suffix _).subset (by rw [hd]; exact List.mem_cons_self)
        simp [hno a ha] at h

/-! ## The cache -/

theorem account_cached (t : Tracker) (c : Option (Nat × Metrics)) (r : Result) :
    Tracker.account { t with cached := c } r = { t.account r with cached := c } := by
  unfold Tracker.account
  dsimp only
  split <;> rfl

theorem account_attempts (t : Tracker) (r : Result) : (t.account r).totalAttempts = t.totalAttempts + 1 := by
  unfold Tracker.account
  dsimp only
  split <;> rfl

def CInv (cs : List Call) (t : Tracker) : Prop :=
  ∃ c, t = { (accounted cs).foldl Tracker.account .new with cached := c } ∧
    ∀ n m, c = some (n, m) → n ≤ ((accounted cs).foldl Tracker.account .new).totalAttempts ∧
      (n = ((accounted cs).foldl Tracker.account .new).totalAttempts →
        m = aggregate ((accounted cs).foldl Tracker.account .new).statuses)

theorem load_cached (b : Tracker) (c : Option (Nat × Metrics))
    (hc : ∀ n m, c = some (n, m) → n ≤ b.totalAttempts ∧ (n = b.totalAttempts → m = aggregate b.statuses)) :
    (Tracker.load { b with cached := c }).1 = aggregate b.statuses ∧
    ∃ c', (Tracker.load { b with cached := c }).2 = { b with cached := c' } ∧
      ∀ n m, c' = some (n, m) → n ≤ b.totalAttempts ∧ (n = b.totalAttempts → m = aggregate b.statuses) := by
  have hs : ∀ c, Tracker.statuses { b with cached := c } = b.statuses := fun _ => rfl
  unfold Tracker.load
  cases c with
  | none =>
    refine ⟨rfl, some (b.totalAttempts, aggregate b.statuses), rfl, ?_⟩
    intro n m e
    obtain ⟨rfl, rfl⟩ : b.totalAttempts = n ∧ aggregate b.statuses = m := by simpa using e
    exact ⟨Nat.le_refl _, fun _ => rfl⟩
  | some p =>
    obtain ⟨n, m⟩ := p
    dsimp only
    by_cases hn : n = b.totalAttempts
    · rw [if_pos hn]
      exact ⟨(hc n m rfl).2 hn, some (n, m), rfl, hc⟩
    · rw [if_neg hn]
      refine ⟨rfl, some (b.totalAttempts, aggregate b.statuses), rfl, ?_⟩
      intro n m e
      obtain ⟨rfl, rfl⟩ : b.totalAttempts = n ∧ aggregate b.statuses = m := by simpa using e
      exact ⟨Nat.le_refl _, fun _ => rfl⟩

theorem suiteResult_eq (t : Tracker) :
    t.suiteResult =
      ({ exitCode := t.load.1.exitCode, count := t.load.2.statuses.length, countFailed := t.load.1.failed,
         testsRetried := t.load.1.retried, testTime := t.load.2.testTime,
         runnerSummaries := t.load.2.statuses.foldl (fun ss s => countRunner s ss) [] }, t.load.2) := by
  unfold Tracker.suiteResult
  dsimp only
  rw [foldl_pair]
  simp

theorem suiteResult_cached (b : Tracker) (c : Option (Nat × Metrics)) (hb : b.cached = none)
    (hc : ∀ n m, c = some (n, m) → n ≤ b.totalAttempts ∧ (n = b.totalAttempts → m = aggregate b.statuses)) :
    (Tracker.suiteResult { b with cached := c }).1 = b.suiteResult.1 ∧
    ∃ c', (Tracker.suiteResult { b with cached := c }).2 = { b with cached := c' } ∧
      ∀ n m, c' = some (n, m) → n ≤ b.totalAttempts ∧ (n = b.totalAttempts → m = aggregate b.statuses) := by
  obtain ⟨h1, c', h2, h3⟩ := load_cached b c hc
  have hb' : b = { b with cached := none } := by cases b; cases hb; rfl
  obtain ⟨g1, c'', g2, g3⟩ := load_cached b none (by simp)
  rw [← hb'] at g1 g2
  refine ⟨?_, c', ?_, h3⟩
  · rw [suiteResult_eq, suiteResult_eq, h1, h2, g1, g2]; rfl
  · rw [suiteResult_eq]; exact h2

theorem cinv (cs : List Call) : CInv cs (calls cs).1 := by
  have key : ∀ (post pre : List Call) (s : Tracker × List SuiteResult), CInv pre s.1 →
      CInv (pre ++ post) (post.foldl call s).1 := by
    intro post
    induction post with
    | nil => intro pre s h; simpa using h
    | cons c post ih =>
      intro pre s h
      have : pre ++ c :: post = (pre ++ [c]) ++ post := by simp
      rw [this, List.foldl_cons]
      apply ih
      obtain ⟨ch, hs, hc⟩ := h
      cases c with
      | account r =>
        refine ⟨ch, ?_, ?_⟩
        · show s.1.account r = _
          rw [hs, account_cached]
          simp [accounted]
        · intro n m e
          obtain ⟨h1, h2⟩ := hc n m e
          have : (accounted (pre ++ [.account r])).foldl Tracker.account .new
              = ((accounted pre).foldl Tracker.account .new).account r := by simp [accounted]
          rw [this, account_attempts]
          exact ⟨by omega, fun _ => by omega⟩
      | suiteResult =>
        have ha : accounted (pre ++ [.suiteResult]) = accounted pre := by simp [accounted]
        have hcn := (tinv (accounted pre)).cached
        obtain ⟨-, c', h2, h3⟩ := suiteResult_cached _ ch hcn hc
        refine ⟨c', ?_, ?_⟩
        · show s.1.suiteResult.2 = _
          rw [ha, hs]; exact h2
        · rw [ha]; exact h3
  have := key cs [] (.new, []) ⟨none, rfl, by simp⟩
  simpa [calls] using this

end Abq.Summary
