import Verif.Proof.Report
/-!
# Reports (C40, C48, C65)
-/

namespace Abq.Props
open Report
open Summary (failedAlways unresolved resultsOf summarise)

/-! ## Example data -/

def passedAt (id : String) (time : Nat) : TestResult := ⟨id, .success, 5, none, (0, 1), time⟩
def failedAt (id : String) (time : Nat) : TestResult := ⟨id, .failure, 5, none, (0, 1), time⟩

/-- Two tests, the second retried; the retry was received first. -/
def exampleLines : List Line :=
  [.results [⟨2, 2, [passedAt "b" 30], "before b", some "after b"⟩, ⟨1, 1, [passedAt "a1" 10, passedAt "a2" 11], "before a", none⟩],
   .summary 2, .results [⟨2, 1, [failedAt "b" 20], "", none⟩]]

/-- The order used in examples. -/
def sortGroups (l : List Group) : List Group := l.mergeSort fun a b => decide (cmp a b ≠ .gt)

example : IsSort sortGroups := isSort_mergeSort

/-- A reporter that accepts everything. -/
def quiet : Reporter := ⟨[], fun _ _ => false⟩

example : ∀ r ∈ [quiet, quiet], r.Fine := by intro r hr _ _; simp at hr; rw [hr]; rfl

theorem received_exampleLines : received exampleLines =
    [⟨2, 2, [passedAt "b" 30], "before b", some "after b"⟩, ⟨1, 1, [passedAt "a1" 10, passedAt "a2" 11], "before a", none⟩,
     ⟨2, 1, [failedAt "b" 20], "", none⟩] := rfl

theorem sortGroups_exampleLines : sortGroups (received exampleLines) =
    [⟨1, 1, [passedAt "a1" 10, passedAt "a2" 11], "before a", none⟩, ⟨2, 1, [failedAt "b" 20], "", none⟩,
     ⟨2, 2, [passedAt "b" 30], "before b", some "after b"⟩] := by
  refine isSort_mergeSort.unique ?_ ?_ ?_
  · simp only [List.pairwise_cons, List.mem_cons, List.not_mem_nil, or_false, forall_eq_or_imp, forall_eq,
      List.Pairwise.nil, and_true]
    simp [Group.precedes, Group.notLater, Group.sameTime, failedAt, passedAt]
  · decide
  · simp [Group.sameKey]

/-! ## C40 -/

/-- The order used on results is the order by test, then time, then attempt; it is total, transitive, and
antisymmetric up to equal keys, as `BinaryHeap` requires. -/
theorem C40_total_order :
    (∀ a b, cmp a b ≠ .gt ↔ a.precedes b) ∧ (∀ a b, cmp a b = .eq ↔ a.sameKey b) ∧
    (∀ a b : Group, a.precedes b ∨ b.precedes a) ∧
    (∀ a b c : Group, a.precedes b → b.precedes c → a.precedes c) ∧
    (∀ a b : Group, a.precedes b → b.precedes a → a.sameKey b) :=
  ⟨cmp_ne_gt, cmp_eq_eq, precedes_total, fun _ _ _ => precedes_trans, fun _ _ => precedes_antisymm⟩

example : Group.precedes ⟨2, 1, [failedAt "b" 20], "", none⟩ ⟨2, 2, [passedAt "b" 30], "before b", some "after b"⟩ :=
  .inr ⟨rfl, .inl ⟨by show 20 ≤ 30; omega, by simp [Group.sameTime, failedAt, passedAt]⟩⟩

/-- **C40**. The results reported are those received, each once, by test, then time, then attempt. -/
theorem C40_sorted_permutation (sort : List Group → List Group) (hs : IsSort sort) (rs : List Reporter)
    (hf : ∀ r ∈ rs, r.Fine) (lines : List Line) :
    ∃ gs : List Group, gs.Perm (received lines) ∧ gs.Pairwise Group.precedes ∧
      (process sort rs lines).tracked = gs.flatMap fun g => g.results.map (g.runNumber, ·) := by
  refine ⟨sort (received lines), hs.perm _, (hs.ascending _).imp (fun h => (cmp_ne_gt _ _).1 h), ?_⟩
  rw [process_eq, if_pos (handleAll_fine _ _ hf)]
  dsimp only
  split
  · rfl
  · split
    · rfl
    · split <;> rfl

/-- **C40**, determinism. If no two results have the same test, time and attempt, the order does not depend on the
order in which they were received, nor on the sorting algorithm. -/
theorem C40_independent_of_arrival (sort sort' : List Group → List Group) (hs : IsSort sort) (hs' : IsSort sort')
    (l l' : List Group) (hp : l.Perm l') (hd : l.Pairwise fun a b => ¬ a.sameKey b) : sort l = sort' l' := by
  refine hs.unique ((hs'.ascending l').imp (fun h => (cmp_ne_gt _ _).1 h)) ((hs'.perm l').trans hp.symm) ?_
  refine ((hs'.perm l').trans hp.symm).pairwise_iff (fun {a b} h e => h ⟨e.1.symm, Eq.symm e.2.1, e.2.2.symm⟩) |>.2 hd

example : (received exampleLines).Pairwise fun a b => ¬ a.sameKey b := by
  rw [received_exampleLines]
  simp [Group.sameKey]

/-- The results of one test are next to each other. -/
theorem C40_together (sort : List Group → List Group) (hs : IsSort sort) (l : List Group) (w : Nat) :
    ∃ pre mid post, sort l = pre ++ mid ++ post ∧ (∀ g ∈ mid, g.workId = w) ∧
      (∀ g ∈ pre, g.workId < w) ∧ (∀ g ∈ post, w < g.workId) := by
  have h := (hs.ascending l).imp (fun h => (cmp_ne_gt _ _).1 h)
  revert h
  generalize sort l = m
  intro h
  induction m with
  | nil => exact ⟨[], [], [], rfl, by simp, by simp, by simp⟩
  | cons a m ih =>
    rw [List.pairwise_cons] at h
    obtain ⟨pre, mid, post, he, h1, h2, h3⟩ := ih h.2
    have hle : ∀ g ∈ m, a.workId ≤ g.workId := by
      intro g hg
      rcases h.1 g hg with h | ⟨h, _⟩ <;> omega
    rcases Nat.lt_trichotomy a.workId w with hw | hw | hw
    · refine ⟨a :: pre, mid, post, by rw [he]; rfl, h1, ?_, h3⟩
      intro g hg
      rcases List.mem_cons.1 hg with rfl | hg
      · exact hw
      · exact h2 g hg
    · have hpre : pre = [] := by
        cases pre with
        | nil => rfl
        | cons x xs =>
          have := h2 x List.mem_cons_self
          have := hle x (by rw [he]; simp)
          omega
      refine ⟨[], a :: mid, post, by rw [he, hpre]; rfl, ?_, by simp, h3⟩
      intro g hg
      rcases List.mem_cons.1 hg with rfl | hg
      · exact hw
      · exact h1 g hg
    · have hpre : pre = [] := by
        cases pre with
        | nil => rfl
        | cons x xs =>
          have := h2 x List.mem_cons_self
          have := hle x (by rw [he]; simp)
          omega
      have hmid : mid = [] := by
        cases mid with
        | nil => rfl
        | cons x xs =>
          have := h1 x List.mem_cons_self
          have := hle x (by rw [he]; simp)
          omega
      refine ⟨[], [], a :: post, by rw [he, hpre, hmid]; rfl, by simp, by simp, ?_⟩
      intro g hg
      rcases List.mem_cons.1 hg with rfl | hg
      · exact hw
      · exact h3 g hg

/-! ## C48 -/

/-- **C48**, completeness. With `works` the tests results were received for: a report that succeeds had a summary, the
last of which gave that number of tests. -/
theorem C48_complete (sort : List Group → List Group) (hs : IsSort sort) (rs : List Reporter) (lines : List Line)
    (works : List Nat) (hn : works.Nodup) (hw : ∀ w, w ∈ works ↔ ∃ g ∈ received lines, g.workId = w) (c : Nat)
    (h : (process sort rs lines).result = .ok c) : (summaries lines).getLast? = some works.length := by
  obtain ⟨hn', hw'⟩ := seen_spec (sort (received lines)) [] List.nodup_nil
  have hlen := length_eq_of_same hn' hn (fun x => by
    rw [hw', hw]
    simp only [List.not_mem_nil, false_or, (hs.perm _).mem_iff])
  rw [process_eq] at h
  split at h
  · dsimp only at h
    split at h
    · simp at h
    · rename_i n hl
      split at h
      · simp at h
      · rename_i hne
        rw [hl, ← hlen]
        simpa using hne
  · simp at h

/-- **C48**, conversely: with reporters that give no errors, the report succeeds if the number is right. -/
theorem C48_succeeds_iff (sort : List Group → List Group) (hs : IsSort sort) (rs : List Reporter) (hf : ∀ r ∈ rs, r.Fine)
    (lines : List Line) (works : List Nat) (hn : works.Nodup)
    (hw : ∀ w, w ∈ works ↔ ∃ g ∈ received lines, g.workId = w) :
    (∃ c, (process sort rs lines).result = .ok c) ↔ (summaries lines).getLast? = some works.length := by
  constructor
  · rintro ⟨c, h⟩; exact C48_complete sort hs rs lines works hn hw c h
  · intro h
    obtain ⟨hn', hw'⟩ := seen_spec (sort (received lines)) [] List.nodup_nil
    have hlen := length_eq_of_same hn' hn (fun x => by
      rw [hw', hw]
      simp only [List.not_mem_nil, false_or, (hs.perm _).mem_iff])
    rw [process_eq, if_pos (handleAll_fine _ _ hf), h]
    dsimp only
    rw [if_neg (by simp [hlen]), if_pos]
    · exact ⟨_, rfl⟩
    · apply tell_fine
      intro r hr
      obtain ⟨r', hr', rfl⟩ := List.mem_map.1 hr
      exact hf r' hr'

/-- The error names the two numbers. -/
theorem C48_incomplete (sort : List Group → List Group) (hs : IsSort sort) (rs : List Reporter) (hf : ∀ r ∈ rs, r.Fine)
    (lines : List Line) (works : List Nat) (hn : works.Nodup)
    (hw : ∀ w, w ∈ works ↔ ∃ g ∈ received lines, g.workId = w) :
    ((summaries lines).getLast? = none → (process sort rs lines).result = .error .noSummary) ∧
    (∀ n, (summaries lines).getLast? = some n → n ≠ works.length →
      (process sort rs lines).result = .error (.incomplete n works.length)) := by
  obtain ⟨hn', hw'⟩ := seen_spec (sort (received lines)) [] List.nodup_nil
  have hlen := length_eq_of_same hn' hn (fun x => by
    rw [hw', hw]
    simp only [List.not_mem_nil, false_or, (hs.perm _).mem_iff])
  rw [process_eq, if_pos (handleAll_fine _ _ hf)]
  constructor
  · intro h; rw [h]
  · intro n h hne
    rw [h]
    dsimp only
    rw [if_pos (by rw [hlen]; exact hne), hlen]

example : (∃ c, (process sortGroups [quiet] exampleLines).result = .ok c) := by
  refine (C48_succeeds_iff sortGroups isSort_mergeSort [quiet] ?_ exampleLines [1, 2] (by decide) ?_).2 (by decide)
  · intro r hr _ _; simp at hr; rw [hr]; rfl
  · intro w
    rw [received_exampleLines]
    simp only [List.mem_cons, List.not_mem_nil, or_false, exists_eq_or_imp, exists_eq_left]
    omega

/-- **C48**, reporters. When a report succeeds, each reporter was given each result once, in the order of C40, with the
output before (after) a group of results given with the first (last) of them; then told that these are all; then
finished. -/
theorem C48_each_reporter (sort : List Group → List Group) (rs : List Reporter) (lines : List Line) (c : Nat)
    (h : (process sort rs lines).result = .ok c) :
    (process sort rs lines).reporters.map (·.log)
      = rs.map fun r => r.log ++ pushes (sort (received lines)) ++ [.afterAll, .finish] := by
  rw [process_eq] at h ⊢
  split at h
  · rename_i hok
    rw [if_pos hok]
    dsimp only at h ⊢
    split at h
    · simp at h
    · rename_i n hl
      split at h
      · simp at h
      · rename_i hne
        split at h
        · rename_i ht
          rw [if_neg hne, if_pos ht]
          simp [Reporter.gotAll]
        · simp at h
  · simp at h

example : (process sortGroups [quiet] exampleLines).reporters.map (·.log) =
    [[.push 1 ⟨some "before a", passedAt "a1" 10, none⟩, .push 1 ⟨none, passedAt "a2" 11, none⟩,
      .push 1 ⟨some "", failedAt "b" 20, none⟩, .push 2 ⟨some "before b", passedAt "b" 30, some "after b"⟩,
      .afterAll, .finish]] := by
  unfold process
  rw [collect_eq]
  dsimp only
  rw [sortGroups_exampleLines]
  rfl

/-- What a group is reported as: its results, in order; the outputs are not lost unless there are no results. -/
theorem C48_outputs (g : Group) :
    g.reported.map (·.result) = g.results ∧
    g.reported.filterMap (·.before) = (if g.results = [] then [] else [g.before]) ∧
    g.reported.filterMap (·.after) = (if g.results = [] then [] else g.after.toList) ∧
    (∀ x ∈ g.reported.tail, x.before = none) ∧ (∀ x ∈ g.reported.dropLast, x.after = none) := by
  unfold Group.reported
  cases hg : g.results with
  | nil => simp
  | cons t rest =>
    cases rest with
    | nil => simp [Option.toList]; cases g.after <;> simp
    | cons t' rest =>
      have hl : (t' :: rest).getLast? = some ((t' :: rest).getLast (by simp)) := List.getLast?_eq_some_getLast _
      have hdl := List.dropLast_concat_getLast (l := t' :: rest) (by simp)
      dsimp only
      rw [hl]
      simp only [Option.toList_some, List.map_cons, List.map_nil, List.map_append, List.map_map, Function.comp_def,
        List.map_id', reduceCtorEq, if_false]
      generalize (t' :: rest).dropLast = init at *
      refine ⟨?_, ?_, ?_, ?_, ?_⟩
      · rw [List.cons_append]; rw [hdl]
      · simp
      · cases hga : g.after <;> simp
      · intro x hx
        rw [List.cons_append, List.tail_cons] at hx
        rcases List.mem_append.1 hx with hx | hx
        · obtain ⟨_, _, rfl⟩ := List.mem_map.1 hx; rfl
        · rw [List.mem_singleton.1 hx]
      · intro x hx
        rw [List.dropLast_concat] at hx
        rcases List.mem_cons.1 hx with rfl | hx
        · rfl
        · obtain ⟨_, _, rfl⟩ := List.mem_map.1 hx; rfl

/-- A reporter is finished only if the set of results is complete. -/
theorem C48_finish_only_when_complete (sort : List Group → List Group) (hs : IsSort sort) (rs : List Reporter)
    (hr : ∀ r ∈ rs, r.log = []) (lines : List Line) (works : List Nat) (hn : works.Nodup)
    (hw : ∀ w, w ∈ works ↔ ∃ g ∈ received lines, g.workId = w)
    (h : ∃ r ∈ (process sort rs lines).reporters, .finish ∈ r.log) :
    (summaries lines).getLast? = some works.length := by
  obtain ⟨hn', hw'⟩ := seen_spec (sort (received lines)) [] List.nodup_nil
  have hlen := length_eq_of_same hn' hn (fun x => by
    rw [hw', hw]
    simp only [List.not_mem_nil, false_or, (hs.perm _).mem_iff])
  have hno : ∀ r ∈ rs.map (·.gotAll (pushes (sort (received lines)) ++ [.afterAll])), Event.finish ∉ r.log := by
    intro r hr'
    obtain ⟨r', hm, rfl⟩ := List.mem_map.1 hr'
    simp [Reporter.gotAll, hr r' hm, pushes]
  obtain ⟨r, hrm, hrf⟩ := h
  rw [process_eq] at hrm
  split at hrm
  · dsimp only at hrm
    split at hrm
    · exact absurd hrf (hno r hrm)
    · rename_i n hl
      split at hrm
      · exact absurd hrf (hno r hrm)
      · rename_i hne
        rw [hl, ← hlen]
        simpa using hne
  · have := handleAll_keeps (fun r => Event.finish ∉ r.log) (by
      intro n p r h
      simpa [Reporter.got] using h) ⟨[], .new, [], rs⟩ (sort (received lines)) (by
      intro r h; simp [hr r h]) r hrm
    exact absurd hrf this

/-- **C48**, exit code. The exit code of a report that succeeds is that of the summary (C41) of the results in the order
of C40. -/
theorem C48_exit_code (sort : List Group → List Group) (rs : List Reporter) (lines : List Line) (c : Nat)
    (h : (process sort rs lines).result = .ok c) :
    c = (summarise (history (sort (received lines)))).exitCode := by
  rw [process_eq] at h
  split at h
  · dsimp only at h
    split at h
    · simp at h
    · split at h
      · simp at h
      · split at h
        · simpa using h.symm
        · simp at h
  · simp at h

/-- The results printed in full are the failed ones, in the order of C40. -/
theorem C48_printed (l : List (Nat × TestResult)) : printed l = l.filter fun p => p.2.status.isFailLike := by
  unfold printed
  apply List.filter_congr
  intro p _
  cases p.2.status <;> rfl

example : printed [(1, passedAt "a" 1), (1, failedAt "b" 2)] = [(1, failedAt "b" 2)] := by decide

/-- For the results of one run of a suite, whatever the order in which they were received, the exit code is 0 iff no
test failed in all its attempts and no crash of a native runner is left without results for its test. -/
theorem C48_exit_code_one_run (sort : List Group → List Group) (hs : IsSort sort) (rs : List Reporter) (lines : List Line)
    (h1 : SingleRun (received lines)) (c : Nat) (h : (process sort rs lines).result = .ok c) :
    c = 0 ↔ (unresolved (history (sort (received lines))) = [] ∧
      ∀ id, failedAlways (resultsOf (history (sort (received lines))) id) = false) := by
  rw [C48_exit_code sort rs lines c h]
  have hn := numbered (h1.perm (hs.perm _)) ((hs.ascending _).imp (fun h => (cmp_ne_gt _ _).1 h))
  have hx : ∀ id, Summary.failedTest (resultsOf (history (sort (received lines))) id)
      = failedAlways (resultsOf (history (sort (received lines))) id) := by
    intro id
    have hn := hn id
    revert hn
    generalize resultsOf (history (sort (received lines))) id = rs
    intro hn
    cases rs with
    | nil => rfl
    | cons r rest =>
      obtain ⟨h1, h2⟩ := hn r rest rfl
      exact Summary.failed_numbered r rest h1 h2
  rw [Summary.exit_zero_iff]
  simp only [hx]

/-- Whatever is reported in later attempts only, the exit code is 0 iff whatever was reported in a first attempt passed in one of the
attempts, and no crash of a native runner is left without results, good or bad, for its test. -/
theorem C48_exit_code_exact (sort : List Group → List Group) (hs : IsSort sort) (rs : List Reporter) (lines : List Line)
    (h1 : OneRun (received lines)) (c : Nat) (h : (process sort rs lines).result = .ok c) :
    c = 0 ↔ (unresolved (history (sort (received lines))) = [] ∧
      ∀ id, (∃ g ∈ received lines, g.runNumber = 1 ∧ g.has id) →
        ∃ g ∈ received lines, ∃ t ∈ g.results, t.id = id ∧ t.status ≠ .nativeRunnerError ∧ t.status.isFailLike = false) := by
  rw [C48_exit_code sort rs lines c h, Summary.exit_zero_iff]
  have hperm := hs.perm (received lines)
  have hone := h1.perm hperm
  refine and_congr Iff.rfl (forall_congr' fun id => ?_)
  have hx := Summary.failed_ascending (resultsOf (history (sort (received lines))) id)
    (attempts_ascend hone ((hs.ascending _).imp fun h => (cmp_ne_gt _ _).1 h) id) (by
      intro r hr
      obtain ⟨g, hg, t, _, _, rfl⟩ := mem_resultsOf_history.1 hr
      exact hone.attempt g hg)
  rw [← Bool.not_eq_true, hx]
  constructor
  · rintro hn ⟨g, hg, hg1, t, ht, hti⟩
    refine Classical.byContradiction fun hno => hn ⟨⟨toResult g t, ?_, hg1⟩, ?_⟩
    · exact mem_resultsOf_history.2 ⟨g, hperm.mem_iff.2 hg, t, ht, hti, rfl⟩
    · intro r hr
      obtain ⟨g', hg', t', ht', hti', rfl⟩ := mem_resultsOf_history.1 hr
      cases hf : t'.status.isFailLike with
      | true => exact hf
      | false => exact absurd ⟨g', hperm.mem_iff.1 hg', t', ht', hti'.1, hti'.2, hf⟩ hno
  · rintro hp ⟨⟨r, hr, hr1⟩, hall⟩
    obtain ⟨g, hg, t, ht, hti, rfl⟩ := mem_resultsOf_history.1 hr
    obtain ⟨g', hg', t', ht', e, hne, hf⟩ := hp ⟨g, hperm.mem_iff.1 hg, hr1, t, ht, hti⟩
    have : t'.status.isFailLike = true := hall _ (mem_resultsOf_history.2 ⟨g', hperm.mem_iff.2 hg', t', ht', ⟨e, hne⟩, rfl⟩)
    rw [hf] at this
    cases this

example : SingleRun (received exampleLines) := by
  rw [received_exampleLines]
  have hhas : ∀ (g : Group) id, g.has id → id ∈ g.results.map (·.id) := by
    rintro g id ⟨t, ht, e, _⟩
    exact List.mem_map.2 ⟨t, ht, e⟩
  refine ⟨⟨?_, ?_, ?_, ?_, ?_⟩, ?_⟩
  · decide
  · decide
  · intro g hg g' hg' _ _ hw hr
    simp only [List.mem_cons, List.not_mem_nil, or_false] at hg hg'
    rcases hg with rfl | rfl | rfl <;> rcases hg' with rfl | rfl | rfl <;> simp [Group.notLater, passedAt, failedAt] at *
  · intro g hg g' hg' id h h'
    have h := hhas g id h
    have h' := hhas g' id h'
    simp only [List.mem_cons, List.not_mem_nil, or_false] at hg hg'
    rcases hg with rfl | rfl | rfl <;> rcases hg' with rfl | rfl | rfl <;> simp [passedAt, failedAt] at * <;> simp_all
  · intro g hg id
    simp only [List.mem_cons, List.not_mem_nil, or_false] at hg
    rcases hg with rfl | rfl | rfl
    · exact List.length_filter_le _ _
    · simp only [passedAt, List.filter_cons]
      by_cases h : "a1" = id
      · subst h; simp
      · by_cases h' : "a2" = id <;> simp [h, h']
    · exact List.length_filter_le _ _
  · intro g hg id h
    have h := hhas g id h
    simp only [List.mem_cons, List.not_mem_nil, or_false] at hg
    rcases hg with rfl | rfl | rfl
    · have : "b" = id := by simpa [passedAt, eq_comm] using h
      subst this
      exact ⟨⟨2, 1, [failedAt "b" 20], "", none⟩, by simp, rfl, rfl, failedAt "b" 20, by simp, rfl, by simp [failedAt]⟩
    · refine ⟨⟨1, 1, [passedAt "a1" 10, passedAt "a2" 11], "before a", none⟩, by simp, rfl, rfl, ?_⟩
      have : "a1" = id ∨ "a2" = id := by simpa [passedAt, eq_comm] using h
      rcases this with e | e <;> subst e
      · exact ⟨passedAt "a1" 10, by simp, rfl, by simp [passedAt]⟩
      · exact ⟨passedAt "a2" 11, by simp, rfl, by simp [passedAt]⟩
    · have : "b" = id := by simpa [failedAt, eq_comm] using h
      subst this
      exact ⟨⟨2, 1, [failedAt "b" 20], "", none⟩, by simp, rfl, rfl, failedAt "b" 20, by simp, rfl, by simp [failedAt]⟩

/-- The condition on clocks is needed: if the clock is set back between two attempts that both fail, the exit code
is 0. -/
theorem C48_clock_set_back :
    ∃ lines, ((received lines).map fun g => g.results.map (·.status)) = [[.failure], [.failure]] ∧
      ∀ sort, IsSort sort → (process sort [] lines).result = .ok 0 := by
  refine ⟨[.results [⟨1, 1, [failedAt "t" 50], "", none⟩, ⟨1, 2, [failedAt "t" 40], "", none⟩], .summary 1], rfl, ?_⟩
  intro sort hs
  have he : sort (received [.results [⟨1, 1, [failedAt "t" 50], "", none⟩, ⟨1, 2, [failedAt "t" 40], "", none⟩], .summary 1])
      = [⟨1, 2, [failedAt "t" 40], "", none⟩, ⟨1, 1, [failedAt "t" 50], "", none⟩] := by
    refine hs.unique ?_ ?_ ?_
    · rw [List.pairwise_pair]
      exact .inr ⟨rfl, .inl ⟨by show 40 ≤ 50; omega, by simp [Group.sameTime, failedAt]⟩⟩
    · exact List.Perm.swap _ _ _
    · simp [Group.sameKey]
  unfold process
  rw [collect_eq]
  dsimp only
  rw [he]
  rfl

/-! ## C65 -/

/-- **C65**. Listing the tests of a runner prints the ids of its results of first attempts, each once, in order of their
times; results of the same time are in the order received. -/
theorem C65_list_tests (lines : List Line) (runner : Summary.Runner) :
    ∃ l : List TestResult, testsForRunner lines runner = l.map (·.id) ∧
      l.Perm (firstAttempts lines runner) ∧ l.Pairwise (fun a b => a.timestamp ≤ b.timestamp) ∧
      ∀ time, (l.filter fun t => t.timestamp = time)
        = (firstAttempts lines runner).filter fun t => t.timestamp = time := by
  have hfa : (((received lines).flatMap fun g => if g.runNumber = 1 then g.results else []).filter fun t => t.runner = runner)
      = firstAttempts lines runner := by
    unfold firstAttempts
    congr 1
    generalize received lines = gs
    induction gs with
    | nil => rfl
    | cons g gs ih =>
      by_cases h : g.runNumber = 1 <;> simp [h, ih]
  have htr : ∀ a b c : TestResult, decide (a.timestamp ≤ b.timestamp) = true → decide (b.timestamp ≤ c.timestamp) = true →
      decide (a.timestamp ≤ c.timestamp) = true := by
    intro a b c; simp only [decide_eq_true_eq]; omega
  have hto : ∀ a b : TestResult, (decide (a.timestamp ≤ b.timestamp) || decide (b.timestamp ≤ a.timestamp)) = true := by
    intro a b; simp only [Bool.or_eq_true, decide_eq_true_eq]; omega
  refine ⟨(firstAttempts lines runner).mergeSort fun a b => decide (a.timestamp ≤ b.timestamp), ?_, ?_, ?_, ?_⟩
  · show ((((received lines).flatMap fun g => if g.runNumber = 1 then g.results else []).filter
      fun t => t.runner = runner).mergeSort _).map _ = _
    rw [hfa]
  · exact List.mergeSort_perm _ _
  · have := List.pairwise_mergeSort htr hto (firstAttempts lines runner)
    simpa only [decide_eq_true_eq] using this
  · intro time
    symm
    have hsub : ((firstAttempts lines runner).filter fun t => decide (t.timestamp = time)).Sublist
        ((firstAttempts lines runner).mergeSort fun a b => decide (a.timestamp ≤ b.timestamp)) := by
      apply List.sublist_mergeSort htr hto
      · rw [List.pairwise_iff_forall_sublist]
        intro a b hab
        have ha := hab.subset (List.mem_cons_self)
        have hb := hab.subset (List.mem_cons_of_mem _ (List.mem_cons_self))
        simp only [List.mem_filter, decide_eq_true_eq] at ha hb ⊢
        omega
      · exact List.filter_sublist
    have h2 := hsub.filter (fun t => decide (t.timestamp = time))
    rw [List.filter_filter] at h2
    simp only [Bool.and_self] at h2
    apply h2.eq_of_length
    exact (((List.mergeSort_perm (firstAttempts lines runner) _).filter _).length_eq).symm

example : firstAttempts exampleLines (0, 1) = [passedAt "a1" 10, passedAt "a2" 11, failedAt "b" 20] := by decide

end Abq.Props
