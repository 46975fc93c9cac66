import Verif.Proof.RwxJson
import Verif.Props.Summary

/-!
# C78, C79: the JSON report
-/

namespace Abq.Props
open Abq Abq.RwxJson
open Abq.Summary (Status)

variable {P : Type}

/-! ## C78 -/

/-- A run of three tests: one passes, one fails and then passes, one fails without a location and then passes; and the
native runner crashed once. -/
def jsonRun : List (Spec Nat) :=
  [.mk "a" "test a" .success none true 1 none,
   .mk "b" "test b" .failure (some "no") true 2 (some [.mk "b" "test b" .error none true 3 none]),
   .mk "?" "" .nativeRunnerError none false 4 none,
   .mk "c" "test c" .failure none false 5 none,
   .mk "b" "test b" .success none true 6 none,
   .mk "c" "test c" .skipped none false 7 none]

/-- **C78**, the attempts. Under each test the report has every attempt of each of its results, except those of failures
without a location before its other results; and the result reported last is the current one. -/
theorem C78_every_attempt (rs : List (Spec P)) (id : String) :
    (historyOf (collect rs) id).Perm ((countedOf rs id).flatMap chronicle) ∧
      (historyOf (collect rs) id).getLast? = (countedOf rs id).getLast?.map (·.own) := by
  rw [history_eq]
  refine ⟨?_, ?_⟩
  · induction countedOf rs id with
    | nil => exact .refl _
    | cons s ss ih => exact (listed_perm s).append ih
  · generalize countedOf rs id = l
    rcases List.eq_nil_or_concat l with rfl | ⟨l, s, rfl⟩
    · rfl
    · rw [List.concat_eq_append, List.flatMap_append]
      simp [listed]

/-- **C78**, their order, if the attempts that come with a result come without further ones. -/
theorem C78_in_order_partial (rs : List (Spec P)) (id : String) (h : ∀ s ∈ rs, s.shallow) :
    historyOf (collect rs) id = (countedOf rs id).flatMap chronicle := by
  rw [history_eq]
  have h' : ∀ s ∈ countedOf rs id, s.shallow := fun s hs =>
    h s (List.mem_filter.1 ((List.dropWhile_sublist _).subset hs)).1
  revert h'
  generalize countedOf rs id = l
  intro h'
  induction l with
  | nil => rfl
  | cons s ss ih =>
    simp only [List.flatMap_cons]
    rw [listed_shallow s (h' s (List.mem_cons_self ..)), ih fun x hx => h' x (List.mem_cons_of_mem _ hx)]

example : (∀ s ∈ jsonRun, s.shallow) ∧
    historyOf (collect jsonRun) "b" = [⟨.failed none, 3⟩, ⟨.failed (some "no"), 2⟩, ⟨.successful, 6⟩] := by
  refine ⟨?_, by decide⟩
  intro s hs ps hp p hpp
  simp only [jsonRun, List.mem_cons, List.not_mem_nil, or_false] at hs
  rcases hs with rfl | rfl | rfl | rfl | rfl | rfl <;> simp [Spec.past] at hp
  subst hp
  simp only [List.mem_cons, List.not_mem_nil, or_false] at hpp
  subst hpp; rfl

/-- **C78**, their order, exactly: result by result; for each result first those that came with it, each followed by those that came with
that one in turn, and then the result itself. -/
theorem C78_order_exact (rs : List (Spec P)) (id : String) :
    historyOf (collect rs) id = (countedOf rs id).flatMap fun s => asListedAll (s.past.getD []) ++ [s.own] := by
  rw [history_eq]
  congr 1
  funext s
  unfold listed earlier
  cases s.past with
  | none => rfl
  | some ps => simp [attemptsOf_listed]

example : historyOf (collect [.mk "a" "" .success none true 3
      (some [.mk "a" "" .failure none true 2 (some [.mk "a" "" .timedOut none true 1 none])])]) "a" =
    [⟨.failed none, 2⟩, ⟨.timedOut, 1⟩, ⟨.successful, 3⟩] := by decide

/-- An attempt that came with an attempt is listed after it, although it was made before it. -/
theorem C78_full_statement_fails :
    ∃ (rs : List (Spec Nat)) (id : String), historyOf (collect rs) id ≠ (countedOf rs id).flatMap chronicle :=
  ⟨[.mk "a" "" .success none true 3 (some [.mk "a" "" .failure none true 2 (some [.mk "a" "" .timedOut none true 1 none])])],
    "a", by decide⟩

/-- **C78**, no test is mixed up with another or listed twice, and the tests are those with results that count. -/
theorem C78_tests (rs : List (Spec P)) : TestsOf rs ((collect rs).tests.map (·.1)) :=
  ⟨(inv rs).nodup, fun id => ((inv rs).entry id).mem⟩

/-- **C78**, a test has the name, the location and all else that is not of an attempt from its first result. -/
theorem C78_named (rs : List (Spec P)) (id : String) (t : Test P) (h : (id, t) ∈ (collect rs).tests) :
    ∃ s, (countedOf rs id).head? = some s ∧ t.name = s.name ∧ t.located = s.located ∧ t.first = s.payload := by
  have he := (inv rs).entry id
  unfold EntryOf at he
  rw [find_of_mem (inv rs).nodup h] at he
  split at he
  · next h1 _ => cases h1
  · next k' t' s ss h1 h2 =>
    cases h1
    exact ⟨s, by rw [h2]; rfl, he.2.2.1, he.2.2.2.1⟩
  · exact he.elim

example : ("c", (⟨"test c", false, 7, ⟨.skipped none, 7⟩, none⟩ : Test Nat)) ∈ (collect jsonRun).tests := by decide

/-- **C78**, the other errors are the crashes, those that come with results included, and the failures without a location before
other results of their tests; in order. -/
theorem C78_other_errors (rs : List (Spec P)) : (collect rs).errors = errorsFrom [] rs := (inv rs).errors

/-- **C78**, nothing is lost: a result that is not a crash is among the attempts of its test or in the other errors, and a
crash is in the other errors. -/
theorem C78_nothing_lost (rs : List (Spec P)) (s : Spec P) (h : s ∈ rs) :
    (s.material = true ∧ s.own ∈ historyOf (collect rs) s.id) ∨
    (s.material = true ∧ s.stray = true ∧ s.strayError ∈ (collect rs).errors) ∨
    (s.material = false ∧ s.crashMessage ∈ (collect rs).errors) := by
  obtain ⟨l, l', rfl⟩ := List.append_of_mem h
  have herr : (collect (l ++ s :: l')).errors = errorsFrom [] l ++ ((if s.material then
      crashesOf s ++ (if s.stray && (countedOf l s.id).isEmpty then [s.strayError] else [])
    else [s.crashMessage]) ++ errorsFrom (l ++ [s]) l') := by
    rw [C78_other_errors, errorsFrom_append]; rfl
  cases hm : s.material with
  | false => rw [herr]; simp [hm]
  | true =>
    by_cases hs : s.stray = true ∧ countedOf l s.id = []
    · refine .inr (.inl ⟨rfl, hs.1, ?_⟩)
      rw [herr]; simp [hm, hs.1, hs.2]
    · refine .inl ⟨rfl, ?_⟩
      rw [history_eq]
      refine List.mem_flatMap.2 ⟨s, ?_, by simp [listed]⟩
      have h1 : s ∈ countedOf (l ++ [s]) s.id := by
        rw [countedOf_snoc, if_pos ⟨hm, rfl⟩]
        by_cases hc : countedOf l s.id = []
        · have : s.stray = false := by
            cases hst : s.stray with
            | false => rfl
            | true => exact (hs ⟨hst, hc⟩).elim
          simp [hc, this]
        · simp [hc]
      have h2 : countedOf (l ++ [s] ++ l') s.id = countedOf (l ++ [s]) s.id ++ resultsOf l' s.id := by
        have hne : ¬ (countedOf (l ++ [s]) s.id).isEmpty = true := by
          intro e; rw [List.isEmpty_iff] at e; rw [e] at h1; cases h1
        have : resultsOf (l ++ [s] ++ l') s.id = resultsOf (l ++ [s]) s.id ++ resultsOf l' s.id := by
          simp only [resultsOf, List.filter_append]
        rw [countedOf, this, List.dropWhile_append]
        exact if_neg hne
      have h3 : l ++ s :: l' = l ++ [s] ++ l' := by simp
      rw [h3, h2]; exact List.mem_append_left _ h1

/-- **C78**, the numbers. Each test is counted once, by its last result. -/
theorem C78_numbers (rs : List (Spec P)) (ids : List String) (h : TestsOf rs ids) :
    (summarise (collect rs)).tests = ids.length ∧
    (summarise (collect rs)).otherErrors = (errorsFrom [] rs).length ∧
    (summarise (collect rs)).retries = ids.countP (fun id => 2 ≤ ((countedOf rs id).flatMap chronicle).length) ∧
    (summarise (collect rs)).successful = ids.countP (fun id => finalStatus rs id = some .success) ∧
    (summarise (collect rs)).failures =
      ids.countP (fun id => finalStatus rs id = some .failure ∨ finalStatus rs id = some .error) ∧
    (summarise (collect rs)).timedOut = ids.countP (fun id => finalStatus rs id = some .timedOut) ∧
    (summarise (collect rs)).pended = ids.countP (fun id => finalStatus rs id = some .pending) ∧
    (summarise (collect rs)).skipped = ids.countP (fun id => finalStatus rs id = some .skipped) ∧
    (summarise (collect rs)).todo = ids.countP (fun id => finalStatus rs id = some .todo) ∧
    (summarise (collect rs)).canceled = 0 ∧ (summarise (collect rs)).quarantined = 0 := by
  have hz : ∀ q : String → Bool, (∀ id, q id = false) → ids.countP q = 0 := fun q hq =>
    List.countP_eq_zero.2 fun x _ => by simp [hq]
  unfold summarise
  rw [account_fold]
  simp only [Summary.accountErrors, Nat.zero_add]
  refine ⟨?_, ?_, ?_, ?_, ?_, ?_, ?_, ?_, ?_, ?_, ?_⟩
  · rw [← (keys_perm rs h).length_eq]; simp
  · rw [(inv rs).errors]
  · refine countP_entries rs h _ _ fun k t ht => ?_
    rw [Bool.eq_iff_iff, (entry_mem rs ht).2]; simp
  all_goals first
    | (rw [countP_entries rs h _ (fun _ => false) fun k t ht => ?_]
       · exact hz _ fun _ => rfl
       · obtain ⟨⟨s, h1, h2, h3⟩, -⟩ := entry_mem rs ht
         rw [h3]
         cases hs : s.status <;> simp [hs, Spec.own, reportedStatus, Spec.material] at h2 ⊢
         done)
    | (refine countP_entries rs h _ _ fun k t ht => ?_
       obtain ⟨⟨s, h1, h2, h3⟩, -⟩ := entry_mem rs ht
       rw [h3]
       cases hs : s.status <;>
         simp [hs, Spec.own, reportedStatus, Spec.material, finalStatus, h1, isFailed, isPended, isSkipped, isTodo] at h2 ⊢)

/-- **C78**, the status. -/
theorem C78_status (rs : List (Spec P)) :
    (summarise (collect rs)).failed = true ↔ errorsFrom [] rs ≠ [] ∨
      ∃ id, finalStatus rs id = some .failure ∨ finalStatus rs id = some .error ∨ finalStatus rs id = some .timedOut := by
  unfold summarise
  rw [account_fold, ← (inv rs).errors]
  simp only [Summary.accountErrors, Bool.false_or]
  have key : ∀ k t, (k, t) ∈ (collect rs).tests → (t.attempt.status.bad = true ↔
      finalStatus rs k = some .failure ∨ finalStatus rs k = some .error ∨ finalStatus rs k = some .timedOut) := by
    intro k t ht
    obtain ⟨⟨s, h1, h2, h3⟩, -⟩ := entry_mem rs ht
    rw [h3]
    cases hs : s.status <;>
      simp [hs, Spec.own, reportedStatus, Spec.material, finalStatus, h1, AttemptStatus.bad] at h2 ⊢
  have hany : ((collect rs).tests.map (·.2)).any (fun t => t.attempt.status.bad) = true ↔
      ∃ id, finalStatus rs id = some .failure ∨ finalStatus rs id = some .error ∨ finalStatus rs id = some .timedOut := by
    simp only [List.any_eq_true, List.mem_map]
    constructor
    · rintro ⟨t, ⟨⟨k, t'⟩, ht, rfl⟩, hb⟩
      exact ⟨k, (key k _ ht).1 hb⟩
    · rintro ⟨id, hid⟩
      have hne : countedOf rs id ≠ [] := by
        intro e; simp [finalStatus, e] at hid
      obtain ⟨⟨k, t⟩, ht, rfl⟩ := List.mem_map.1 (((inv rs).entry id).mem.2 hne)
      exact ⟨t, ⟨_, ht, rfl⟩, (key _ _ ht).2 hid⟩
  by_cases he : (collect rs).errors = []
  · rw [he]; simpa using hany
  · have : (collect rs).errors.length > 0 := List.length_pos_iff.2 he
    simp [he, this]

/-- **C78**, every test is in one of the counters. -/
theorem C78_adds_up (rs : List (Spec P)) :
    (summarise (collect rs)).tests =
      (summarise (collect rs)).successful + (summarise (collect rs)).failures + (summarise (collect rs)).timedOut +
      (summarise (collect rs)).pended + (summarise (collect rs)).skipped + (summarise (collect rs)).todo := by
  obtain ⟨h1, -, -, h4, h5, h6, h7, h8, h9, -, -⟩ := C78_numbers rs _ (C78_tests rs)
  rw [h1, h4, h5, h6, h7, h8, h9]
  have key : ∀ id ∈ (collect rs).tests.map (·.1), ∃ st, finalStatus rs id = some st ∧ st ≠ .nativeRunnerError := by
    intro id hid
    obtain ⟨⟨k, t⟩, ht, rfl⟩ := List.mem_map.1 hid
    obtain ⟨⟨s, e1, e2, -⟩, -⟩ := entry_mem rs ht
    exact ⟨s.status, by simp [finalStatus, e1], by simpa [Spec.material] using e2⟩
  revert key
  generalize (collect rs).tests.map (·.1) = ids
  intro key
  induction ids with
  | nil => rfl
  | cons id ids ih =>
    have := ih fun x hx => key x (List.mem_cons_of_mem _ hx)
    obtain ⟨st, hst, hn⟩ := key id (List.mem_cons_self ..)
    simp only [List.countP_cons, List.length_cons, hst]
    rw [this]
    cases st <;> simp at hn ⊢ <;> omega

example : summarise (collect jsonRun) =
    { failed := true, tests := 3, otherErrors := 2, retries := 1, skipped := 1, successful := 2 } ∧
    TestsOf jsonRun ["a", "b", "c"] := ⟨by decide, C78_tests jsonRun⟩

/-- The order in which the hash map is traversed does not matter to the summary. -/
theorem C78_any_order (c : Collector P) (l : List (String × Test P)) (h : l.Perm c.tests) :
    summarise { c with tests := l } = summarise c := by
  have hp : (l.map (·.2)).Perm (c.tests.map (·.2)) := h.map _
  unfold summarise
  rw [account_fold, account_fold]
  simp only [hp.countP_eq, hp.length_eq, hp.any_eq]

/-! ## C79 -/

/-- **C79**. If the JSON report says that the suite succeeded, so does the exit code of `abq report`. -/
theorem C79_success_is_success (h : List (Reported P))
    (hj : (RwxJson.summarise (collect (h.map (·.spec)))).failed = false) :
    (Summary.summarise (h.map (·.view))).exitCode = 0 := by
  have hn : ¬ (RwxJson.summarise (collect (h.map (·.spec)))).failed = true := by simp [hj]
  rw [C78_status] at hn
  have he : errorsFrom [] (h.map (·.spec)) = [] := Classical.byContradiction fun e => hn (.inl e)
  refine ((C41_exit_code _).2.2).2 ⟨unresolved_material _ ?_, fun id => ?_⟩
  · intro r hr
    obtain ⟨x, hx, rfl⟩ := List.mem_map.1 hr
    exact material_of_errors he x.spec (List.mem_map.2 ⟨x, hx, rfl⟩)
  · rw [failedTest_last]
    intro r hr
    have hst := statuses_agree h id
    have : (RwxJson.resultsOf (h.map (·.spec)) id).getLast?.map (·.status) = some r.status := by
      rw [← List.getLast?_map, ← hst, List.getLast?_map, hr]; rfl
    have hf : finalStatus (h.map (·.spec)) id = some r.status := by
      rw [finalStatus, counted_of_errors he, this]
    have hm : r.status ≠ .nativeRunnerError := by
      have := (List.mem_filter.1 (List.mem_of_getLast? hr)).2
      simp only [Bool.and_eq_true, Summary.Result.material, decide_eq_true_eq] at this
      simpa using this.1
    cases hs : r.status with
    | failure => exact (hn (.inr ⟨id, .inl (hs ▸ hf)⟩)).elim
    | error => exact (hn (.inr ⟨id, .inr (.inl (hs ▸ hf))⟩)).elim
    | timedOut => exact (hn (.inr ⟨id, .inr (.inr (hs ▸ hf))⟩)).elim
    | nativeRunnerError => exact (hm hs).elim
    | _ => rfl

/-- **C79**, the converse, if no native runner crashed, failures have locations, attempts are numbered as in one run of the
suite and tests are run again only if they failed. -/
theorem C79_agree_partial (h : List (Reported P))
    (hc : ∀ x ∈ h, x.spec.material = true ∧ crashesOf x.spec = []) (hl : ∀ x ∈ h, x.spec.stray = false)
    (hn : Summary.NumberedAttempts (h.map (·.view))) (hr : RetriedOnFailure (h.map (·.spec))) :
    (RwxJson.summarise (collect (h.map (·.spec)))).failed = true ↔ (Summary.summarise (h.map (·.view))).exitCode ≠ 0 := by
  refine ⟨fun hj he => ?_, fun he => ?_⟩
  · obtain ⟨-, hall⟩ := (C41_exit_code _).2.2.1 he
    have he0 : errorsFrom [] (h.map (·.spec)) = [] := by
      refine errors_nil _ _ ?_
      intro s hs
      obtain ⟨x, hx, rfl⟩ := List.mem_map.1 hs
      exact ⟨(hc x hx).1, (hc x hx).2, hl x hx⟩
    rw [C78_status] at hj
    rcases hj with hj | ⟨id, hid⟩
    · exact hj he0
    · have hfail := hall id
      rw [C41_failed_partial _ hn] at hfail
      have hst := statuses_agree h id
      have hbad : ∃ st, finalStatus (h.map (·.spec)) id = some st ∧ st.isFailLike = true := by
        rcases hid with e | e | e <;> exact ⟨_, e, rfl⟩
      obtain ⟨st, hfin, hst'⟩ := hbad
      rw [finalStatus, counted_of_errors he0] at hfin
      have hallf : ∀ s ∈ RwxJson.resultsOf (h.map (·.spec)) id, s.status.isFailLike = true := by
        have hrid := hr id
        revert hfin hrid
        generalize RwxJson.resultsOf (h.map (·.spec)) id = l
        intro hfin hrid s hs
        rcases List.eq_nil_or_concat l with rfl | ⟨l', z, rfl⟩
        · cases hs
        · rw [List.concat_eq_append] at *
          simp only [List.dropLast_concat] at hrid
          rcases List.mem_append.1 hs with hs | hs
          · exact hrid s hs
          · simp only [List.mem_singleton] at hs
            subst hs
            simp only [List.getLast?_concat, Option.map_some, Option.some.injEq] at hfin
            rw [hfin]; exact hst'
      have : Summary.failedAlways (Summary.resultsOf (h.map (·.view)) id) = true := by
        simp only [Summary.failedAlways, Bool.and_eq_true, decide_eq_true_eq, List.all_eq_true]
        constructor
        · intro e
          rw [e] at hst
          have : RwxJson.resultsOf (h.map (·.spec)) id = [] := List.map_eq_nil_iff.1 hst.symm
          rw [this] at hfin; cases hfin
        · intro r hrm
          have : r.status ∈ (RwxJson.resultsOf (h.map (·.spec)) id).map (·.status) :=
            hst ▸ List.mem_map.2 ⟨r, hrm, rfl⟩
          obtain ⟨s, hs, e⟩ := List.mem_map.1 this
          rw [← e]; exact hallf s hs
      rw [this] at hfail; cases hfail
  · cases hj : (RwxJson.summarise (collect (h.map (·.spec)))).failed with
    | true => rfl
    | false => exact (he (C79_success_is_success h hj)).elim

/-- A result of test `id` of manifest entry `w`. -/
def jsonResult (w run : Nat) (id : String) (st : Status) (located : Bool) : Reported Nat :=
  ⟨run, w, 0, "f", (0, 0), .mk id id st none located 0 none⟩

/-- One test fails and then passes, one fails twice. -/
def jsonSuite : List (Reported Nat) :=
  [jsonResult 1 1 "a" .failure true, jsonResult 2 1 "b" .error true, jsonResult 1 2 "a" .success true,
    jsonResult 2 2 "b" .timedOut true]

example : (∀ x ∈ jsonSuite, x.spec.material = true ∧ crashesOf x.spec = []) ∧ (∀ x ∈ jsonSuite, x.spec.stray = false) ∧
    Summary.NumberedAttempts (jsonSuite.map (·.view)) ∧ RetriedOnFailure (jsonSuite.map (·.spec)) ∧
    (RwxJson.summarise (collect (jsonSuite.map (·.spec)))).failed = true := by
  refine ⟨by decide, by decide, ?_, ?_, by decide⟩
  · intro id r rest e
    by_cases h1 : "a" = id
    · subst h1
      have : Summary.resultsOf (jsonSuite.map (·.view)) "a" =
        [(jsonResult 1 1 "a" .failure true).view, (jsonResult 1 2 "a" .success true).view] := by decide
      rw [this] at e; cases e; decide
    · by_cases h2 : "b" = id
      · subst h2
        have : Summary.resultsOf (jsonSuite.map (·.view)) "b" =
          [(jsonResult 2 1 "b" .error true).view, (jsonResult 2 2 "b" .timedOut true).view] := by decide
        rw [this] at e; cases e; decide
      · simp [Summary.resultsOf, jsonSuite, jsonResult, Reported.view, Spec.id, h1, h2] at e
  · intro id s hs
    by_cases h1 : "a" = id
    · subst h1
      simp [RwxJson.resultsOf, jsonSuite, jsonResult, Spec.id, Spec.material, Spec.status] at hs
      subst hs; rfl
    · by_cases h2 : "b" = id
      · subst h2
        simp [RwxJson.resultsOf, jsonSuite, jsonResult, Spec.id, Spec.material, Spec.status] at hs
        subst hs; rfl
      · simp [RwxJson.resultsOf, jsonSuite, jsonResult, Spec.id, h1, h2] at hs

/-- The report says that the suite failed, and the exit code that it succeeded: a native runner crashed and the test passed
when it was tried again; a test failed without a location and passed when it was tried again; a test passed and failed when
the file it is in was tried again. -/
theorem C79_full_statement_fails :
    (∃ h : List (Reported Nat), (∀ x ∈ h, x.spec.located = true) ∧ (∃ x ∈ h, x.spec.material = false) ∧
      (RwxJson.summarise (collect (h.map (·.spec)))).failed = true ∧ (Summary.summarise (h.map (·.view))).exitCode = 0) ∧
    (∃ h : List (Reported Nat), (∀ x ∈ h, x.spec.material = true) ∧ Summary.NumberedAttempts (h.map (·.view)) ∧
      RetriedOnFailure (h.map (·.spec)) ∧
      (RwxJson.summarise (collect (h.map (·.spec)))).failed = true ∧ (Summary.summarise (h.map (·.view))).exitCode = 0) ∧
    (∃ h : List (Reported Nat), (∀ x ∈ h, x.spec.material = true ∧ x.spec.located = true) ∧
      Summary.NumberedAttempts (h.map (·.view)) ∧
      (RwxJson.summarise (collect (h.map (·.spec)))).failed = true ∧ (Summary.summarise (h.map (·.view))).exitCode = 0) := by
  refine ⟨⟨[jsonResult 1 1 "?" .nativeRunnerError true, jsonResult 1 2 "a" .success true], by decide, by decide, by decide, by decide⟩,
    ⟨[jsonResult 1 1 "a" .failure false, jsonResult 1 2 "a" .success false], by decide, ?_, ?_, by decide, by decide⟩,
    ⟨[jsonResult 1 1 "a" .success true, jsonResult 1 2 "a" .failure true], by decide, ?_, by decide, by decide⟩⟩
  · intro id r rest e
    by_cases h1 : "a" = id
    · subst h1
      have : Summary.resultsOf ([jsonResult 1 1 "a" .failure false, jsonResult 1 2 "a" .success false].map (·.view)) "a" =
        [(jsonResult 1 1 "a" .failure false).view, (jsonResult 1 2 "a" .success false).view] := by decide
      rw [this] at e; cases e; decide
    · simp [Summary.resultsOf, jsonResult, Reported.view, Spec.id, h1] at e
  · intro id s hs
    by_cases h1 : "a" = id
    · subst h1
      simp [RwxJson.resultsOf, jsonResult, Spec.id, Spec.material, Spec.status] at hs
      subst hs; rfl
    · simp [RwxJson.resultsOf, jsonResult, Spec.id, h1] at hs
  · intro id r rest e
    by_cases h1 : "a" = id
    · subst h1
      have : Summary.resultsOf ([jsonResult 1 1 "a" .success true, jsonResult 1 2 "a" .failure true].map (·.view)) "a" =
        [(jsonResult 1 1 "a" .success true).view, (jsonResult 1 2 "a" .failure true).view] := by decide
      rw [this] at e; cases e; decide
    · simp [Summary.resultsOf, jsonResult, Reported.view, Spec.id, h1] at e

end Abq.Props
