import Verif.Proof.RwxDoc
import Verif.Props.Messages

/-!
# The JSON report says of each attempt what its runner said (C127)

`Writes rd rs spec j`: the reporter `rwx-v1-json`, given the results `rs` one after the other and then `spec`, what is known of the
native runner, may write the document `j`. `at' j names` is what a reader of the report finds by these names.
-/

namespace Abq.Props
open RunStateDoc (Json)
open Protocol (SpecFields ResultSpec AbqStatus Specification)
open Abq.Messages (Result)
open Abq.RwxDoc (Readers Writes encTest encAttempt document collected given)
open Abq.Spec.RwxDoc Abq.RwxDocProof

/-- **C127, partial**, the tests. A test is in the report once if it has a result that counts, and else not; it has the name and place
of the first, the attempts of all of them, each with the runner that made it, and the last is the current one. The attempts are in the
order in which they were made, if those that come with a result come without further ones.

Missing, because it is false (`C127_full_statement_fails`): metadata of the native runner with the name `abq_metadata`. -/
theorem C127_tests_partial (rd : Readers) (rs : List Result) (spec : Option Specification) (j : Json) (h : Writes rd rs spec j) :
    (∀ id, countedOf rs id = [] → testsNamed j id = []) ∧
    (∀ id first rest, countedOf rs id = first :: rest → ∃ t, testsNamed j id = [t] ∧ Tells rd t id first rest) ∧
    ∀ t ∈ testsOf j, ∃ id, at' t ["id"] = some (.str id) := by
  obtain ⟨order, hp, rfl⟩ := h
  have hts : testsOf (document rd (collected rs) order spec) = order.map (encTest rd) := testsOf_document ..
  have hnd : (order.map (·.1)).Nodup := (hp.map _).nodup_iff.2 (RwxJson.inv (rs.map given)).nodup
  have hnamed : ∀ id, testsNamed (document rd (collected rs) order spec) id = (order.filter (·.1 == id)).map (encTest rd) := by
    intro id
    unfold testsNamed
    rw [hts, List.filter_map]
    refine congrArg _ (List.filter_congr fun x _ => ?_)
    simp only [Function.comp_apply, test_id]
  refine ⟨fun id hc => ?_, fun id first rest hc => ?_, fun t ht => ?_⟩
  · rw [hnamed]
    have hm := ((RwxJson.inv (rs.map given)).entry id).mem
    rw [counted_eq, hc] at hm
    have hno : id ∉ order.map (·.1) := fun hx => hm.1 ((hp.map _).mem_iff.1 hx) rfl
    have : order.filter (·.1 == id) = [] := by
      rw [List.filter_eq_nil_iff]
      intro x hx e
      exact hno (List.mem_map.2 ⟨x, hx, by simpa using e⟩)
    rw [this]; rfl
  · have he := (RwxJson.inv (rs.map given)).entry id
    unfold RwxJson.EntryOf at he
    rw [counted_eq, hc] at he
    split at he
    · next h2 => cases h2
    · next k t s ss h1 h2 =>
      cases h2
      obtain ⟨rfl, -, hname, ⟨-, hfirst⟩, -⟩ := he
      have hmem : (k, t) ∈ order := hp.mem_iff.2 (List.mem_of_find?_eq_some h1)
      refine ⟨encTest rd (k, t), ?_, ?_⟩
      · rw [hnamed, filter_unique hnd hmem]; rfl
      · have hname' : t.name = (fieldsOf first.result).displayName := by
          rw [hname]; unfold given; obtain ⟨⟨⟩, ⟨⟩⟩ := first; rw [specOf_mk]; rfl
        have hfirst' : t.first = (fieldsOf first.result, first.source.runner) := by
          rw [hfirst]; unfold given; obtain ⟨⟨⟩, ⟨⟩⟩ := first; rw [specOf_mk]; rfl
        have hhist : RwxJson.historyOf (collected rs) k = t.past.getD [] ++ [t.attempt] := by
          unfold RwxJson.historyOf collected; rw [h1]
        obtain ⟨hperm, hlast⟩ := C78_every_attempt (rs.map given) k
        rw [counted_eq, hc, made_eq] at hperm
        rw [counted_eq, hc] at hlast
        have hok : ∀ m ∈ attemptsMade (first :: rest), m.1.status ≠ .privateNativeRunnerError := by
          intro m hm
          obtain ⟨r, hr, hm⟩ := List.mem_flatMap.1 hm
          obtain ⟨f, hf, rfl⟩ := List.mem_map.1 hm
          exact chronicle_ok r.result (counted_ok (hc ▸ hr)).1 f hf
        refine ⟨test_id rd (k, t), ?_, ?_, ?_, ?_, ?_, ?_, ?_, ?_, ?_⟩
        · rw [← hname']; exact test_name rd (k, t)
        · rw [test_lineage, hfirst']
        · rw [test_location, hfirst']; simp
        · rw [test_file, hfirst']
        · rw [test_line, hfirst']
        · rw [test_column, hfirst']
        · obtain ⟨made, hm, e⟩ := perm_map (fun m : SpecFields × WorkerRunner => own m.1 m.2) hperm _ rfl
          refine ⟨made, hm, ?_⟩
          rw [test_attempts, ← hhist]
          show Each _ ((RwxJson.historyOf (RwxJson.collect (rs.map given)) k).map _) made
          rw [e]
          exact each_says rd made fun m hx => hok m (hm.mem_iff.1 hx)
        · cases hl : (first :: rest).getLast? with
          | none => cases rest <;> simp at hl
          | some last =>
            rw [List.getLast?_map, hl] at hlast
            have : (RwxJson.historyOf (collected rs) k).getLast? = some t.attempt := by rw [hhist]; simp
            have ha : t.attempt = own (fieldsOf last.result) last.source.runner := by
              rw [← own_eq]
              show _ = (given last).own
              have := this.symm.trans hlast
              simpa using this
            refine ⟨encAttempt rd t.attempt, last, test_attempt rd (k, t), rfl, ?_⟩
            rw [ha]
            refine says rd _ _ ?_
            exact of_decide_eq_false (counted_ok (hc ▸ List.mem_of_getLast? hl)).1
        · intro hs
          have hsh := in_order (rs.map given) k (by
            rw [counted_eq, hc]
            intro s hs'
            obtain ⟨r, hr, rfl⟩ := List.mem_map.1 hs'
            exact shallow_eq r (hs r hr))
          rw [counted_eq, hc, made_eq] at hsh
          rw [test_attempts, ← hhist]
          show Each _ ((RwxJson.historyOf (RwxJson.collect (rs.map given)) k).map _) _
          rw [hsh]
          exact each_says rd _ hok
    · exact he.elim
  · rw [hts] at ht
    obtain ⟨x, -, rfl⟩ := List.mem_map.1 ht
    exact ⟨x.1, test_id rd x⟩

/-- Every test of a report has a word for its outcome. -/
theorem kinds_of (rd : Readers) (rs : List Result) (spec : Option Specification) (j : Json) (h : Writes rd rs spec j) :
    ∀ t ∈ testsOf j, ∃ st : AbqStatus, at' t ["attempt", "status", "kind"] = some (.str (kindOf st)) := by
  intro t ht
  obtain ⟨h1, h2, h3⟩ := C127_tests_partial rd rs spec j h
  obtain ⟨id, hid⟩ := h3 t ht
  have hm : t ∈ testsNamed j id := List.mem_filter.2 ⟨ht, by simp only [hid]; simp⟩
  cases hc : countedOf rs id with
  | nil => rw [h1 id hc] at hm; cases hm
  | cons first rest =>
    obtain ⟨t', e, ht'⟩ := h2 id first rest hc
    rw [e, List.mem_singleton] at hm
    subst hm
    obtain ⟨a, last, ha, -, hs⟩ := ht'.current
    refine ⟨(fieldsOf last.result).status, ?_⟩
    rw [← hs.kind]
    simp only [at'] at ha ⊢
    cases hma : member "attempt" t with
    | none => rw [hma] at ha; cases ha
    | some x => rw [hma] at ha; cases ha; rfl

/-- **C127**, the other errors are crashes of the native runner and failures without a location, in order. -/
theorem C127_other_errors (rd : Readers) (rs : List Result) (spec : Option Specification) (j : Json) (h : Writes rd rs spec j) :
    at' j ["otherErrors"] = some (.arr ((errorsFrom [] rs).map fun m => .obj [("message", .str m)])) := by
  obtain ⟨order, -, rfl⟩ := h
  rw [← errors_eq, List.map_nil, ← C78_other_errors]
  simp [at', document, member_cons]
  rfl

/-- **C127**, the summary counts the tests and errors of the report it is in, and says that the suite failed if there is one that
did. -/
theorem C127_summary (rd : Readers) (rs : List Result) (spec : Option Specification) (j : Json) (h : Writes rd rs spec j) :
    at' j ["summary", "tests"] = some (.int (testsOf j).length) ∧
    at' j ["summary", "otherErrors"] = some (.int (elements (at' j ["otherErrors"])).length) ∧
    at' j ["summary", "retries"] = some (.int ((testsOf j).countP fun t => 2 ≤ (attemptsOf t).length)) ∧
    (∀ kind ∈ ["successful", "failed", "timedOut", "pended", "skipped", "todo", "canceled", "quarantined"],
      at' j ["summary", kind] = some (.int (countOf j kind))) ∧
    at' j ["summary", "status", "kind"] =
      some (.str (if countOf j "failed" = 0 ∧ countOf j "timedOut" = 0 ∧ (elements (at' j ["otherErrors"])).length = 0 then "successful"
        else "failed")) ∧
    countOf j "canceled" = 0 ∧ countOf j "quarantined" = 0 := by
  have hno := kinds_of rd rs spec j h
  obtain ⟨order, hp, rfl⟩ := h
  have zero : ∀ k, (∀ st : AbqStatus, kindOf st ≠ k) → countOf (document rd (collected rs) order spec) k = 0 := by
    intro k hk
    unfold countOf
    rw [List.countP_eq_zero]
    intro t ht
    obtain ⟨st, e⟩ := hno t ht
    rw [e]
    simpa using hk st
  have hz1 := zero "canceled" (fun st => by cases st <;> simp [kindOf])
  have hz2 := zero "quarantined" (fun st => by cases st <;> simp [kindOf])
  refine ⟨?_, ?_, ?_, ?_, ?_, hz1, hz2⟩
  · rw [at_summary, summary_eq hp, testsOf_document]
    simp [at', RwxDoc.encSummary, member_cons]
  · rw [at_summary, summary_eq hp, at_errors]
    simp [at', RwxDoc.encSummary, member_cons, elements]
  · rw [at_summary, summary_eq hp, testsOf_document, List.countP_map]
    have : List.countP ((fun t => decide (2 ≤ (attemptsOf t).length)) ∘ encTest rd) order = order.countP (·.2.retried) := by
      refine List.countP_congr fun t _ => ?_
      rw [retried_eq rd t]; rfl
    rw [this]
    simp [at', RwxDoc.encSummary, member_cons]
  · intro kind hk
    rw [at_summary, summary_eq hp, count_document]
    simp only [List.mem_cons, List.not_mem_nil, or_false] at hk
    rcases hk with rfl | rfl | rfl | rfl | rfl | rfl | rfl | rfl <;> simp [at', RwxDoc.encSummary, member_cons]
  · rw [at_summary, at_errors, summary_eq hp, count_document, count_document]
    have e : (order.any (·.2.attempt.status.bad) || decide (0 < (collected rs).errors.length)) =
        !decide (order.countP (fun t => kindText t.2.attempt.status == "failed") = 0 ∧
          order.countP (fun t => kindText t.2.attempt.status == "timedOut") = 0 ∧
          (elements (some (Json.arr ((collected rs).errors.map RwxDoc.encError)))).length = 0) := by
      have h1 : order.any (·.2.attempt.status.bad) = !decide
          (order.countP (fun t => kindText t.2.attempt.status == "failed") = 0 ∧
          order.countP (fun t => kindText t.2.attempt.status == "timedOut") = 0) := by
        rw [count_document] at hz1
        rw [List.countP_eq_zero] at hz1
        rw [Bool.eq_iff_iff]
        simp only [List.any_eq_true, Bool.not_eq_true', decide_eq_false_iff_not, List.countP_eq_zero]
        constructor
        · rintro ⟨x, hx, hb⟩ ⟨h1, h2⟩
          have := hz1 x hx
          have := h1 x hx
          have := h2 x hx
          cases hst : x.2.attempt.status <;> simp_all [kindText, RwxJson.AttemptStatus.bad]
        · intro hn
          refine Classical.byContradiction fun hno' => hn ⟨?_, ?_⟩
          · intro x hx e
            refine hno' ⟨x, hx, ?_⟩
            cases hst : x.2.attempt.status <;> simp_all [kindText, RwxJson.AttemptStatus.bad]
          · intro x hx e
            refine hno' ⟨x, hx, ?_⟩
            cases hst : x.2.attempt.status <;> simp_all [kindText, RwxJson.AttemptStatus.bad]
      rw [h1]
      have hl : (elements (some (Json.arr ((collected rs).errors.map RwxDoc.encError)))).length = (collected rs).errors.length :=
        List.length_map ..
      rw [Bool.eq_iff_iff]
      simp only [hl, Bool.or_eq_true, Bool.not_eq_true', decide_eq_false_iff_not, decide_eq_true_eq]
      omega
    have : ∀ p : Prop, [Decidable p] → (if (!decide p) = true then "failed" else "successful") =
        (if p then "successful" else "failed") := by
      intro p _
      by_cases hp : p <;> simp [hp]
    rw [← this, ← e]
    simp [at', RwxDoc.encSummary, member_cons]

/-- **C127**, the schema, and the framework: the two that are known by name, and else what the native runner said. -/
theorem C127_framework (rd : Readers) (rs : List Result) (spec : Option Specification) (j : Json) (h : Writes rd rs spec j) :
    at' j ["$schema"] = some (.str "https://raw.githubusercontent.com/rwx-research/test-results-schema/main/v1.json") ∧
    (spec = none → at' j ["framework", "kind"] = some (.str "other") ∧ at' j ["framework", "language"] = some (.str "other") ∧
      at' j ["framework", "providedKind"] = none ∧ at' j ["framework", "providedLanguage"] = none) ∧
    ∀ s, spec = some s →
      (s.language = "ruby" ∧ s.testFramework = "rspec" →
        at' j ["framework", "kind"] = some (.str "RSpec") ∧ at' j ["framework", "language"] = some (.str "Ruby")) ∧
      (s.language = "javascript" ∧ s.testFramework = "jest" →
        at' j ["framework", "kind"] = some (.str "Jest") ∧ at' j ["framework", "language"] = some (.str "JavaScript")) ∧
      (¬ (s.language = "ruby" ∧ s.testFramework = "rspec") → ¬ (s.language = "javascript" ∧ s.testFramework = "jest") →
        at' j ["framework", "kind"] = some (.str "other") ∧ at' j ["framework", "language"] = some (.str "other") ∧
        at' j ["framework", "providedKind"] = some (.str s.testFramework) ∧
        at' j ["framework", "providedLanguage"] = some (.str s.language)) := by
  obtain ⟨order, -, rfl⟩ := h
  have hf : ∀ names, at' (document rd (collected rs) order spec) ("framework" :: names) = at' (RwxDoc.encFramework spec) names := by
    intro names
    simp [at', document, member_cons]
  refine ⟨?_, ?_, ?_⟩
  · simp only [at', document, member_cons, if_pos]; rfl
  · rintro rfl
    simp only [hf]
    simp [at', RwxDoc.encFramework, member_cons, member_nil]
  · rintro s rfl
    simp only [hf]
    refine ⟨fun hs => ?_, fun hs => ?_, fun h1 h2 => ?_⟩
    · simp [at', RwxDoc.encFramework, member_cons, hs]
    · simp [at', RwxDoc.encFramework, member_cons, hs]
    · simp only [RwxDoc.encFramework, if_neg h1, if_neg h2]
      simp [at', member_cons]

/-- **C127**, the text that is written is read back as the report, if metadata is nested at most 122 deep and numbers are of their
types. -/
theorem C127_readable (f : JsonText.Floats) (rd : Readers) (rs : List Result) (spec : Option Specification) (j : Json)
    (h : Writes rd rs spec j) (hn : ∀ t, rd.nanos t < 2 ^ 64)
    (hr : ∀ r ∈ rs, Spec.Messages.U32 r.source.runner.worker ∧ Spec.Messages.U32 r.source.runner.runner ∧
      ∀ g ∈ chronicle r.result, Spec.Messages.FieldsOk f g ∧ Spec.JsonText.depth (.obj g.metadata) ≤ 122)
    (ht : (testsOf j).length < 2 ^ 64) (he : (errorsFrom [] rs).length < 2 ^ 64) :
    JsonText.parse f (JsonText.print j) = some j := by
  obtain ⟨order, hp, rfl⟩ := h
  rw [testsOf_document, List.length_map] at ht
  rw [← errors_eq, List.map_nil, ← C78_other_errors] at he
  have := fit_document f rd rs spec order hp hn hr ht he
  exact C100_text_roundtrip_partial f _ this.1 (Nat.lt_succ_of_le this.2)

/-- Two runners. The first test fails and is run again by the other runner; its metadata has a member of that name. -/
def docFields (id : String) (st : AbqStatus) (md : Protocol.Metadata) : SpecFields :=
  ⟨st, id, "test " ++ id, some "said", .nanoseconds 5, md, some ⟨"a.rb", some 3, none⟩, some "then", none, some ["A"], none, some [104], none, 0⟩

def docRun : List Result :=
  [⟨⟨⟨0, 1⟩, false, false⟩, .mk (docFields "a" (.failure (some "no") none) [("seed", .int 7), ("abq_metadata", .str "mine")]) none⟩,
   ⟨⟨⟨1, 1⟩, false, false⟩, .mk (docFields "b" .success []) none⟩,
   ⟨⟨⟨1, 1⟩, false, false⟩, .mk (docFields "?" .privateNativeRunnerError []) none⟩,
   ⟨⟨⟨1, 1⟩, false, false⟩, .mk (docFields "a" .success [("seed", .int 8)])
      (some [.mk (docFields "a" .timedOut [("seed", .int 9)]) none])⟩]

/-- The order of the hash map may be any. -/
theorem docRun_writes : Writes ⟨fun _ => "h", fun _ => 0⟩ docRun none
    (document ⟨fun _ => "h", fun _ => 0⟩ (collected docRun) (collected docRun).tests.reverse none) :=
  ⟨_, List.reverse_perm _, rfl⟩

example : ∃ first rest, countedOf docRun "a" = first :: rest ∧ rest.length = 1 ∧ (attemptsMade (first :: rest)).length = 3 :=
  ⟨_, _, rfl, rfl, rfl⟩

example : (testsOf (document ⟨fun _ => "h", fun _ => 0⟩ (collected docRun) (collected docRun).tests.reverse none)).length = 2 ∧
    errorsFrom [] docRun = ["said"] := ⟨rfl, rfl⟩

example (f : JsonText.Floats) : JsonText.parse f (JsonText.print
    (document ⟨fun _ => "h", fun _ => 0⟩ (collected docRun) (collected docRun).tests.reverse none)) =
    some (document ⟨fun _ => "h", fun _ => 0⟩ (collected docRun) (collected docRun).tests.reverse none) := by
  refine C127_readable f _ docRun none _ docRun_writes (fun _ => Nat.two_pow_pos _) ?_ (by decide) (by decide)
  intro r hr
  have ok : ∀ id st md, Spec.Messages.MetadataOk f md → Spec.JsonText.depth (.obj md) ≤ 122 →
      Spec.Messages.FieldsOk f (docFields id st md) ∧ Spec.JsonText.depth (.obj (docFields id st md).metadata) ≤ 122 := by
    intro id st md h h'
    refine ⟨⟨by show 5 < 2 ^ 64; decide, by show 0 < 2 ^ 64; decide, h, ?_, fun _ h => nomatch h⟩, h'⟩
    rintro l ⟨⟩
    refine ⟨?_, fun _ h => nomatch h⟩
    rintro n ⟨⟩
    show 3 < 2 ^ 64
    decide
  simp only [docRun, List.mem_cons, List.not_mem_nil, or_false] at hr
  rcases hr with rfl | rfl | rfl | rfl <;> refine ⟨by show _ < 2 ^ 32; decide, by show _ < 2 ^ 32; decide, fun g hg => ?_⟩ <;>
    simp only [chronicle, chronicles, crashed, fieldsOf, docFields, List.mem_append, List.mem_singleton, List.not_mem_nil, or_false] at hg
  · subst hg; exact ok _ _ _ (by simp [Spec.Messages.MetadataOk, Spec.JsonText.Holdable, Spec.JsonText.HoldableMembers]) (by decide)
  · subst hg; exact ok _ _ _ (by simp [Spec.Messages.MetadataOk, Spec.JsonText.Holdable, Spec.JsonText.HoldableMembers]) (by decide)
  · subst hg; exact ok _ _ _ (by simp [Spec.Messages.MetadataOk, Spec.JsonText.Holdable, Spec.JsonText.HoldableMembers]) (by decide)
  · rcases hg with hg | hg
    · have hg : g ∈ [docFields "a" .timedOut [("seed", .int 9)]] := hg
      rw [List.mem_singleton] at hg
      subst hg; exact ok _ _ _ (by simp [Spec.Messages.MetadataOk, Spec.JsonText.Holdable, Spec.JsonText.HoldableMembers]) (by decide)
    · subst hg; exact ok _ _ _ (by simp [Spec.Messages.MetadataOk, Spec.JsonText.Holdable, Spec.JsonText.HoldableMembers]) (by decide)

/-- **C127: the full statement is false.** Metadata that a native runner gives under the name `abq_metadata` is replaced. -/
theorem C127_full_statement_fails : ¬ FullStatement := by
  intro h
  obtain ⟨t, ht, a, ha, -, hm⟩ := h _ _ _ _ docRun_writes
    ⟨⟨⟨0, 1⟩, false, false⟩, .mk (docFields "a" (.failure (some "no") none) [("seed", .int 7), ("abq_metadata", .str "mine")]) none⟩
    (List.mem_cons_self ..) rfl rfl
  have hm := hm "abq_metadata" rfl
  have key : ∀ t ∈ testsOf (document ⟨fun _ => "h", fun _ => 0⟩ (collected docRun) (collected docRun).tests.reverse none),
      ∀ a ∈ attemptsOf t, ∃ ms, at' a ["meta", "abq_metadata"] = some (.obj ms) := by
    intro t ht a ha
    rw [testsOf_document] at ht
    obtain ⟨x, -, rfl⟩ := List.mem_map.1 ht
    rw [test_attempts] at ha
    obtain ⟨y, -, rfl⟩ := List.mem_map.1 ha
    simp [at', encAttempt, member_cons, RwxDoc.metadata, member_insert]
  obtain ⟨ms, e⟩ := key t ht a ha
  rw [e] at hm
  simp [member, fieldsOf, docFields] at hm

end Abq.Props
