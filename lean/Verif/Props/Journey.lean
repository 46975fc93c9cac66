import Verif.Proof.Journey

/-!
# From the text of a native runner to the JSON report (C129)

`sent`: the requests of the workers of a run, each with the tests whose results it has, and for each test the messages its native runner
wrote. `reporterGets f sort run sent = some rs`: after runner, worker, queue, file, `abq report`, the reporter is given the results `rs`.
`Writes rd rs spec j`: it may write the document `j`. `saidAll f sent`: the results in the texts of the native runners.
-/

namespace Abq.Props
open RunStateDoc (Json)
open Abq.Messages (Result Associated Stdio)
open Abq.Spec.RwxDoc (at' elements testsOf testsNamed attemptsOf fieldsOf stray countedOf errorsFrom chronicle Each Says Tells attemptsMade)
open Abq.Spec.Journey Abq.Journey Abq.JourneyProof
open Abq.JsonText (Floats parse print)
open Abq.RwxDoc (Readers Writes)

/-- **C129, partial**, nothing is lost on the way: what the runners could read of their native runners reaches the reporter, as many
results as were said.

Missing, because it is false (`C129_too_deep`): messages that are nested more than 120 deep. -/
theorem C129_arrives_partial (f : Floats) (sort : List Associated → List Associated) (hs : IsSort sort) (run : String)
    (sent : List (RunStateDoc.Entity × List Told)) (h : SentOk f 120 sent) :
    ∃ rs, reporterGets f sort run sent = some rs ∧ rs.length = (saidAll f sent).length := by
  refine ⟨_, arrives h sort, ?_⟩
  obtain ⟨l, hp, he⟩ := told h hs (arrives (run := run) h sort)
  rw [← hp.length_eq]
  exact (each_length he).symm

/-- C129: the summary of the run, which the queue records in the same file while results come in, is found wherever it is among the lines,
and the reporter is given the same results as without it.

Missing as above: messages that are nested more than 120 deep. -/
theorem C129_summary_partial (f : Floats) (sort : List Associated → List Associated) (run : String)
    (sent : List (RunStateDoc.Entity × List Told)) (h : SentOk f 120 sent) (k n : Nat) (v : Protocol.Version)
    (s : Protocol.Specification) (hn : n < 2 ^ 64) (hv : Spec.Messages.VersionOk v) :
    ∃ rs, reporterGets f sort run sent = some rs ∧ reporterGetsAll f sort run sent k n v s = some (rs, some (n, v, s)) :=
  ⟨_, arrives h sort, arrives_all h sort k n v s hn hv⟩

/-- **C129, partial**, a result that was said is in the report: there is one test with its id, which has each of its attempts, as they
were said and with the runner; the result itself with the output that was captured. The name and place of the test are those of a result
with this id.

Missing, because it is false (`C129_full_statement_fails`): metadata of the native runner with the name `abq_metadata`. -/
theorem C129_reported_partial (f : Floats) (sort : List Associated → List Associated) (hs : IsSort sort) (run : String)
    (sent : List (RunStateDoc.Entity × List Told)) (h : SentOk f 120 sent) (rs : List Result) (hg : reporterGets f sort run sent = some rs)
    (rd : Readers) (spec : Option Protocol.Specification) (j : Json) (hw : Writes rd rs spec j)
    (t : Told) (h' : Heard) (n : Json) (hn : (t, h', n) ∈ saidAll f sent) (hst : ¬ Stray n) :
    ∃ id test, hasId id n ∧ testsNamed j id = [test] ∧
      (∀ a ∈ attemptsSaid n, ∃ b ∈ attemptsOf test, Copies a b t.source.runner) ∧
      Reported rd test t h' n ∧
      ∃ x ∈ saidAll f sent, hasId id x.2.2 ∧ Placed x.2.2 test := by
  obtain ⟨l, hp, he⟩ := told h hs hg
  obtain ⟨r, hr, hb⟩ := each_left he _ (hp.mem_iff.2 hn)
  obtain ⟨pre, c, ec, hpre, -, hc⟩ := counted_said he (fieldsOf r.result).id
  have hid : hasId (fieldsOf r.result).id n = true := by rw [became_hasId hb, (became hb).2.1]; simp
  have hmem : (t, h', n) ∈ c := by
    have : (t, h', n) ∈ l.filter fun x => hasId (fieldsOf r.result).id x.2.2 := List.mem_filter.2 ⟨hp.mem_iff.2 hn, hid⟩
    rw [ec] at this
    exact (List.mem_append.1 this).resolve_left fun h => hst (hpre _ h)
  obtain ⟨test, h1, h2, h3, h4⟩ := counted_report hw hc hmem
  refine ⟨_, test, hid, h1, h2, h3, ?_⟩
  obtain ⟨x, hx, hxp⟩ := h4
  have hxl : x ∈ l.filter fun x => hasId (fieldsOf r.result).id x.2.2 := by rw [ec]; exact List.mem_append_right _ hx
  exact ⟨x, hp.mem_iff.1 (List.mem_filter.1 hxl).1, (List.mem_filter.1 hxl).2, hxp⟩

/-- **C129, partial**, a failure without a location is in the report too: in the test with its id, or among the other errors, with the
name and the output that were said. -/
theorem C129_stray_partial (f : Floats) (sort : List Associated → List Associated) (hs : IsSort sort) (run : String)
    (sent : List (RunStateDoc.Entity × List Told)) (h : SentOk f 120 sent) (rs : List Result) (hg : reporterGets f sort run sent = some rs)
    (rd : Readers) (spec : Option Protocol.Specification) (j : Json) (hw : Writes rd rs spec j)
    (t : Told) (h' : Heard) (n : Json) (hn : (t, h', n) ∈ saidAll f sent) (hst : Stray n) :
    ∃ id name, hasId id n ∧ at' n ["display_name"] = some (.str name) ∧
      ((∃ test, testsNamed j id = [test] ∧ Reported rd test t h' n) ∨
       ∃ message, OtherError j ("'" ++ name ++ "': " ++ message) ∧
        (given (at' n ["output"]) = some (.str message) ∨
         given (at' n ["output"]) = none ∧ message = "failed outside the test suite")) := by
  obtain ⟨l, hp, he⟩ := told h hs hg
  obtain ⟨r, hr, hb⟩ := each_left_zip he _ (hp.mem_iff.2 hn)
  have hid : hasId (fieldsOf r.result).id n = true := by rw [became_hasId hb, (became hb).2.1]; simp
  refine ⟨_, _, hid, (became_name hb).1, ?_⟩
  rcases stray_counted he hb ((became_stray hb).1 hst) hr with hc | hc
  · obtain ⟨pre, c, -, hc', hmem⟩ := hc
    obtain ⟨test, h1, -, h3, -⟩ := counted_report hw hc' hmem
    exact .inl ⟨test, h1, h3⟩
  · right
    have ho := C127_other_errors rd rs spec j hw
    have hmsg : ∀ m, m ∈ errorsFrom [] rs → OtherError j m := by
      intro m hm
      unfold OtherError
      rw [ho]
      exact ⟨_, List.mem_map.2 ⟨m, hm, rfl⟩, by simp [at', Spec.RwxDoc.member]⟩
    have hname := (became_name hb).2
    unfold Spec.RwxDoc.strayMessage at hc
    cases hout : (fieldsOf r.result).output with
    | none =>
      rw [hout] at hc hname
      exact ⟨"failed outside the test suite", by
        have := hmsg _ hc
        rw [String.append_assoc] at this ⊢
        exact this, .inr ⟨hname, rfl⟩⟩
    | some m =>
      rw [hout] at hc hname
      exact ⟨m, hmsg _ hc, .inl hname⟩

/-- **C129**, nothing is made up: each attempt of each test of the report is one that a native runner said, of a result with the id of
the test, and the runner is the one that read it. -/
theorem C129_nothing_made_up (f : Floats) (sort : List Associated → List Associated) (hs : IsSort sort) (run : String)
    (sent : List (RunStateDoc.Entity × List Told)) (h : SentOk f 120 sent) (rs : List Result) (hg : reporterGets f sort run sent = some rs)
    (rd : Readers) (spec : Option Protocol.Specification) (j : Json) (hw : Writes rd rs spec j) :
    ∀ test ∈ testsOf j, ∀ b ∈ attemptsOf test, ∃ x ∈ saidAll f sent, at' test ["id"] = at' x.2.2 ["id"] ∧
      ∃ a ∈ attemptsSaid x.2.2, Copies a b x.1.source.runner := by
  intro test ht b hb
  obtain ⟨l, hp, he⟩ := told h hs hg
  obtain ⟨h1, h2, h3⟩ := C127_tests_partial rd rs spec j hw
  obtain ⟨id, hid⟩ := h3 test ht
  have hm : test ∈ testsNamed j id := List.mem_filter.2 ⟨ht, by simp only [hid]; simp⟩
  obtain ⟨pre, c, ec, -, -, hc⟩ := counted_said he id
  cases hcc : countedOf rs id with
  | nil => rw [h1 id hcc] at hm; cases hm
  | cons first rest =>
    obtain ⟨test', e, htells⟩ := h2 id first rest hcc
    rw [e, List.mem_singleton] at hm
    subst hm
    obtain ⟨made, hmp, hme⟩ := htells.attempts
    obtain ⟨m, hm, hsays⟩ := each_left hme b hb
    obtain ⟨r, hr, hm'⟩ := List.mem_flatMap.1 (hmp.mem_iff.1 hm)
    obtain ⟨s, hs', rfl⟩ := List.mem_map.1 hm'
    obtain ⟨x, hx, hbx⟩ := each_right hc r (hcc ▸ hr)
    obtain ⟨a, ha, hone⟩ := each_right (became hbx).2.2.2.2.2 s hs'
    have hxl : x ∈ l.filter fun x => hasId id x.2.2 := by rw [ec]; exact List.mem_append_right _ hx
    obtain ⟨hxl, hxid⟩ := List.mem_filter.1 hxl
    refine ⟨x, hp.mem_iff.1 hxl, ?_, a, ha, ?_⟩
    · rw [hid, became_id hbx]
      have := became_hasId hbx id
      rw [hxid, (became hbx).2.1] at this
      have : (fieldsOf r.result).id = id := by simpa using this.symm
      rw [this]
    · have := one_copies hone hsays
      rw [hbx.1] at this
      exact this

/-- **C129, partial**, each once: if no result of a test is a failure without a location, the attempts of the test in the report are,
one by one, those that were said of it. -/
theorem C129_each_once_partial (f : Floats) (sort : List Associated → List Associated) (hs : IsSort sort) (run : String)
    (sent : List (RunStateDoc.Entity × List Told)) (h : SentOk f 120 sent) (rs : List Result) (hg : reporterGets f sort run sent = some rs)
    (rd : Readers) (spec : Option Protocol.Specification) (j : Json) (hw : Writes rd rs spec j) (id : String)
    (hst : ∀ x ∈ saidAll f sent, hasId id x.2.2 → ¬ Stray x.2.2) :
    (attemptsOfId f sent id = [] ∧ testsNamed j id = []) ∨
    ∃ test, testsNamed j id = [test] ∧ ∃ said, said.Perm (attemptsOfId f sent id) ∧
      Each (fun b a => Copies a.1 b a.2) (attemptsOf test) said := by
  obtain ⟨l, hp, he⟩ := told h hs hg
  obtain ⟨h1, h2, h3⟩ := C127_tests_partial rd rs spec j hw
  obtain ⟨pre, c, ec, hpre, -, hc⟩ := counted_said he id
  have hnil : pre = [] := by
    cases pre with
    | nil => rfl
    | cons x pre =>
      have : x ∈ l.filter fun x => hasId id x.2.2 := by rw [ec]; exact List.mem_cons_self ..
      obtain ⟨hx1, hx2⟩ := List.mem_filter.1 this
      exact absurd (hpre x (List.mem_cons_self ..)) (hst x (hp.mem_iff.1 hx1) hx2)
  subst hnil
  rw [List.nil_append] at ec
  have hperm : (c.flatMap fun x => (attemptsSaid x.2.2).map fun a => (a, x.1.source.runner)).Perm (attemptsOfId f sent id) := by
    unfold attemptsOfId
    rw [← ec]
    exact (hp.filter _).flatMap_right _
  have hall : Each (fun (a : Json × WorkerRunner) (m : Protocol.SpecFields × WorkerRunner) => One a.1 m.1 ∧ a.2 = m.2)
      (c.flatMap fun x => (attemptsSaid x.2.2).map fun a => (a, x.1.source.runner)) (attemptsMade (countedOf rs id)) := by
    unfold attemptsMade
    refine each_flatMap _ _ (fun x r hb => ?_) hc
    exact JourneyProof.each_map _ _ (fun a s hone => ⟨hone, by show _ = r.source.runner; rw [hb.1]⟩) (became hb).2.2.2.2.2
  cases hcc : countedOf rs id with
  | nil =>
    refine .inl ⟨?_, h1 id hcc⟩
    rw [hcc] at hc
    cases c with
    | nil => exact hperm.symm.eq_nil
    | cons => exact hc.elim
  | cons first rest =>
    obtain ⟨test, e, htells⟩ := h2 id first rest hcc
    obtain ⟨made, hmp, hme⟩ := htells.attempts
    rw [hcc] at hall
    obtain ⟨said, hsp, hse⟩ := each_perm hmp.symm hall
    refine .inr ⟨test, e, said, hsp.trans hperm, ?_⟩
    refine each_imp (fun b a hx => ?_) (each_trans hme (each_flip hse))
    obtain ⟨m, hm1, hm2, hm3⟩ := hx
    have := one_copies hm2 hm1
    rw [hm3]
    exact this

/-- **C129**, the current attempt: if all runs of a test have one work id, the current attempt of the test in the report is the last
result with its id of a run that no other was later than. -/
theorem C129_current (f : Floats) (sort : List Associated → List Associated) (hs : IsSort sort) (run : String)
    (sent : List (RunStateDoc.Entity × List Told)) (h : SentOk f 120 sent) (rs : List Result) (hg : reporterGets f sort run sent = some rs)
    (rd : Readers) (spec : Option Protocol.Specification) (j : Json) (hw : Writes rd rs spec j) (id : String)
    (hid : ∀ x ∈ saidAll f sent, ∀ y ∈ saidAll f sent, hasId id x.2.2 → hasId id y.2.2 → x.1.workId = y.1.workId) :
    ∀ test ∈ testsNamed j id, ∃ t h n b, ((saidBy f t).filter fun x => hasId id x.2).getLast? = some (h, n) ∧ (t, h, n) ∈ saidAll f sent ∧
      at' test ["attempt"] = some b ∧ Copies n b t.source.runner ∧
      ∀ x ∈ saidAll f sent, hasId id x.2.2 → NoLater f x.1 t := by
  intro test htest
  obtain ⟨l, hp, he⟩ := told h hs hg
  obtain ⟨h1, h2, h3⟩ := C127_tests_partial rd rs spec j hw
  cases hcc : countedOf rs id with
  | nil => rw [h1 id hcc] at htest; cases htest
  | cons first rest =>
    obtain ⟨test', e, htells⟩ := h2 id first rest hcc
    rw [e, List.mem_singleton] at htest
    subst htest
    obtain ⟨b, last, hb, hlast, hsays⟩ := htells.current
    rw [← hcc] at hlast
    have hlast' : (rs.filter fun r => !Spec.RwxDoc.crashed r.result && (fieldsOf r.result).id == id).getLast? = some last :=
      dropWhile_last hlast
    rw [arrives h, Option.some.injEq] at hg
    subst hg
    obtain ⟨pre, a, post, esort, ha, hpost⟩ := last_group _ _ hlast'
    have hof : ∀ a ∈ sort (sent.flatMap fun x => x.2.map (made f)), ∃ x ∈ sent, ∃ t ∈ x.2, made f t = a := by
      intro a ha
      obtain ⟨x, hx, ht⟩ := List.mem_flatMap.1 ((hs.perm _).mem_iff.1 ha)
      obtain ⟨t, ht, e⟩ := List.mem_map.1 ht
      exact ⟨x, hx, t, ht, e⟩
    obtain ⟨x, hx, t, ht, rfl⟩ := hof a (by rw [esort]; exact List.mem_append_right _ (List.mem_cons_self ..))
    obtain ⟨-, -, -, -, hans, hheard⟩ := (h x hx).2 t ht
    have hmade := made_each hans hheard
    obtain ⟨y, hy, hbec⟩ := each_getLast (each_filter (R := Became) (fun x => hasId id x.2.2)
      (fun r => !Spec.RwxDoc.crashed r.result && (fieldsOf r.result).id == id) (fun a b hab => became_hasId hab id) hmade) last ha
    rw [List.filter_map] at hy
    rw [List.getLast?_map] at hy
    obtain ⟨⟨h', n⟩, hy1, hy2⟩ := Option.map_eq_some_iff.1 hy
    subst hy2
    have hsaid : ∀ (x : RunStateDoc.Entity × List Told), x ∈ sent → ∀ t ∈ x.2, ∀ y ∈ saidBy f t, (t, y) ∈ saidAll f sent := by
      intro x hx t ht y hy
      exact List.mem_flatMap.2 ⟨t, List.mem_flatMap.2 ⟨x, hx, ht⟩, List.mem_map.2 ⟨y, hy, rfl⟩⟩
    have hfil := List.mem_filter.1 (List.mem_of_getLast? hy1)
    have hmem : (t, h', n) ∈ saidAll f sent := hsaid x hx t ht _ hfil.1
    refine ⟨t, h', n, b, hy1, hmem, hb, ?_, ?_⟩
    · obtain ⟨⟨g, ms, en, hg, hsame⟩, -⟩ := became hbec
      have := one_copies ⟨g, ms, en, hg, hsame⟩ hsays
      rw [hbec.1] at this
      exact this
    · intro z hz hzid u v hu hv
      obtain ⟨t', ht', hz'⟩ := List.mem_flatMap.1 hz
      obtain ⟨y', hy', rfl⟩ := List.mem_map.1 hz'
      obtain ⟨x', hx', ht'⟩ := List.mem_flatMap.1 ht'
      obtain ⟨-, -, -, -, hans', hheard'⟩ := (h x' hx').2 t' ht'
      have hin : made f t' ∈ sort (sent.flatMap fun x => x.2.map (made f)) :=
        (hs.perm _).mem_iff.2 (List.mem_flatMap.2 ⟨x', hx', List.mem_map.2 ⟨t', ht', rfl⟩⟩)
      have hwork : (made f t').workId = (made f t).workId := by
        rw [(answered_eq (made_eq hans)).1, (answered_eq (made_eq hans')).1]
        exact hid _ hz _ hmem hzid hfil.2
      have hle : cmp (made f t') (made f t) ≠ .gt := by
        rw [esort] at hin
        have hpw := hs.ascending (sent.flatMap fun x => x.2.map (made f))
        rw [esort, List.pairwise_append] at hpw
        rcases List.mem_append.1 hin with hin | hin
        · exact hpw.2.2 _ hin _ (List.mem_cons_self ..)
        · rcases List.mem_cons.1 hin with hin | hin
          · rw [hin, cmp_self]; simp
          · exfalso
            have hnone := hpost _ hin
            obtain ⟨r, hr, hbec'⟩ := each_left (made_each hans' hheard') (t', y') (List.mem_map.2 ⟨y', hy', rfl⟩)
            rw [List.filter_eq_nil_iff] at hnone
            have := became_hasId hbec' id
            exact hnone r hr (this ▸ hzid)
      have := cmp_same hwork hle (x := u) (y := v) (by rw [first_time hans' hheard']; exact hu) (by rw [first_time hans hheard]; exact hv)
      rw [(answered_eq (made_eq hans')).2.1, (answered_eq (made_eq hans)).2.1] at this
      exact this

/-- **C129**, the text: what is written can be read, and is the report. -/
theorem C129_text (f : Floats) (sort : List Associated → List Associated) (hs : IsSort sort) (run : String)
    (sent : List (RunStateDoc.Entity × List Told)) (h : SentOk f 120 sent) (rs : List Result) (hg : reporterGets f sort run sent = some rs)
    (rd : Readers) (spec : Option Protocol.Specification) (j : Json) (hw : Writes rd rs spec j) (hn : ∀ t, rd.nanos t < 2 ^ 64)
    (ht : (testsOf j).length < 2 ^ 64) (he : (elements (at' j ["otherErrors"])).length < 2 ^ 64) :
    parse f (print j) = some j := by
  refine C127_readable f rd rs spec j hw hn (fun r hr => ?_) ht ?_
  · rw [arrives h, Option.some.injEq] at hg
    subst hg
    obtain ⟨a, ha, hr⟩ := List.mem_flatMap.1 hr
    obtain ⟨x, hx, ha⟩ := List.mem_flatMap.1 ((hs.perm _).mem_iff.1 ha)
    obtain ⟨t, ht, rfl⟩ := List.mem_map.1 ha
    obtain ⟨w, rn, a1, a2, a3, a4⟩ := (h x hx).2 t ht
    obtain ⟨hok, hh⟩ := made_ok w rn a1 a2 a3 a4
    obtain ⟨hr1, hr2, hr3⟩ := hok.2.2 r hr
    exact ⟨hr1, hr2, chronicle_fit r.result hr3 (Nat.le_trans (hh r hr) (by decide : 120 ≤ 122))⟩
  · rw [C127_other_errors rd rs spec j hw] at he
    simpa [elements] using he

/-! ## Examples -/

/-! A run of two workers. The test `a` fails in the second attempt a native runner made by itself, with its metadata, and passes when it is
run again; a third test fails outside of any file. -/
namespace Trip

def failed : Json :=
  .obj [("status", .obj [("type", .str "failure"), ("exception", .str "E"), ("backtrace", .arr [.str "l"])]), ("id", .str "a"),
    ("display_name", .str "test a"), ("output", .str "no"), ("runtime", .int 5), ("meta", .obj [("abq_metadata", .str "mine")]),
    ("location", .obj [("file", .str "a.rb"), ("line", .int 3)]),
    ("past_attempts", .arr [.obj [("status", .obj [("type", .str "error")]), ("id", .str "a"), ("display_name", .str "test a"),
      ("runtime", .int 4), ("meta", .obj [])]])]

def passed : Json :=
  .obj [("status", .obj [("type", .str "success")]), ("id", .str "a"), ("display_name", .str "test a"), ("runtime", .int 6), ("meta", .obj [])]

def outside : Json :=
  .obj [("status", .obj [("type", .str "error")]), ("id", .str "c"), ("display_name", .str "setup"), ("output", .str "gone"),
    ("runtime", .int 6), ("meta", .obj []), ("location", .null)]

def first : Json := .obj [("test_result", failed)]
def second : Json := .obj [("type", .str "incremental_result"), ("one_test_result", passed)]
def third : Json := .obj [("type", .str "incremental_result_done")]
def fourth : Json := .obj [("test_results", .arr [outside])]

def heard (m : Json) (now : Nat) : Heard := ⟨print m, now, ⟨[111], [101]⟩⟩

def runFirst : Told := ⟨⟨⟨0, 1⟩, false, false⟩, List.replicate 16 3, 1, ⟨[], []⟩, [heard first 8]⟩
def runOther : Told := ⟨⟨⟨0, 1⟩, false, false⟩, List.replicate 16 4, 1, ⟨[], []⟩, [heard fourth 9]⟩
def runSecond (now : Nat) : Told := ⟨⟨⟨2, 1⟩, false, false⟩, List.replicate 16 3, 2, ⟨[], []⟩, [heard second now, heard third (now + 1)]⟩

def sent (now : Nat) : List (RunStateDoc.Entity × List Told) := [(Deep.entity, [runFirst, runOther]), (Deep.entity, [runSecond now])]

/-- It is enough to look at what the readers make of the message. -/
theorem in_form {j : Json} (i : Option Protocol.Incremental) (s : Option Protocol.TestResult) (m : Option (List Protocol.TestResult))
    (hi : Protocol.decIncremental j = i) (hs : Protocol.decSingle j = s) (hm : Protocol.decMultiple j = m)
    (fi : ∀ x, i = some x → Protocol.SaysResultMessage .protocol (.incremental x) j)
    (fs : ∀ x, s = some x → Protocol.SaysResultMessage .protocol (.single x) j)
    (fm : ∀ x, m = some x → Protocol.SaysResultMessage .protocol (.multiple x) j) :
    ∀ x, Protocol.SaysResultMessage .loose x j → Protocol.SaysResultMessage .protocol x j := by
  intro x h
  cases x with
  | incremental x => exact fi x (hi ▸ (Protocol.reads_incremental j x).2 h)
  | single x => exact fs x (hs ▸ (Protocol.reads_single j x).2 h)
  | multiple x => exact fm x (hm ▸ (Protocol.reads_multiple j x).2 h)

open Protocol in
theorem absent_of {ms : Members} {name : String} (h : ms.filter (fun m => m.1 = name) = []) : Absent ms name := filter_absent.1 h

open Protocol in
theorem status_of (ms : Members) (h : Only ms "type" (.str "success")) : SaysStatus .protocol .success (.obj ms) :=
  ⟨ms, .inl ⟨rfl, _, h, .inl rfl⟩⟩

open Protocol in
theorem error_of (ms : Members) (h : Only ms "type" (.str "error")) (he : Absent ms "exception") (hb : Absent ms "backtrace") :
    SaysStatus .protocol (.error none none) (.obj ms) :=
  ⟨ms, .inl ⟨rfl, _, h, .inl rfl⟩, .inl he, .inl hb⟩

open Protocol in
theorem passed_said : SaysResult .protocol (.mk ⟨.success, "a", "test a", none, 6, [], none, none, none, none, none⟩ none) passed := by
  unfold SaysResult
  exact ⟨_, .inl rfl, ⟨⟨_, rfl, status_of _ rfl⟩, ⟨_, rfl, rfl⟩, ⟨_, rfl, rfl⟩, .inl (absent_of rfl), ⟨_, rfl, rfl, by decide⟩, ⟨_, rfl, rfl⟩,
    .inl (absent_of rfl), .inl (absent_of rfl), .inl (absent_of rfl), .inl (absent_of rfl), .inl (absent_of rfl)⟩, .inl (absent_of rfl)⟩

open Protocol in
theorem outside_said :
    SaysResult .protocol (.mk ⟨.error none none, "c", "setup", some "gone", 6, [], none, none, none, none, none⟩ none) outside := by
  unfold SaysResult
  exact ⟨_, .inl rfl, ⟨⟨_, rfl, error_of _ rfl (absent_of rfl) (absent_of rfl)⟩, ⟨_, rfl, rfl⟩, ⟨_, rfl, rfl⟩, ⟨_, rfl, rfl⟩,
    ⟨_, rfl, rfl, by decide⟩, ⟨_, rfl, rfl⟩, .inr rfl, .inl (absent_of rfl), .inl (absent_of rfl), .inl (absent_of rfl),
    .inl (absent_of rfl)⟩, .inl (absent_of rfl)⟩

open Protocol in
theorem failed_said :
    SaysResult .protocol (.mk ⟨.failure (some "E") (some ["l"]), "a", "test a", some "no", 5, [("abq_metadata", .str "mine")],
      some ⟨"a.rb", some 3, none⟩, none, none, none, none⟩
      (some [.mk ⟨.error none none, "a", "test a", none, 4, [], none, none, none, none, none⟩ none])) failed := by
  unfold SaysResult
  refine ⟨_, .inl rfl, ⟨⟨_, rfl, _, .inl ⟨rfl, _, rfl, .inl rfl⟩, ⟨_, rfl, rfl⟩, ⟨_, rfl, _, rfl, rfl, trivial⟩⟩, ⟨_, rfl, rfl⟩,
    ⟨_, rfl, rfl⟩, ⟨_, rfl, rfl⟩, ⟨_, rfl, rfl, by decide⟩, ⟨_, rfl, rfl⟩,
    ⟨_, rfl, _, .inl rfl, ⟨_, rfl, rfl⟩, ⟨_, rfl, rfl, by decide⟩, .inl (absent_of rfl)⟩, .inl (absent_of rfl), .inl (absent_of rfl),
    .inl (absent_of rfl), .inl (absent_of rfl)⟩, _, rfl, ?_⟩
  unfold SaysResults
  refine ⟨?_, by unfold SaysResults; trivial⟩
  unfold SaysResult
  exact ⟨_, .inl rfl, ⟨⟨_, rfl, error_of _ rfl (absent_of rfl) (absent_of rfl)⟩, ⟨_, rfl, rfl⟩, ⟨_, rfl, rfl⟩, .inl (absent_of rfl),
    ⟨_, rfl, rfl, by decide⟩, ⟨_, rfl, rfl⟩, .inl (absent_of rfl), .inl (absent_of rfl), .inl (absent_of rfl), .inl (absent_of rfl),
    .inl (absent_of rfl)⟩, .inl (absent_of rfl)⟩

theorem forms : ∀ m ∈ [first, second, third, fourth], ∀ x, Protocol.SaysResultMessage .loose x m → Protocol.SaysResultMessage .protocol x m := by
  intro m hm
  simp only [List.mem_cons, List.not_mem_nil, or_false] at hm
  rcases hm with rfl | rfl | rfl | rfl
  · exact in_form none _ none rfl rfl rfl nofun (fun x hx => by cases hx; exact ⟨_, .inl rfl, _, rfl, failed_said⟩) nofun
  · exact in_form _ none none rfl rfl rfl
      (fun x hx => by cases hx; exact ⟨_, .inl ⟨rfl, _, rfl, .inl rfl⟩, _, rfl, passed_said⟩) nofun nofun
  · exact in_form _ none none rfl rfl rfl
      (fun x hx => by cases hx; exact ⟨_, .inl ⟨rfl, _, rfl, .inl rfl⟩, .inl (absent_of rfl)⟩) nofun nofun
  · exact in_form none none _ rfl rfl rfl nofun nofun
      (fun x hx => by cases hx; exact ⟨_, _, .inl rfl, rfl, outside_said, trivial⟩)

theorem holdable (f : Floats) : ∀ m ∈ [first, second, third, fourth], Spec.JsonText.Holdable f m ∧ Spec.JsonText.depth m ≤ 120 ∧ Proper m := by
  have hp : ∀ m ∈ [first, second, third, fourth], Proper m := by
    intro m hm
    simp only [List.mem_cons, List.not_mem_nil, or_false] at hm
    refine ⟨forms m (by simp only [List.mem_cons, List.not_mem_nil, or_false]; exact hm), ?_⟩
    rcases hm with rfl | rfl | rfl | rfl <;> simp [at', Spec.RwxDoc.member, first, second, third, fourth]
  intro m hm
  refine ⟨?_, ?_, hp m hm⟩
  all_goals
    simp only [List.mem_cons, List.not_mem_nil, or_false] at hm
    rcases hm with rfl | rfl | rfl | rfl
  all_goals
    simp only [first, second, third, fourth, failed, passed, outside, Spec.JsonText.Holdable, Spec.JsonText.HoldableMembers,
      Spec.JsonText.HoldableAll, Spec.JsonText.depth, Spec.JsonText.depths, Spec.JsonText.memberDepths]
    first | decide | omega | simp

theorem reads (f : Floats) (m : Json) (hm : m ∈ [first, second, third, fourth]) : parse f (print m) = some m :=
  C100_text_roundtrip_partial f m (holdable f m hm).1 (by have := (holdable f m hm).2.1; omega)

theorem ok (f : Floats) {now : Nat} (hnow : now < 99) : SentOk f 120 (sent now) := by
  have hh : ∀ m ∈ [first, second, third, fourth], ∀ now < 100, HeardOk f 120 (heard m now) m := fun m hm now hn =>
    ⟨reads f m hm, (holdable f m hm).1, (holdable f m hm).2.1, (holdable f m hm).2.2, by unfold Spec.Messages.U64; show now < _; omega⟩
  have hw : ∀ b, b < 256 → Spec.Messages.Bytes 16 (List.replicate 16 b) := fun b hb =>
    ⟨List.length_replicate, fun x hx => by rw [List.eq_of_mem_replicate hx]; exact hb⟩
  have hu : ∀ n, n < 100 → Spec.Messages.U32 n := fun n hn => by unfold Spec.Messages.U32; omega
  intro x hx
  refine ⟨by simp only [sent, List.mem_cons, List.not_mem_nil, or_false] at hx; rcases hx with rfl | rfl <;> exact Deep.entity_ok, fun t ht => ?_⟩
  have ht' : t = runFirst ∨ t = runOther ∨ t = runSecond now := by
    simp only [sent, List.mem_cons, List.not_mem_nil, or_false] at hx
    rcases hx with rfl | rfl <;> simp only [List.mem_cons, List.not_mem_nil, or_false] at ht
    · exact ht.imp_right .inl
    · exact .inr (.inr ht)
  rcases ht' with rfl | rfl | rfl
  · refine ⟨hw 3 (by decide), hu 1 (by decide), hu 0 (by decide), hu 1 (by decide), ?_, fun h hh' => ?_⟩
    · unfold Told.answered Abq.Messages.receive runFirst heard
      simp only [reads f first (by simp)]
      exact Option.some_ne_none _
    · exact ⟨first, List.mem_singleton.1 hh' ▸ hh first (by simp) 8 (by decide)⟩
  · refine ⟨hw 4 (by decide), hu 1 (by decide), hu 0 (by decide), hu 1 (by decide), ?_, fun h hh' => ?_⟩
    · unfold Told.answered Abq.Messages.receive runOther heard
      simp only [reads f fourth (by simp)]
      exact Option.some_ne_none _
    · exact ⟨fourth, List.mem_singleton.1 hh' ▸ hh fourth (by simp) 9 (by decide)⟩
  · refine ⟨hw 3 (by decide), hu 2 (by decide), hu 2 (by decide), hu 1 (by decide), ?_, fun h hh' => ?_⟩
    · unfold Told.answered Abq.Messages.receive runSecond heard
      simp only [reads f second (by simp), increments, Abq.Messages.receive, reads f third (by simp), Option.bind]
      exact Option.some_ne_none _
    · rcases List.mem_cons.1 hh' with rfl | hh'
      · exact ⟨second, hh second (by simp) now (by omega)⟩
      · exact ⟨third, List.mem_singleton.1 hh' ▸ hh third (by simp) (now + 1) (by omega)⟩

theorem said (f : Floats) (now : Nat) : saidAll f (sent now) =
    [(runFirst, heard first 8, failed), (runOther, heard fourth 9, outside), (runSecond now, heard second now, passed)] := by
  have h1 := reads f first (by simp)
  have h2 := reads f second (by simp)
  have h3 := reads f third (by simp)
  have h4 := reads f fourth (by simp)
  simp only [saidAll, sent, saidBy, resultsIn, List.flatMap_cons, List.flatMap_nil, List.cons_append, List.nil_append, runFirst, runOther,
    runSecond, heard, h1, h2, h3, h4]
  rfl

end Trip

/-- The reporter gets three results, and writes a report. -/
example (f : Floats) : ∃ rs, reporterGets f (fun l => l.mergeSort fun a b => (cmp a b).isLE) "run" (Trip.sent 20) = some rs ∧ rs.length = 3 ∧
    ∃ j, Writes ⟨fun _ => "h", fun _ => 0⟩ rs none j := by
  obtain ⟨rs, h1, h2⟩ := C129_arrives_partial f _ isSort_mergeSort "run" (Trip.sent 20) (Trip.ok f (by decide))
  rw [Trip.said] at h2
  exact ⟨rs, h1, h2, _, _, .refl _, rfl⟩

/-- With the summary between the lines of the two requests. -/
example (f : Floats) (s : Protocol.Specification) : ∃ rs,
    reporterGetsAll f (fun l => l.mergeSort fun a b => (cmp a b).isLE) "run" (Trip.sent 20) 1 3 ⟨0, 2⟩ s = some (rs, some (3, ⟨0, 2⟩, s)) := by
  obtain ⟨rs, -, h⟩ := C129_summary_partial f (fun l => l.mergeSort fun a b => (cmp a b).isLE) "run" (Trip.sent 20) (Trip.ok f (by decide))
    1 3 ⟨0, 2⟩ s (by decide) ⟨by unfold Spec.Messages.U64; decide, by unfold Spec.Messages.U64; decide⟩
  exact ⟨rs, h⟩

/-- The first result is not stray, and has two attempts; the second is stray. -/
example : ¬ Stray Trip.failed ∧ (attemptsSaid Trip.failed).length = 2 ∧ Stray Trip.outside := by
  refine ⟨?_, rfl, ?_⟩
  · rintro ⟨-, h⟩; exact absurd h (by simp [at', Spec.RwxDoc.member, Trip.failed, given])
  · exact ⟨.inr rfl, rfl⟩

/-- What was said of the test `a`: three attempts, two results, none of them stray, with one work id, and the second is later. -/
example (f : Floats) : (attemptsOfId f (Trip.sent 20) "a").length = 3 ∧
    (∀ x ∈ saidAll f (Trip.sent 20), hasId "a" x.2.2 → ¬ Stray x.2.2) ∧
    (∀ x ∈ saidAll f (Trip.sent 20), ∀ y ∈ saidAll f (Trip.sent 20), hasId "a" x.2.2 → hasId "a" y.2.2 → x.1.workId = y.1.workId) ∧
    ¬ NoLater f (Trip.runSecond 20) Trip.runFirst := by
  have h1 : ¬ Stray Trip.failed := by rintro ⟨-, h⟩; exact absurd h (by simp [at', Spec.RwxDoc.member, Trip.failed, given])
  have h2 : ¬ Stray Trip.passed := by
    rintro ⟨h | h, -⟩ <;> exact absurd h (by simp [Kind, at', Spec.RwxDoc.member, Trip.passed])
  have h3 : hasId "a" Trip.outside = false := by decide
  refine ⟨?_, ?_, ?_, ?_⟩
  · unfold attemptsOfId
    rw [Trip.said]
    rfl
  · intro x hx
    rw [Trip.said] at hx
    simp only [List.mem_cons, List.not_mem_nil, or_false] at hx
    rcases hx with rfl | rfl | rfl <;> simp [h1, h2, h3]
  · intro x hx y hy
    rw [Trip.said] at hx hy
    simp only [List.mem_cons, List.not_mem_nil, or_false] at hx hy
    rcases hx with rfl | rfl | rfl <;> rcases hy with rfl | rfl | rfl <;> simp [h3, Trip.runFirst, Trip.runSecond]
  · intro h
    have h' := h 20 8 (by
      have r2 := Trip.reads f Trip.second (by simp)
      have r3 := Trip.reads f Trip.third (by simp)
      simp only [timeOf, saidBy, resultsIn, Trip.runSecond, Trip.heard, List.flatMap_cons, List.flatMap_nil, r2, r3]
      rfl) (by
      have r1 := Trip.reads f Trip.first (by simp)
      simp only [timeOf, saidBy, resultsIn, Trip.runFirst, Trip.heard, List.flatMap_cons, List.flatMap_nil, r1]
      rfl)
    omega

/-! ## What is missing -/

open Protocol in
/-- The message is written as in the protocol. -/
theorem Deep.form (y : Json) : ∀ x, SaysResultMessage .loose x (Deep.message y) → SaysResultMessage .protocol x (Deep.message y) :=
  Trip.in_form none (some (.mk (Deep.fields y) none)) none rfl rfl rfl nofun (fun x hx => by
    cases hx
    refine ⟨_, .inl rfl, _, rfl, ?_⟩
    unfold SaysResult
    exact ⟨_, .inl rfl, ⟨⟨_, rfl, Trip.status_of _ rfl⟩, ⟨_, rfl, rfl⟩, ⟨_, rfl, rfl⟩, .inl (Trip.absent_of rfl), ⟨_, rfl, rfl, show 1 < 2 ^ 64 by decide⟩,
      ⟨_, rfl, rfl⟩, .inl (Trip.absent_of rfl), .inl (Trip.absent_of rfl), .inl (Trip.absent_of rfl), .inl (Trip.absent_of rfl),
      .inl (Trip.absent_of rfl)⟩, .inl (Trip.absent_of rfl)⟩) nofun

/-- C129: a message that is nested 123 deep can be read by the runner, but nothing reaches the reporter, which is then not called. -/
theorem C129_too_deep : ∃ sent : List (RunStateDoc.Entity × List Told), ∀ f, SentOk f 123 sent ∧ (saidAll f sent).length = 1 ∧
    ∀ sort run, reporterGets f sort run sent = none := by
  let t : Told := ⟨⟨⟨0, 1⟩, false, false⟩, List.replicate 16 3, 1, ⟨[], []⟩, [⟨print (Deep.message (nested 120)), 1, ⟨[], []⟩⟩]⟩
  refine ⟨[(Deep.entity, [t])], fun f => ?_⟩
  have hd : Spec.JsonText.depth (Deep.message (nested 120)) = 123 := by rw [Deep.message_depth, nested_depth]
  have hp : parse f (print (Deep.message (nested 120))) = some (Deep.message (nested 120)) :=
    C100_text_roundtrip_partial _ _ (Deep.message_holdable (nested_holdable _ _)) (by rw [hd]; decide)
  have hr : Abq.Messages.receive Protocol.decResultMessage f (print (Deep.message (nested 120))) =
      some (.single (.mk (Deep.fields (nested 120)) none)) := by
    unfold Abq.Messages.receive
    rw [hp]; exact Deep.message_decoded _
  let r : Result := Journey.result t.source ⟨print (Deep.message (nested 120)), 1, ⟨[], []⟩⟩ (.mk (Deep.fields (nested 120)) none)
  have ha : t.answered f = some ⟨List.replicate 16 3, 1, [r], ⟨[], []⟩, none⟩ := by
    unfold Told.answered
    simp only [t, hr]
    rfl
  have hok : SentOk f 123 [(Deep.entity, [t])] := by
    intro x hx
    cases List.mem_singleton.1 hx
    refine ⟨Deep.entity_ok, fun t' ht => ?_⟩
    cases List.mem_singleton.1 ht
    refine ⟨⟨rfl, show ∀ b ∈ List.replicate 16 3, b < 256 by decide⟩, show 1 < 2 ^ 32 by decide, show 0 < 2 ^ 32 by decide,
      show 1 < 2 ^ 32 by decide, by rw [ha]; exact Option.some_ne_none _, fun h hh => ?_⟩
    cases List.mem_singleton.1 hh
    refine ⟨_, hp, Deep.message_holdable (nested_holdable _ _), Nat.le_of_eq hd, ?_, show 1 < 2 ^ 64 by decide⟩
    refine ⟨Deep.form _, ?_⟩
    simp [at', Spec.RwxDoc.member, Deep.message]
  refine ⟨hok, ?_, fun sort run => ?_⟩
  · simp only [saidAll, saidBy, resultsIn, List.flatMap_cons, List.flatMap_nil, List.append_nil, t, hp]
    rfl
  · have hreq : requestText f run (Deep.entity, [t]) =
        some (Abq.Messages.send Abq.Messages.encRequest ⟨Deep.entity, .workerResult run [⟨List.replicate 16 3, 1, [r], ⟨[], []⟩, none⟩]⟩) := by
      unfold requestText
      simp only [each, ha]
      rfl
    have hlost : Abq.Messages.receive Abq.Messages.decRequest f (Abq.Messages.send Abq.Messages.encRequest
        ⟨Deep.entity, .workerResult run [⟨List.replicate 16 3, 1, [r], ⟨[], []⟩, none⟩]⟩) = none := by
      obtain ⟨he, ht⟩ := hok _ (List.mem_singleton_self _)
      obtain ⟨w, rn, a1, a2, a3, a4⟩ := ht t (List.mem_singleton_self _)
      have hmade : made f t = ⟨List.replicate 16 3, 1, [r], ⟨[], []⟩, none⟩ := by unfold made; rw [ha]; rfl
      have hassoc := (made_ok w rn a1 a2 a3 a4).1
      rw [hmade] at hassoc
      refine C101_too_deep f _ ⟨he, fun a ha => ?_⟩ fun hs => ?_
      · cases List.mem_singleton.1 ha
        exact hassoc
      · have h3 := hs _ (List.mem_singleton_self _) r (List.mem_singleton_self _)
        have h4 := Deep.height_ge (nested 120)
        have h5 : Spec.Messages.height r.result = Spec.Messages.height ((Protocol.TestResult.mk (Deep.fields (nested 120)) none).spec 1) :=
          withOutput_height (some []) (some []) ((Protocol.TestResult.mk (Deep.fields (nested 120)) none).spec 1)
        rw [nested_depth] at h4
        omega
    unfold reporterGets
    simp only [each, hreq, Option.bind, recorded, hlost]

/-- C129: which attempt is the current one depends on the clocks of the workers. Here a test that failed is run again on another worker,
whose clock is behind, and passes; in every report its current attempt is the failure. -/
theorem C129_clocks : ∃ (sent : List (RunStateDoc.Entity × List Told)) (t t' : Told) (n : Json), ∀ f, SentOk f 120 sent ∧
    (∃ h, (t, h, n) ∈ saidAll f sent) ∧ Kind n "failure" ∧
    (∃ h' n', (t', h', n') ∈ saidAll f sent ∧ Kind n' "success" ∧ at' n' ["id"] = at' n ["id"]) ∧
    t.workId = t'.workId ∧ t.runNumber < t'.runNumber ∧
    ∀ sort, IsSort sort → ∀ run rs, reporterGets f sort run sent = some rs → ∀ rd spec j, Writes rd rs spec j →
      ∃ test b, testsNamed j "a" = [test] ∧ at' test ["attempt"] = some b ∧ Copies n b t.source.runner := by
  refine ⟨Trip.sent 5, Trip.runFirst, Trip.runSecond 5, Trip.failed, fun f => ⟨Trip.ok f (by decide), ⟨Trip.heard Trip.first 8, ?_⟩, rfl,
    ⟨Trip.heard Trip.second 5, Trip.passed, ?_, rfl, rfl⟩, rfl, by decide, ?_⟩⟩
  · rw [Trip.said]; exact List.mem_cons_self ..
  · rw [Trip.said]; exact List.mem_cons_of_mem _ (List.mem_cons_of_mem _ (List.mem_cons_self ..))
  · intro sort hs run rs hg rd spec j hw
    have h3 : hasId "a" Trip.outside = false := by decide
    have hf : (Trip.runFirst, Trip.heard Trip.first 8, Trip.failed) ∈ saidAll f (Trip.sent 5) := by
      rw [Trip.said]; exact List.mem_cons_self ..
    obtain ⟨id, test, hid, ht, -⟩ := C129_reported_partial f sort hs run (Trip.sent 5) (Trip.ok f (by decide)) rs hg rd spec j hw
      Trip.runFirst (Trip.heard Trip.first 8) Trip.failed hf
      (by rintro ⟨-, h⟩; exact absurd h (by simp [at', Spec.RwxDoc.member, Trip.failed, given]))
    have hid' : "a" = id := by
      have : hasId id Trip.failed = ("a" == id) := rfl
      rw [this] at hid
      simpa using hid
    subst hid'
    obtain ⟨t, h, n, b, hlast, hm, hb, hc, hl⟩ := C129_current f sort hs run (Trip.sent 5) (Trip.ok f (by decide)) rs hg rd spec j hw "a" (by
      intro x hx y hy
      rw [Trip.said] at hx hy
      simp only [List.mem_cons, List.not_mem_nil, or_false] at hx hy
      rcases hx with rfl | rfl | rfl <;> rcases hy with rfl | rfl | rfl <;> simp [h3, Trip.runFirst, Trip.runSecond])
      test (by rw [ht]; exact List.mem_singleton_self _)
    refine ⟨test, b, ht, hb, ?_⟩
    rw [Trip.said] at hm
    simp only [List.mem_cons, List.not_mem_nil, or_false, Prod.mk.injEq] at hm
    rcases hm with ⟨rfl, rfl, rfl⟩ | ⟨rfl, rfl, rfl⟩ | ⟨rfl, rfl, rfl⟩
    · exact hc
    · have := (List.mem_filter.1 (List.mem_of_getLast? hlast)).2
      rw [h3] at this
      cases this
    · exfalso
      have := hl _ hf rfl 8 5 (by
        have r1 := Trip.reads f Trip.first (by simp)
        simp only [timeOf, saidBy, resultsIn, Trip.runFirst, Trip.heard, List.flatMap_cons, List.flatMap_nil, r1]
        rfl) (by
        have r2 := Trip.reads f Trip.second (by simp)
        have r3 := Trip.reads f Trip.third (by simp)
        simp only [timeOf, saidBy, resultsIn, Trip.runSecond, Trip.heard, List.flatMap_cons, List.flatMap_nil, r2, r3]
        rfl)
      omega

/-- C129 in full is false: because of messages that are nested too deep, and because of metadata with the name `abq_metadata`, which is
replaced. -/
theorem C129_full_statement_fails : ¬ FullStatement 127 ∧ ¬ FullStatement 120 := by
  refine ⟨fun h => ?_, fun h => ?_⟩
  · obtain ⟨sent, hs⟩ := C129_too_deep
    obtain ⟨hok, -, hn⟩ := hs ⟨fun _ => none⟩
    obtain ⟨rs, hr, -⟩ := h ⟨fun _ => none⟩ _ isSort_mergeSort "run" sent (by
      intro x hx
      refine ⟨(hok x hx).1, fun t ht => ?_⟩
      obtain ⟨a, b, c, d, e, g⟩ := (hok x hx).2 t ht
      refine ⟨a, b, c, d, e, fun y hy => ?_⟩
      obtain ⟨m, h1, h2, h3, h4⟩ := g y hy
      exact ⟨m, h1, h2, by omega, h4⟩)
    rw [hn] at hr
    cases hr
  · obtain ⟨rs, hr, hall⟩ := h ⟨fun _ => none⟩ _ isSort_mergeSort "run" (Trip.sent 20) (Trip.ok _ (by decide))
    obtain ⟨test, -, b, -, hc, hm⟩ := hall ⟨fun _ => "h", fun _ => 0⟩ none _ ⟨_, .refl _, rfl⟩ Trip.runFirst (Trip.heard Trip.first 8) Trip.failed
      (by rw [Trip.said]; exact List.mem_cons_self ..)
      (by rintro ⟨-, h⟩; exact absurd h (by simp [at', Spec.RwxDoc.member, Trip.failed, given]))
    have hm := hm "abq_metadata" rfl
    have hw := hc.worker
    have e : at' Trip.failed ["meta", "abq_metadata"] = some (.str "mine") := rfl
    rw [e] at hm
    simp only [at'] at hm hw
    cases h1 : Spec.RwxDoc.member "meta" b with
    | none => rw [h1] at hm; cases hm
    | some x =>
      rw [h1] at hm hw
      simp only [Option.bind] at hm hw
      cases h2 : Spec.RwxDoc.member "abq_metadata" x with
      | none => rw [h2] at hm; cases hm
      | some y =>
        rw [h2] at hm hw
        simp only at hm hw
        cases hm
        cases hw

end Abq.Props
