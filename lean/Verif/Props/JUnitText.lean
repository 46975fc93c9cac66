import Verif.Proof.JUnitText
import Verif.Props.JUnit

/-!
# C132: the JUnit report is an XML document that says of each test what happened to it

The full statement is that every report is an XML document, from which the name and the output of each test are read as they were. It
fails for texts with control characters, and for texts with ends of lines or tabs.
-/

namespace Abq.Props
open Abq.JUnitText Abq.Spec.JUnitText Abq.JUnitTextProof
open Summary (Status)

theorem attribute_first (n : List Char) (k l : String) (v w : List Char) (ns : List Node) :
    (Node.elem n [seen (k, v), seen (l, w)] ns).attribute k = some (normal v) := by
  simp [Node.attribute, Node.attributes, seen]

theorem attribute_second (n : List Char) (k l : String) (v w : List Char) (ns : List Node) (h : (l.toList == k.toList) = false) :
    (Node.elem n [seen (k, v), seen (l, w)] ns).attribute l = some (normal w) := by
  simp [Node.attribute, Node.attributes, seen, List.lookup, h]

theorem lookup_skip (key : List Char) (as bs : List (List Char × List Char)) (h : as.all (fun a => key != a.1) = true) (v : List Char) :
    List.lookup key (as ++ (key, v) :: bs) = some v := by
  induction as with
  | nil => simp
  | cons a as ih =>
    simp only [List.all_cons, Bool.and_eq_true, bne_iff_ne, ne_eq] at h
    obtain ⟨k, w⟩ := a
    have h1 : (key == k) = false := by simpa using h.1
    rw [List.cons_append, List.lookup_cons, h1]
    exact ih h.2

theorem attribute_at (n : List Char) (key : String) (as : List (String × List Char)) (ns : List Node) (v : List Char)
    (split : List (String × List Char) × List (String × List Char)) (e : as = split.1 ++ (key, v) :: split.2)
    (ks : List String) (hk : split.1.map (·.1) = ks) (h : ks.all (fun a => key.toList != a.toList) = true) :
    (Node.elem n (as.map seen) ns).attribute key = some (normal v) := by
  subst e
  rw [List.map_append, List.map_cons]
  subst hk
  refine lookup_skip key.toList _ _ ?_ _
  simpa [seen] using h

theorem suite_cases (strip : String → String) (rs : List JUnit.Item) : (JUnit.report strip rs).cases = rs.map (JUnit.caseOf strip) := by
  unfold JUnit.report JUnit.write
  rw [junit_cases, List.nil_append]

theorem shows_of (shown : List Char → List Char) (strip : String → String) (r : JUnit.Item) (what type : String) (n : Node) (message : String)
    (hm : message = strip (match r.output with | some o => o | none => ""))
    (hn : n.content = [.elem what.toList [seen ("type", type.toList), seen ("message", message.toList)] []])
    (ht : normal type.toList = type.toList) (hs : normal message.toList = shown message.toList) : Shows shown strip r what type n := by
  subst hm
  exact ⟨_, hn, rfl, (attribute_first ..).trans (congrArg some ht), (attribute_second _ _ _ _ _ _ (by decide)).trans (congrArg some hs)⟩

theorem says_of {st : Style} (h : Plain st) (shown : List Char → List Char) (strip : String → String) (r : JUnit.Item)
    (hs : ∀ t ∈ textsOf strip r, normal t = shown t) :
    SaysOf st shown strip r (caseNode st (JUnit.caseOf strip r)) := by
  have hcase : IsCaseOf strip r (JUnit.caseOf strip r) :=
    (C90_cases strip [r]).2 0 r _ rfl (by rw [suite_cases]; rfl)
  obtain ⟨-, -, htime⟩ := hcase
  have hsec : (caseNode st (JUnit.caseOf strip r)).attribute "time" = some (st.seconds (JUnit.caseOf strip r).time) :=
    (attribute_second _ _ _ _ _ _ (by decide)).trans (congrArg some (normal_seconds h _))
  have hname : (JUnit.caseOf strip r).name = r.name := by unfold JUnit.caseOf; split <;> rfl
  refine ⟨rfl, ?_, ⟨_, hsec, htime⟩, ?_⟩
  · refine (attribute_first ..).trans (congrArg some ?_)
    rw [hname]
    refine hs _ ?_
    unfold textsOf
    split <;> simp
  · obtain ⟨name, output, time, view⟩ := r
    obtain ⟨run, work, id, status, runtime, file, runner⟩ := view
    cases status with
    | success => exact rfl
    | pending => exact ⟨_, rfl, rfl⟩
    | skipped => exact ⟨_, rfl, rfl⟩
    | todo => exact ⟨_, rfl, rfl⟩
    | failure =>
      refine shows_of shown strip _ _ _ _ _ ?_ rfl (by decide) (hs _ ?_) <;> cases output <;> first | rfl | simp [textsOf]
    | error =>
      refine shows_of shown strip _ _ _ _ _ ?_ rfl (by decide) (hs _ ?_) <;> cases output <;> first | rfl | simp [textsOf]
    | nativeRunnerError =>
      refine shows_of shown strip _ _ _ _ _ ?_ rfl (by decide) (hs _ ?_) <;> cases output <;> first | rfl | simp [textsOf]
    | timedOut =>
      refine shows_of shown strip _ _ _ _ _ ?_ rfl (by decide) (hs _ ?_) <;> cases output <;> first | rfl | simp [textsOf]

theorem reads_as {st : Style} (h : Plain st) (shown : List Char → List Char) (strip : String → String) (rs : List JUnit.Item)
    (hl : ∀ r ∈ rs, ∀ t ∈ textsOf strip r, ∀ c ∈ t, Legal c = true) (hs : ∀ r ∈ rs, ∀ t ∈ textsOf strip r, normal t = shown t) :
    ∃ doc, readXml (file st strip rs) = some doc ∧ Says st shown strip rs doc := by
  refine ⟨_, read_document h (JUnit.report strip rs) ?_, rfl, _, rfl, rfl, ?_, ?_, ?_, ?_, ?_, ?_⟩
  · intro c hc t ht x hx
    rw [suite_cases] at hc
    obtain ⟨r, hr, rfl⟩ := List.mem_map.1 hc
    cases hlx : Legal x with
    | true => rfl
    | false =>
      obtain ⟨t', ht', hx'⟩ := (texts_case strip r x hlx).1 ⟨t, ht, hx⟩
      rw [hl r hr t' ht' x hx'] at hlx
      cases hlx
  · refine (attribute_at _ "tests" _ _ _ ((suiteAttributes st (JUnit.report strip rs)).take 3, (suiteAttributes st (JUnit.report strip rs)).drop 4) rfl
      ["id", "name", "package"] rfl (by decide)).trans (congrArg some ((normal_repr _).trans ?_))
    rw [(C90_counts strip rs).1]
    rfl
  · refine (attribute_at _ "failures" _ _ _ ((suiteAttributes st (JUnit.report strip rs)).take 5, (suiteAttributes st (JUnit.report strip rs)).drop 6) rfl
      ["id", "name", "package", "tests", "errors"] rfl (by decide)).trans (congrArg some ((normal_repr _).trans ?_))
    rw [(C90_counts strip rs).2.1]
    rfl
  · refine (attribute_at _ "errors" _ _ _ ((suiteAttributes st (JUnit.report strip rs)).take 4, (suiteAttributes st (JUnit.report strip rs)).drop 5) rfl
      ["id", "name", "package", "tests"] rfl (by decide)).trans (congrArg some ((normal_repr _).trans ?_))
    rw [(C90_counts strip rs).2.2.1]
    rfl
  · exact (attribute_at _ "time" _ _ _ ((suiteAttributes st (JUnit.report strip rs)).take 8, (suiteAttributes st (JUnit.report strip rs)).drop 9) rfl
      ["id", "name", "package", "tests", "errors", "failures", "hostname", "timestamp"] rfl (by decide)).trans (congrArg some (normal_seconds h _))
  · simp [suiteNode, Node.content, suite_cases]
  · intro i r m hr hm
    simp only [suiteNode, Node.content, suite_cases, List.getElem?_map, hr, Option.map_some, Option.some.injEq] at hm
    subst hm
    exact says_of h shown strip r (hs r (List.mem_of_getElem? hr))

/-- C132: if the names and the outputs shown have only characters that XML has, the report is an XML document, and says the counts, the
times and, for each test in order, its name, what happened to it and its output, but for the ends of lines and tabs, which are read as
blanks. -/
theorem C132_reads_partial (st : Style) (hst : Plain st) (strip : String → String) (rs : List JUnit.Item)
    (hl : ∀ r ∈ rs, ∀ t ∈ textsOf strip r, ∀ c ∈ t, Legal c = true) :
    ∃ doc, readXml (file st strip rs) = some doc ∧ Says st normal strip rs doc :=
  reads_as hst normal strip rs hl fun _ _ _ _ => rfl

/-- C132: if there are no ends of lines and no tabs in them either, names and outputs are read as they were. -/
theorem C132_exact_partial (st : Style) (hst : Plain st) (strip : String → String) (rs : List JUnit.Item)
    (hl : ∀ r ∈ rs, ∀ t ∈ textsOf strip r, ∀ c ∈ t, Legal c = true ∧ c ≠ '\t' ∧ c ≠ '\n' ∧ c ≠ '\r') :
    ∃ doc, readXml (file st strip rs) = some doc ∧ Says st id strip rs doc :=
  reads_as hst id strip rs (fun r hr t ht c hc => (hl r hr t ht c hc).1)
    fun r hr t ht => normal_plain t fun c hc => (hl r hr t ht c hc).2

/-- C132: the report is not an XML document if a name or an output shown has a character that XML does not have; so it is one exactly if
there is none. -/
theorem C132_document_iff (st : Style) (hst : Plain st) (strip : String → String) (rs : List JUnit.Item) :
    (∃ doc, readXml (file st strip rs) = some doc) ↔ ∀ r ∈ rs, ∀ t ∈ textsOf strip r, ∀ c ∈ t, Legal c = true := by
  constructor
  · rintro ⟨doc, hd⟩ r hr t ht c hc
    cases hl : Legal c with
    | true => rfl
    | false =>
      obtain ⟨t', ht', hc'⟩ := (texts_case strip r c hl).2 ⟨t, ht, hc⟩
      have hn : readXml (file st strip rs) = none :=
        read_illegal st _ (by rw [suite_cases]; exact List.mem_map.2 ⟨r, hr, rfl⟩) hl ht' hc'
      rw [hn] at hd
      cases hd
  · intro h
    obtain ⟨doc, hd, -⟩ := C132_reads_partial st hst strip rs h
    exact ⟨doc, hd⟩

theorem normal_fixed : ∀ t : List Char, normal t = t → ∀ c ∈ t, c ≠ '\t' ∧ c ≠ '\n' ∧ c ≠ '\r' := by
  intro t
  fun_induction normal t with
  | case1 => intro _ c hc; cases hc
  | case2 cs ih => intro h; exact absurd (List.cons.inj h).1 (by decide)
  | case3 c cs _ ih =>
    intro h d hd
    obtain ⟨h1, h2⟩ := List.cons.inj h
    rcases List.mem_cons.1 hd with rfl | hd
    · by_cases hc : d = '\t' ∨ d = '\n' ∨ d = '\r'
      · rw [if_pos hc] at h1
        rw [← h1] at hc
        exact absurd hc (by decide)
      · exact ⟨fun h => hc (.inl h), fun h => hc (.inr (.inl h)), fun h => hc (.inr (.inr h))⟩
    · exact ih h2 d hd

theorem says_texts {st : Style} {strip : String → String} {r : JUnit.Item} {m : Node} (h1 : SaysOf st normal strip r m)
    (h2 : SaysOf st id strip r m) : ∀ t ∈ textsOf strip r, normal t = t := by
  obtain ⟨-, n1, -, h1⟩ := h1
  obtain ⟨-, n2, -, h2⟩ := h2
  rw [n1] at n2
  have hn : normal r.name.toList = r.name.toList := Option.some.inj n2
  have hs : ∀ el ty, Shows normal strip r el ty m → Shows id strip r el ty m →
      normal (strip (match r.output with | some o => o | none => "")).toList =
        (strip (match r.output with | some o => o | none => "")).toList := by
    rintro el ty ⟨k, hk, -, -, g1⟩ ⟨k', hk', -, -, g2⟩
    rw [hk] at hk'
    cases hk'
    rw [g1] at g2
    exact Option.some.inj g2
  unfold textsOf
  cases hst : r.view.status <;> rw [hst] at h1 h2 <;> intro t ht <;>
    simp only [List.mem_cons, List.not_mem_nil, or_false] at ht
  all_goals first
    | exact ht ▸ hn
    | (rcases ht with rfl | rfl
       · exact hn
       · exact hs _ _ h1 h2)

/-- C132: the report is an XML document from which names and outputs are read as they were exactly if they have only characters that
XML has, and no ends of lines and no tabs. -/
theorem C132_exact_iff (st : Style) (hst : Plain st) (strip : String → String) (rs : List JUnit.Item) :
    (∃ doc, readXml (file st strip rs) = some doc ∧ Says st id strip rs doc) ↔
      ∀ r ∈ rs, ∀ t ∈ textsOf strip r, ∀ c ∈ t, Legal c = true ∧ c ≠ '\t' ∧ c ≠ '\n' ∧ c ≠ '\r' := by
  refine ⟨?_, C132_exact_partial st hst strip rs⟩
  rintro ⟨doc, hd, hs⟩ r hr t ht c hc
  have hl := (C132_document_iff st hst strip rs).1 ⟨doc, hd⟩
  refine ⟨hl r hr t ht c hc, normal_fixed t ?_ c hc⟩
  obtain ⟨doc', hd', hs'⟩ := C132_reads_partial st hst strip rs hl
  rw [hd] at hd'
  cases hd'
  obtain ⟨-, n, hn, -, -, -, -, -, hlen, h2⟩ := hs'
  obtain ⟨-, n', hn', -, -, -, -, -, -, h3⟩ := hs
  rw [hn] at hn'
  cases hn'
  obtain ⟨i, hi⟩ := List.getElem?_of_mem hr
  obtain ⟨hi', -⟩ := List.getElem?_eq_some_iff.1 hi
  obtain ⟨m, hm⟩ : ∃ m, n.content[i]? = some m := ⟨n.content[i]'(by omega), List.getElem?_eq_getElem (by omega)⟩
  exact says_texts (h2 i r m hi hm) (h3 i r m hi hm) t ht

namespace SampleXml

def style : Style := ⟨fun _ => ['0', '.', '5'], ['2', '0'], true⟩

theorem plain : Plain style := by
  constructor
  · intro t c hc
    simp only [style, List.mem_cons, List.not_mem_nil, or_false] at hc
    rcases hc with rfl | rfl | rfl <;> decide
  · intro c hc
    simp only [style, List.mem_cons, List.not_mem_nil, or_false] at hc
    rcases hc with rfl | rfl <;> decide

def item (name : String) (status : Status) (output : String) : JUnit.Item :=
  { name := name, output := some output, time := .milliseconds 500000000, view := { (junitItem 1 name status).view with status := status } }

def results : List JUnit.Item := [item "a < b" .success "", item "says \"no\"" .failure "1 & 2"]

end SampleXml
open SampleXml

theorem sampleXml_texts (r : JUnit.Item) (hr : r ∈ results) (t : List Char) (ht : t ∈ textsOf (fun s => s) r) (c : Char) (hc : c ∈ t) :
    Legal c = true ∧ c ≠ '\t' ∧ c ≠ '\n' ∧ c ≠ '\r' := by
  have h : results.all fun r => (textsOf (fun s => s) r).all fun t => t.all fun c => Legal c && c != '\t' && c != '\n' && c != '\r' := by decide
  have := List.all_eq_true.1 (List.all_eq_true.1 (List.all_eq_true.1 h r hr) t ht) c hc
  simpa [and_assoc] using this

/-- Texts that have to be escaped are read as they were. -/
example : ∃ doc, readXml (file style (fun s => s) results) = some doc ∧ Says style id (fun s => s) results doc :=
  C132_exact_partial style plain _ results sampleXml_texts

example : (JUnit.report (fun s => s) results).cases.map (·.kind) = [.success, .failure "failure" "1 & 2"] := by decide

/-- What is written for the first of them. -/
example : testCase style (JUnit.caseOf (fun s => s) (item "a<b" .skipped "")) =
    "<testcase name=\"a&lt;b\" time=\"0.5\"><skipped/></testcase>".toList := by decide

/-- **C132** does not hold in full: with a name that has an escape code in it, the report is not an XML document; and the ends of the lines
of an output are not read from the report, so that different outputs are the same there. -/
theorem C132_full_statement_fails :
    (∃ r : JUnit.Item, readXml (file style (fun s => s) [r]) = none) ∧
    ∃ (r : JUnit.Item) (doc : Node), readXml (file style (fun s => s) [r]) = some doc ∧
      ¬ Says style id (fun s => s) [r] doc := by
  constructor
  · refine ⟨item (String.ofList ['\x1b']) .success "", ?_⟩
    cases h : readXml (file style (fun s => s) [item (String.ofList ['\x1b']) .success ""]) with
    | none => rfl
    | some doc =>
      exact absurd ((C132_document_iff style plain (fun s => s) _).1 ⟨doc, h⟩ _ (List.mem_singleton.2 rfl) ['\x1b'] (by decide) '\x1b' (by decide)) (by decide)
  · have hl : ∀ r ∈ [item "t" .failure "a\nb"], ∀ t ∈ textsOf (fun s => s) r, ∀ c ∈ t, Legal c = true := by decide
    obtain ⟨doc, h1, h2⟩ := C132_reads_partial style plain (fun s => s) _ hl
    refine ⟨_, doc, h1, fun h3 => ?_⟩
    obtain ⟨-, n, hn, -, -, -, -, -, hlen, h2⟩ := h2
    obtain ⟨-, n', hn', -, -, -, -, -, -, h3⟩ := h3
    rw [hn] at hn'
    cases hn'
    have hlen : n.content.length = 1 := hlen
    obtain ⟨m, hm⟩ : ∃ m, n.content[0]? = some m := ⟨n.content[0]'(by omega), List.getElem?_eq_getElem (by omega)⟩
    obtain ⟨-, -, -, k, hk, -, -, h2⟩ := h2 0 _ m rfl hm
    obtain ⟨-, -, -, k', hk', -, -, h3⟩ := h3 0 _ m rfl hm
    rw [hk] at hk'
    cases hk'
    rw [h2] at h3
    revert h3
    decide

end Abq.Props
