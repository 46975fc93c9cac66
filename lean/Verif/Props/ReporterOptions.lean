import Verif.Spec.ReporterOptions

/-!
# C82, C83: the option `--reporter`, and who writes to standard output
-/

namespace Abq.Props
open Abq Abq.ReporterOptions

/-! ## C82 -/

theorem splitEq_plain (p : List Char) (h : '=' ∉ p) : splitEq p = [p] := by
  induction p with
  | nil => rfl
  | cons c p ih =>
    simp only [List.mem_cons, not_or] at h
    rw [splitEq, if_neg (Ne.symm h.1), ih h.2]

theorem splitEq_append (p q : List Char) (h : '=' ∉ p) : splitEq (p ++ '=' :: q) = p :: splitEq q := by
  induction p with
  | nil => simp [splitEq]
  | cons c p ih =>
    simp only [List.mem_cons, not_or] at h
    rw [List.cons_append, splitEq, if_neg (Ne.symm h.1), ih h.2]

theorem splitEq_ne_nil (p : List Char) : splitEq p ≠ [] := by
  cases p with
  | nil => simp [splitEq]
  | cons c p => rw [splitEq]; split <;> (try split) <;> simp

theorem splitEq_head (s : List Char) : (splitEq s)[0]? = some (beforeEq s) := by
  induction s with
  | nil => rfl
  | cons c s ih =>
    rw [splitEq]
    by_cases h : c = '='
    · simp [h, beforeEq]
    · rw [if_neg h]
      cases hs : splitEq s with
      | nil => exact (splitEq_ne_nil s hs).elim
      | cons p ps =>
        rw [hs] at ih
        simp only [List.getElem?_cons_zero, Option.some.injEq] at ih
        simp [beforeEq, h, ih]

theorem notBlank_some (ws : Char → Bool) (p : List Char) (h : ∃ c ∈ p, ws c = false) : notBlank ws (some p) = some p := by
  obtain ⟨c, hc, hw⟩ := h
  have : p.all ws = false := by
    rw [List.all_eq_false]
    exact ⟨c, hc, by simp [hw]⟩
  simp [notBlank, this]

theorem notBlank_blank (ws : Char → Bool) (p : List Char) (h : ∀ c ∈ p, ws c = true) : notBlank ws (some p) = none := by
  have : p.all ws = true := List.all_eq_true.2 h
  rw [notBlank, Option.filter_some, this]
  rfl

theorem parse_file (ws : Char → Bool) (s : List Char) (h1 : s ≠ "default".toList) (h2 : s ≠ "line".toList)
    (h3 : s ≠ "dot".toList) (h4 : s ≠ "progress".toList) : parse ws s = parseFile ws s := by
  rw [parse, if_neg h1, if_neg h2, if_neg h3, if_neg h4]

theorem parseFile_some (ws : Char → Bool) (s r : List Char) (h : notBlank ws (splitEq s)[0]? = some r) :
    parseFile ws s =
      if r = "junit-xml".toList then .ok (.junitXml ((notBlank ws (splitEq s)[1]?).getD defaultXmlPath))
      else if r = "rwx-v1-json".toList then .ok (.rwxV1Json ((notBlank ws (splitEq s)[1]?).getD defaultJsonPath))
      else .unknown r := by
  unfold parseFile
  dsimp only
  rw [h]

theorem parseFile_none (ws : Char → Bool) (s : List Char) (h : notBlank ws (splitEq s)[0]? = none) :
    parseFile ws s = .missing s := by
  unfold parseFile
  dsimp only
  rw [h]

theorem junit_ne_json : "rwx-v1-json".toList ≠ "junit-xml".toList := by decide

theorem parse_named (ws : Char → Bool) (hw : Sane ws) (q : List Char) :
    parse ws ("junit-xml=".toList ++ q) = .ok (.junitXml ((notBlank ws (splitEq q)[0]?).getD defaultXmlPath)) ∧
    parse ws ("rwx-v1-json=".toList ++ q) = .ok (.rwxV1Json ((notBlank ws (splitEq q)[0]?).getD defaultJsonPath)) := by
  constructor
  · rw [parse_file _ _ (by simp) (by simp) (by simp) (by simp), parseFile]
    have e : "junit-xml=".toList ++ q = "junit-xml".toList ++ '=' :: q := rfl
    rw [e, splitEq_append _ _ (by decide)]
    simp only [List.getElem?_cons_zero, List.getElem?_cons_succ]
    rw [notBlank_some ws "junit-xml".toList ⟨'j', by decide, hw _ (by decide) (by decide)⟩]
    simp
  · rw [parse_file _ _ (by simp) (by simp) (by simp) (by simp), parseFile]
    have e : "rwx-v1-json=".toList ++ q = "rwx-v1-json".toList ++ '=' :: q := rfl
    rw [e, splitEq_append _ _ (by decide)]
    simp only [List.getElem?_cons_zero, List.getElem?_cons_succ]
    rw [notBlank_some ws "rwx-v1-json".toList ⟨'r', by decide, hw _ (by decide) (by decide)⟩]
    simp

/-- **C82**, for paths without `=`. A reporter that writes a file writes the path given. -/
theorem C82_path_partial (ws : Char → Bool) (hw : Sane ws) (path : List Char) (hp : Plain ws path) :
    parse ws ("junit-xml=".toList ++ path) = .ok (.junitXml path) ∧
    parse ws ("rwx-v1-json=".toList ++ path) = .ok (.rwxV1Json path) := by
  have h := parse_named ws hw path
  rw [splitEq_plain path hp.1, List.getElem?_cons_zero, notBlank_some ws path hp.2] at h
  exact h

/-- A path is cut at `=`. -/
theorem C82_full_statement_fails (ws : Char → Bool) (hw : Sane ws) :
    parse ws "junit-xml=out/shard=1/results.xml".toList = .ok (.junitXml "out/shard".toList) := by
  have e : "junit-xml=out/shard=1/results.xml".toList = "junit-xml=".toList ++ "out/shard=1/results.xml".toList := by decide
  rw [e, (parse_named ws hw _).1]
  have e2 : "out/shard=1/results.xml".toList = "out/shard".toList ++ '=' :: "1/results.xml".toList := by decide
  rw [e2, splitEq_append _ _ (by decide), List.getElem?_cons_zero,
    notBlank_some ws _ ⟨'o', by decide, hw _ (by decide) (by decide)⟩]
  rfl

/-- **C82**. Without a path, or with a blank one, the documented file is written. -/
theorem C82_default_path (ws : Char → Bool) (hw : Sane ws) (path : List Char) (hp : ∀ c ∈ path, ws c = true) :
    parse ws ("junit-xml=".toList ++ path) = .ok (.junitXml "abq-test-results.xml".toList) ∧
    parse ws "junit-xml".toList = .ok (.junitXml "abq-test-results.xml".toList) ∧
    parse ws ("rwx-v1-json=".toList ++ path) = .ok (.rwxV1Json "abq-test-results.json".toList) ∧
    parse ws "rwx-v1-json".toList = .ok (.rwxV1Json "abq-test-results.json".toList) := by
  have hq : '=' ∉ path := fun hm => by
    have := hw '=' (by decide) (by decide)
    rw [hp _ hm] at this; cases this
  have h := parse_named ws hw path
  rw [splitEq_plain path hq, List.getElem?_cons_zero, notBlank_blank ws path hp] at h
  refine ⟨h.1, ?_, h.2, ?_⟩
  · have e : splitEq "junit-xml".toList = ["junit-xml".toList] := splitEq_plain _ (by decide)
    have hb : notBlank ws (splitEq "junit-xml".toList)[0]? = some "junit-xml".toList := by
      rw [e]; exact notBlank_some ws _ ⟨'j', by decide, hw _ (by decide) (by decide)⟩
    rw [parse_file _ _ (by decide) (by decide) (by decide) (by decide), parseFile_some ws _ _ hb, if_pos rfl, e]
    rfl
  · have e : splitEq "rwx-v1-json".toList = ["rwx-v1-json".toList] := splitEq_plain _ (by decide)
    have hb : notBlank ws (splitEq "rwx-v1-json".toList)[0]? = some "rwx-v1-json".toList := by
      rw [e]; exact notBlank_some ws _ ⟨'r', by decide, hw _ (by decide) (by decide)⟩
    rw [parse_file _ _ (by decide) (by decide) (by decide) (by decide), parseFile_some ws _ _ hb, if_neg junit_ne_json,
      if_pos rfl, e]
    rfl

/-- **C82**. What is printed for a reporter is parsed as that reporter. -/
theorem C82_print_parse_partial (ws : Char → Bool) (hw : Sane ws) (k : Kind)
    (hp : ∀ path, k = .junitXml path ∨ k = .rwxV1Json path → Plain ws path) : parse ws k.print = .ok k := by
  cases k with
  | junitXml path => exact (C82_path_partial ws hw path (hp path (.inl rfl))).1
  | rwxV1Json path => exact (C82_path_partial ws hw path (hp path (.inr rfl))).2
  | _ => rfl

/-- **C82**, for all paths. What is taken for the path is what stands before the next `=`, and the documented file if
that is blank. -/
theorem C82_path_exact (ws : Char → Bool) (hw : Sane ws) (path : List Char) :
    ((∃ c ∈ beforeEq path, ws c = false) →
      parse ws ("junit-xml=".toList ++ path) = .ok (.junitXml (beforeEq path)) ∧
      parse ws ("rwx-v1-json=".toList ++ path) = .ok (.rwxV1Json (beforeEq path))) ∧
    ((∀ c ∈ beforeEq path, ws c = true) →
      parse ws ("junit-xml=".toList ++ path) = .ok (.junitXml "abq-test-results.xml".toList) ∧
      parse ws ("rwx-v1-json=".toList ++ path) = .ok (.rwxV1Json "abq-test-results.json".toList)) := by
  have h := parse_named ws hw path
  rw [splitEq_head path] at h
  refine ⟨fun hb => ?_, fun hb => ?_⟩
  · rw [notBlank_some ws _ hb] at h
    exact h
  · rw [notBlank_blank ws _ hb] at h
    exact h

example : (∃ c ∈ beforeEq "out/shard=1/results.xml".toList, Char.isWhitespace c = false) ∧
    (∀ c ∈ beforeEq " =1.xml".toList, Char.isWhitespace c = true) := ⟨⟨'o', by decide, by decide⟩, by decide⟩

theorem beforeEq_no_eq (s : List Char) : '=' ∉ beforeEq s := by
  induction s with
  | nil => simp [beforeEq]
  | cons c s ih =>
    by_cases h : c = '='
    · simp [beforeEq, h]
    · have : beforeEq (c :: s) = c :: beforeEq s := by simp [beforeEq, h]
      rw [this, List.mem_cons]
      rintro (h' | h')
      · exact h h'.symm
      · exact ih h'

theorem beforeEq_self (s : List Char) (hs : '=' ∉ s) : beforeEq s = s := by
  induction s with
  | nil => rfl
  | cons c s ih =>
    rw [List.mem_cons, not_or] at hs
    have : beforeEq (c :: s) = c :: beforeEq s := by simp [beforeEq, Ne.symm hs.1]
    rw [this, ih hs.2]

/-- **C82**. What is printed for a reporter is parsed as that reporter precisely if its path, if it has one, is not blank
and has no `=`. -/
theorem C82_print_parse_exact (ws : Char → Bool) (hw : Sane ws) (k : Kind) :
    parse ws k.print = .ok k ↔ ∀ path, k = .junitXml path ∨ k = .rwxV1Json path → Plain ws path := by
  refine ⟨fun h path hk => ?_, C82_print_parse_partial ws hw k⟩
  have hp := C82_path_exact ws hw path
  have plain : (∃ c ∈ beforeEq path, ws c = false) → beforeEq path = path → Plain ws path := fun hb he =>
    ⟨he ▸ beforeEq_no_eq path, he ▸ hb⟩
  have dflt : ∀ d : List Char, (∀ c ∈ beforeEq path, ws c = true) → '=' ∉ d → (∃ c ∈ d, ws c = false) → d ≠ path := by
    intro d hb hd hx he
    subst he
    rw [beforeEq_self d hd] at hb
    obtain ⟨c, hc, hw⟩ := hx
    rw [hb c hc] at hw; cases hw
  by_cases hb : ∃ c ∈ beforeEq path, ws c = false
  · refine plain hb ?_
    rcases hk with rfl | rfl
    · have := (hp.1 hb).1.symm.trans h; injection this with this; injection this
    · have := (hp.1 hb).2.symm.trans h; injection this with this; injection this
  · have hb : ∀ c ∈ beforeEq path, ws c = true := fun c hc => by
      cases hc' : ws c with
      | true => rfl
      | false => exact (hb ⟨c, hc, hc'⟩).elim
    exfalso
    rcases hk with rfl | rfl
    · have := (hp.2 hb).1.symm.trans h
      injection this with this
      injection this with this
      exact dflt _ hb (by decide) ⟨'a', by decide, hw _ (by decide) (by decide)⟩ this
    · have := (hp.2 hb).2.symm.trans h
      injection this with this
      injection this with this
      exact dflt _ hb (by decide) ⟨'a', by decide, hw _ (by decide) (by decide)⟩ this

/-- **C82**. Nothing but the documented names is accepted. -/
theorem C82_accepted (ws : Char → Bool) (hw : Sane ws) (s : List Char) :
    (∃ k, parse ws s = .ok k) ↔
      s = "default".toList ∨ s = "line".toList ∨ s = "dot".toList ∨ s = "progress".toList ∨
      beforeEq s = "junit-xml".toList ∨ beforeEq s = "rwx-v1-json".toList := by
  by_cases h1 : s = "default".toList
  · exact ⟨fun _ => .inl h1, fun _ => ⟨.default, by rw [h1]; rfl⟩⟩
  by_cases h2 : s = "line".toList
  · exact ⟨fun _ => .inr (.inl h2), fun _ => ⟨.line, by rw [h2]; rfl⟩⟩
  by_cases h3 : s = "dot".toList
  · exact ⟨fun _ => .inr (.inr (.inl h3)), fun _ => ⟨.dot, by rw [h3]; rfl⟩⟩
  by_cases h4 : s = "progress".toList
  · exact ⟨fun _ => .inr (.inr (.inr (.inl h4))), fun _ => ⟨.progress, by rw [h4]; rfl⟩⟩
  rw [parse_file ws s h1 h2 h3 h4]
  have hf : (s = "default".toList ∨ s = "line".toList ∨ s = "dot".toList ∨ s = "progress".toList ∨
      beforeEq s = "junit-xml".toList ∨ beforeEq s = "rwx-v1-json".toList) ↔
      (beforeEq s = "junit-xml".toList ∨ beforeEq s = "rwx-v1-json".toList) :=
    ⟨fun h => by
      rcases h with h | h | h | h | h
      · exact (h1 h).elim
      · exact (h2 h).elim
      · exact (h3 h).elim
      · exact (h4 h).elim
      · exact h, fun h => .inr (.inr (.inr (.inr h)))⟩
  rw [hf]
  have hh := splitEq_head s
  by_cases hb : ∃ c ∈ beforeEq s, ws c = false
  · have hn : notBlank ws (splitEq s)[0]? = some (beforeEq s) := by rw [hh]; exact notBlank_some ws _ hb
    rw [parseFile_some ws s _ hn]
    by_cases h5 : beforeEq s = "junit-xml".toList
    · rw [if_pos h5]
      exact ⟨fun _ => .inl h5, fun _ => ⟨_, rfl⟩⟩
    · rw [if_neg h5]
      by_cases h6 : beforeEq s = "rwx-v1-json".toList
      · rw [if_pos h6]
        exact ⟨fun _ => .inr h6, fun _ => ⟨_, rfl⟩⟩
      · rw [if_neg h6]
        exact ⟨fun ⟨k, hk⟩ => (Parsed.noConfusion hk), fun h => (h.elim h5 h6).elim⟩
  · have hall : ∀ c ∈ beforeEq s, ws c = true := fun c hc => by
      cases hc' : ws c with
      | true => rfl
      | false => exact (hb ⟨c, hc, hc'⟩).elim
    have hn : notBlank ws (splitEq s)[0]? = none := by rw [hh]; exact notBlank_blank ws _ hall
    rw [parseFile_none ws s hn]
    refine ⟨fun ⟨k, hk⟩ => (Parsed.noConfusion hk), fun h => (hb ?_).elim⟩
    rcases h with h | h
    · rw [h]; exact ⟨'j', by decide, hw _ (by decide) (by decide)⟩
    · rw [h]; exact ⟨'r', by decide, hw _ (by decide) (by decide)⟩

theorem sane_isWhitespace : Sane Char.isWhitespace := by
  intro c h1 h2
  have hne : ∀ d : Char, d.toNat < 33 → c ≠ d := by
    rintro d hd rfl; omega
  simp [Char.isWhitespace, hne ' ' (by decide), hne '\t' (by decide), hne '\r' (by decide), hne '\n' (by decide)]

example : Sane Char.isWhitespace ∧ Plain Char.isWhitespace "out/my results.xml".toList ∧
    parse Char.isWhitespace "junit-xml=out/my results.xml".toList = .ok (.junitXml "out/my results.xml".toList) ∧
    parse Char.isWhitespace "rwx-v1-json=  ".toList = .ok (.rwxV1Json "abq-test-results.json".toList) ∧
    parse Char.isWhitespace "xml".toList = .unknown "xml".toList :=
  ⟨sane_isWhitespace, ⟨by decide, 'o', by decide, by decide⟩, by decide, by decide, by decide⟩

/-! ## C83 -/

theorem build_onStdout (n : Nat) (kinds : List Kind) :
    (build n kinds).any (·.onStdout) = kinds.any (Kind.outputsToStdout n) := by
  have key : ∀ (b : Bool) (l : List Kind), (b = true → ∃ k ∈ kinds, k.outputsToStdout n = true) → (∀ k ∈ l, k ∈ kinds) →
      b = kinds.any (Kind.outputsToStdout n) →
      (l.filterMap (fromKind b)).any (·.onStdout) = (b && l.any fun k => k = .default || k.outputsToStdout n) := by
    intro b l hb
    induction l with
    | nil => intro _ _; simp
    | cons k l ih =>
      intro hl hbe
      have ih := ih (fun x hx => hl x (List.mem_cons_of_mem _ hx)) hbe
      have hk := hl k (List.mem_cons_self ..)
      have hstd : k.outputsToStdout n = true → b = true := fun h => by
        rw [hbe, List.any_eq_true]; exact ⟨k, hk, h⟩
      cases k with
      | default =>
        cases b with
        | true => simp [fromKind, Built.onStdout]
        | false => rw [List.filterMap_cons_none (by rfl), ih]; simp
      | line => have := hstd rfl; simp [fromKind, Built.onStdout, this, Kind.outputsToStdout]
      | dot => have := hstd rfl; simp [fromKind, Built.onStdout, this, Kind.outputsToStdout]
      | progress => have := hstd rfl; simp [fromKind, Built.onStdout, this, Kind.outputsToStdout]
      | junitXml p =>
        rw [List.filterMap_cons_some (f := fromKind b) (b := .junitXml p) rfl, List.any_cons, ih, List.any_cons]
        simp [Built.onStdout, Kind.outputsToStdout]
      | rwxV1Json p =>
        rw [List.filterMap_cons_some (f := fromKind b) (b := .rwxV1Json p) rfl, List.any_cons, ih, List.any_cons]
        simp [Built.onStdout, Kind.outputsToStdout]
  rw [build, key _ kinds (by intro h; rw [List.any_eq_true] at h; exact h) (fun k hk => hk) rfl]
  cases h : kinds.any (Kind.outputsToStdout n) with
  | false => rfl
  | true =>
    rw [List.any_eq_true] at h
    obtain ⟨k, hk, h'⟩ := h
    rw [Bool.true_and, List.any_eq_true]
    exact ⟨k, hk, by simp [h']⟩

/-- **C83**. The native runner and a reporter never both write to standard output. -/
theorem C83_never_both (n : Nat) (kinds : List Kind) (h : pipes n kinds = true) :
    (build n kinds).any (·.onStdout) = false := by
  rw [build_onStdout]
  simpa using (Bool.and_eq_true_iff.1 h).2

/-- **C83**. If a reporter for the terminal is asked for, either by name or as the default, exactly one of them does. -/
theorem C83_exactly_one (n : Nat) (kinds : List Kind)
    (h : .default ∈ kinds ∨ .line ∈ kinds ∨ .dot ∈ kinds ∨ .progress ∈ kinds) :
    pipes n kinds = !(build n kinds).any (·.onStdout) := by
  rw [build_onStdout, pipes]
  by_cases hn : n = 1
  · simp [hn]
  · have : kinds.any (Kind.outputsToStdout n) = true := by
      rw [List.any_eq_true]
      rcases h with h | h | h | h
      · exact ⟨_, h, by simpa [Kind.outputsToStdout] using hn⟩
      all_goals exact ⟨_, h, rfl⟩
    rw [this]; simp

/-- **C83**. With the default reporter alone, it is the native runner if there is one runner, and dots otherwise. -/
theorem C83_default (n : Nat) : pipes n [.default] = (n = 1 : Bool) ∧ build n [.default] = if n = 1 then [] else [.dot] := by
  by_cases hn : n = 1 <;> simp [pipes, build, Kind.outputsToStdout, fromKind, hn]

/-- **C83**. Each file asked for is written. -/
theorem C83_files (n : Nat) (kinds : List Kind) (path : List Char) :
    (.junitXml path ∈ kinds ↔ .junitXml path ∈ build n kinds) ∧ (.rwxV1Json path ∈ kinds ↔ .rwxV1Json path ∈ build n kinds) := by
  simp only [build, List.mem_filterMap]
  constructor <;> constructor
  · exact fun h => ⟨_, h, rfl⟩
  · rintro ⟨k, hk, h⟩
    cases k <;> simp [fromKind] at h
    rw [← h]; exact hk
  · exact fun h => ⟨_, h, rfl⟩
  · rintro ⟨k, hk, h⟩
    cases k <;> simp [fromKind] at h
    rw [← h]; exact hk

/-- **C83**. The output of each runner is shown once: while it runs or, if there is any, at the end. -/
theorem C83_output_shown_once (n : Nat) (kinds : List Kind) (outputs : List (Nat × List Char)) (x : Nat × List Char)
    (hx : x ∈ outputs) (ho : x.2 ≠ []) : pipes n kinds = true ↔ x ∉ printedAtEnd n kinds outputs := by
  unfold printedAtEnd
  rw [List.mem_filter]
  simp [hx, ho]

example : pipes 1 [.default, .junitXml ['x']] = true ∧ build 1 [.default, .junitXml ['x']] = [.junitXml ['x']] ∧
    pipes 3 [.default, .junitXml ['x']] = false ∧ build 3 [.default, .junitXml ['x']] = [.dot, .junitXml ['x']] ∧
    printedAtEnd 3 [.default] [(1, ['a']), (2, [])] = [(1, ['a'])] := by decide

/-- The default beside a named reporter adds dots to what that reporter writes. -/
theorem C83_default_beside_named : build 1 [.default, .line] = [.dot, .line] := by decide

end Abq.Props
