import Verif.Spec.Attribution
import Verif.Props.Capture

/-!
# C72: the output of a native runner is in the reports of its tests
-/

namespace Abq.Attribution
open Abq.Spec

theorem increments_one (before : Stdio) (res : List TestResult) (r : TestResult) (c : Stdio) (rep : List Reply) :
    increments before res (.one r) c rep =
      match rep with
      | [] => .waiting
      | none :: _ => .error
      | some (.one r', c') :: rest => increments before (res ++ [attach c r]) (.one r') c' rest
      | some (.done l, c') :: rest => increments before (res ++ [attach c r]) (.done l) c' rest
      | some _ :: _ => .error := by
  cases rep with
  | nil => rfl
  | cons x rest =>
    cases x with
    | none => rfl
    | some x => obtain ⟨m, c'⟩ := x; cases m <;> simp [increments]

theorem increments_done (before : Stdio) (res : List TestResult) (l : Option TestResult) (c : Stdio) (rep : List Reply) :
    increments before res (.done l) c rep =
      match l with
      | some r => .ok ⟨res ++ [attach c r], before, none⟩
      | none => .ok ⟨res, before, some c⟩ := by
  cases l <;> rw [increments]

/-- What the loop over incremental results makes of proper answers. -/
theorem increments_ok (before : Stdio) (rs : List (TestResult × Stdio)) :
    ∀ (res : List TestResult) (r : TestResult) (c : Stdio) (last : Option TestResult) (cl : Stdio) (rest : List Reply),
    increments before res (.one r) c (rs.map (fun x => some (Msg.one x.1, x.2)) ++ some (.done last, cl) :: rest) =
      .ok ⟨res ++ attach c r :: rs.map (fun x => attach x.2 x.1) ++ last.toList.map (attach cl), before,
        if last.isSome then none else some cl⟩ := by
  induction rs with
  | nil =>
    intro res r c last cl rest
    rw [List.map_nil, List.nil_append, increments_one]
    simp only [increments_done]
    cases last <;> simp
  | cons x rs ih =>
    intro res r c last cl rest
    rw [List.map_cons, List.cons_append, increments_one]
    simp only [ih]
    simp

/-- The loop succeeds only on proper answers. -/
theorem increments_proper (before : Stdio) (replies : List Reply) :
    ∀ (res : List TestResult) (r : TestResult) (c : Stdio) (a : Associated),
    increments before res (.one r) c replies = .ok a →
    ∃ (rs : List (TestResult × Stdio)) (last : Option TestResult) (cl : Stdio) (rest : List Reply),
      replies = rs.map (fun x => some (Msg.one x.1, x.2)) ++ some (.done last, cl) :: rest := by
  induction replies with
  | nil => intro res r c a h; rw [increments_one] at h; cases h
  | cons x replies ih =>
    intro res r c a h
    rw [increments_one] at h
    cases x with
    | none => cases h
    | some x =>
      obtain ⟨m, c'⟩ := x
      cases m with
      | single => cases h
      | multiple => cases h
      | one r' =>
        obtain ⟨rs, last, cl, rest, e⟩ := ih _ _ _ _ h
        exact ⟨(r', c') :: rs, last, cl, rest, by simp [e]⟩
      | done l => exact ⟨[], l, c', replies, rfl⟩

end Abq.Attribution

namespace Abq.Props
open Abq.Spec Abq.Attribution Abq.Capture

/-- **C72**: a test is reported with results exactly if it could be sent and was answered properly, whatever the native runner
sends after that; the results are those of the answers, in order. -/
theorem C72_answered (before : Stdio) (writeOk : Bool) (replies : List Reply) (a : Associated) :
    sendAndWait before writeOk replies = .ok a →
    writeOk = true ∧ ∃ answers rest, replies = answers.map some ++ rest ∧ Answers answers ∧
      a.results.map (·.id) = (answers.flatMap (resultsIn ·.1)).map (·.id) := by
  intro h
  unfold sendAndWait at h
  cases writeOk with
  | false => cases h
  | true =>
    refine ⟨rfl, ?_⟩
    simp only [Bool.not_true, Bool.false_eq_true, if_false] at h
    cases replies with
    | nil => cases h
    | cons x rest =>
      cases x with
      | none => cases h
      | some x =>
        obtain ⟨m, c⟩ := x
        cases m with
        | single r =>
          cases h
          exact ⟨[(.single r, c)], rest, rfl, .single r c, rfl⟩
        | multiple rs =>
          cases h
          refine ⟨[(.multiple rs, c)], rest, rfl, .multiple rs c, ?_⟩
          simp only [List.flatMap_cons, List.flatMap_nil, resultsIn, List.append_nil]
          unfold attachAll
          split <;> simp [attach]
        | one r =>
          obtain ⟨rs, last, cl, rest', e⟩ := increments_proper _ _ _ _ _ _ h
          subst e
          simp only [increments_ok] at h
          cases h
          refine ⟨((r, c) :: rs).map (fun x => (.one x.1, x.2)) ++ [(.done last, cl)], rest', ?_, .incremental _ _ _, ?_⟩
          · simp
          · cases last <;> simp [resultsIn, attach, List.flatMap_map, List.map_flatMap, Function.comp_def, List.flatMap_singleton']
            all_goals (induction rs <;> simp_all)
        | done l =>
          simp only [increments_done] at h
          refine ⟨[(.done l, c)], rest, rfl, .incremental [] l c, ?_⟩
          cases l <;> (cases h; rfl)

/-- **C72**: the runner waits on only as long as all answers so far are incremental results; anything else that is not a proper
sequence of answers is an error. -/
theorem C72_waits (before : Stdio) (replies : List Reply) :
    sendAndWait before true replies = .waiting ↔ ∀ x ∈ replies, ∃ r c, x = some (Msg.one r, c) := by
  have key : ∀ (replies : List Reply) (res : List TestResult) (r : TestResult) (c : Stdio),
      increments before res (.one r) c replies = .waiting ↔ ∀ x ∈ replies, ∃ r c, x = some (Msg.one r, c) := by
    intro replies
    induction replies with
    | nil => intro res r c; rw [increments_one]; simp
    | cons x replies ih =>
      intro res r c
      rw [increments_one]
      rcases x with _ | ⟨m, c'⟩
      · simp
      · cases m with
        | single => simp
        | multiple => simp
        | one r' =>
          show increments before _ (.one r') c' replies = .waiting ↔ _
          rw [ih]
          simp
        | done l => cases l <;> simp [increments_done]
  unfold sendAndWait
  simp only [Bool.not_true, Bool.false_eq_true, if_false]
  rcases replies with _ | ⟨x, replies⟩
  · simp
  · rcases x with _ | ⟨m, c'⟩
    · simp
    · cases m with
      | single => simp
      | multiple => simp
      | one r' =>
        show increments before _ (.one r') c' replies = .waiting ↔ _
        rw [key]
        simp
      | done l => cases l <;> simp [increments_done]

/-- **C72**: every proper sequence of answers is reported. -/
theorem C72_answers_reported (before : Stdio) (answers : List (Msg × Stdio)) (rest : List Reply) (h : Answers answers) :
    ∃ a, sendAndWait before true (answers.map some ++ rest) = .ok a := by
  cases h with
  | single r c => exact ⟨_, rfl⟩
  | multiple rs c => exact ⟨_, rfl⟩
  | incremental rs last c =>
    cases rs with
    | nil => cases last <;> exact ⟨_, by simp [sendAndWait, increments_done]; rfl⟩
    | cons x rs =>
      have e : (List.map some (List.map (fun x : TestResult × Stdio => (Msg.one x.1, x.2)) (x :: rs) ++ [(.done last, c)]) ++ rest) =
          some (.one x.1, x.2) :: (rs.map (fun x => some (Msg.one x.1, x.2)) ++ some (.done last, c) :: rest) := by simp
      rw [e]
      simp only [sendAndWait, Bool.not_true, Bool.false_eq_true, if_false, increments_ok]
      exact ⟨_, rfl⟩

/-- **C72**: incremental results. Each result has exactly what was captured between the answer before and its own; what was
captured before the test, and after the last result, is kept apart. -/
theorem C72_attributed (before : Stdio) (rs : List (TestResult × Stdio)) (last : Option TestResult) (c : Stdio)
    (rest : List Reply) (a : Associated)
    (h : sendAndWait before true ((rs.map (fun x : TestResult × Stdio => (Msg.one x.1, x.2)) ++ [(Msg.done last, c)]).map some ++ rest) = .ok a) :
    a.beforeAny = before ∧
    a.results = rs.map (fun x => { x.1 with stdout := some x.2.stdout, stderr := some x.2.stderr }) ++
      last.toList.map (fun r => { r with stdout := some c.stdout, stderr := some c.stderr }) ∧
    a.afterAll = if last.isSome then none else some c := by
  cases rs with
  | nil =>
    cases last <;> simp [sendAndWait, increments_done] at h <;> subst h <;> simp [attach]
  | cons x rs =>
    have e : (List.map some (List.map (fun x : TestResult × Stdio => (Msg.one x.1, x.2)) (x :: rs) ++ [(.done last, c)]) ++ rest) =
        some (.one x.1, x.2) :: (rs.map (fun x => some (Msg.one x.1, x.2)) ++ some (.done last, c) :: rest) := by simp
    rw [e] at h
    simp only [sendAndWait, Bool.not_true, Bool.false_eq_true, if_false, increments_ok] at h
    cases h
    refine ⟨rfl, ?_, rfl⟩
    simp [attach]

/-- The answers do not put several results, or none, into one message. -/
def OneByOne (answers : List (Msg × Stdio)) : Prop := ∀ rs c, (Msg.multiple rs, c) ∈ answers → rs.length = 1

/-- **C72** (in part): the report of a test has all that was captured from just before it to the last answer, once and in
order, if the native runner does not put several results, or none, into one message.

Missing: messages with several results or none, and tests that end in an error; see `C72_full_statement_fails`. -/
theorem C72_all_reported_partial (before : Stdio) (answers : List (Msg × Stdio)) (rest : List Reply) (a : Associated)
    (hproper : Answers answers) (hone : OneByOne answers)
    (h : sendAndWait before true (answers.map some ++ rest) = .ok a) (w : Which) :
    reportedOutput w a = ofStream w before ++ answers.flatMap (ofStream w ·.2) := by
  cases hproper with
  | single r c =>
    cases h
    cases w <;> simp [reportedOutput, attachAll, attach, ofResult, ofStream]
  | multiple rs c =>
    have hl := hone rs c (by simp)
    obtain ⟨r, rfl⟩ : ∃ r, rs = [r] := by
      match rs, hl with
      | [r], _ => exact ⟨r, rfl⟩
    cases h
    cases w <;> simp [reportedOutput, attachAll, attach, ofResult, ofStream]
  | incremental rs last c =>
    obtain ⟨h1, h2, h3⟩ := C72_attributed before rs last c rest a h
    unfold reportedOutput
    rw [h1, h2, h3]
    cases last <;> cases w <;>
      simp [ofResult, ofStream, List.flatMap_map, List.flatMap_append, Function.comp_def]

/-- **C72**, exactly, for every proper sequence of answers: the report of a test has what was captured before it, and then what was
captured with each answer, as often as the answer has results if it is a message with several or none, and once otherwise. -/
theorem C72_exact (before : Stdio) (answers : List (Msg × Stdio)) (rest : List Reply) (a : Associated)
    (hproper : Answers answers) (h : sendAndWait before true (answers.map some ++ rest) = .ok a) (w : Which) :
    reportedOutput w a =
      ofStream w before ++ answers.flatMap fun x => (List.replicate (timesReported x.1) (ofStream w x.2)).flatten := by
  by_cases hm : ∃ rs c, answers = [(.multiple rs, c)]
  · obtain ⟨rs, c, rfl⟩ := hm
    have ha : a = ⟨rs.map (attach c), before, none⟩ := by
      cases h
      match rs with
      | [] => rfl
      | [r] => rfl
      | r :: r' :: rs => rfl
    subst ha
    have hx : ∀ l : List TestResult, (l.map (attach c)).flatMap (ofResult w) = (List.replicate l.length (ofStream w c)).flatten := by
      intro l
      induction l with
      | nil => rfl
      | cons r l ih =>
        rw [List.map_cons, List.flatMap_cons, ih, List.length_cons, List.replicate_succ, List.flatten_cons]
        cases w <;> rfl
    simp [reportedOutput, timesReported, hx]
  · have hone : OneByOne answers := by
      intro rs c hmem
      cases hproper with
      | single r c' => simp at hmem
      | multiple rs' c' => exact absurd ⟨_, _, rfl⟩ hm
      | incremental rs' last c' => simp at hmem
    rw [C72_all_reported_partial before answers rest a hproper hone h w]
    congr 1
    have hx : ∀ x ∈ answers, timesReported x.1 = 1 := by
      intro x hmem
      cases hproper with
      | single r c' => simp at hmem; rw [hmem]; rfl
      | multiple rs' c' => exact absurd ⟨_, _, rfl⟩ hm
      | incremental rs' last c' =>
        simp only [List.mem_append, List.mem_map, List.mem_singleton] at hmem
        rcases hmem with ⟨y, -, rfl⟩ | rfl <;> rfl
    clear h hproper hm hone
    induction answers with
    | nil => rfl
    | cons x l ih =>
      rw [List.flatMap_cons, List.flatMap_cons, ih (fun y hy => hx y (List.mem_cons_of_mem _ hy)), hx x (List.mem_cons_self ..)]
      simp

/-- A message with two results. -/
example : sendAndWait ⟨[1], []⟩ true [some (.multiple [⟨5, none, none⟩, ⟨6, none, none⟩], ⟨[2], []⟩)] =
    .ok ⟨[⟨5, some [2], some []⟩, ⟨6, some [2], some []⟩], ⟨[1], []⟩, none⟩ := rfl

/-- What `get_captured` and `finish` returned, in order. -/
def takes (evs : List Event) : List Stdio :=
  evs.filterMap fun
    | .captured o e => some ⟨o, e⟩
    | .finished o e _ => some ⟨o, e⟩
    | _ => none

theorem taken_eq_takes (w : Which) (evs : List Event) : taken w evs = (takes evs).flatMap (ofStream w) := by
  unfold taken takes
  induction evs with
  | nil => rfl
  | cons ev evs ih =>
    rw [List.flatMap_cons, ih]
    cases ev <;> cases w <;> simp [takenBy, ofStream]

/-- **C72** (in part): a whole run of a native runner. If all tests are answered properly, one by one, then the output in the
reports of all tests, one after the other, and the final output make up exactly what the native runner wrote (after the header
that announces a retry), byte for byte. Here `tests` has for each test what was captured before it, its answers with what was
captured with them, and its report. -/
theorem C72_whole_run_partial (piped isRetry : Bool) (hd : List Byte) (as : List Act) (hclose : .close ∉ as)
    (tests : List (Stdio × List (Msg × Stdio) × Associated)) (final : Stdio) (o e c : List Byte)
    (hfin : .finished o e c ∈ ((init piped isRetry hd).run as).events)
    (hcap : takes ((init piped isRetry hd).run as).events = tests.flatMap (fun t => t.1 :: t.2.1.map (·.2)) ++ [final])
    (hproper : ∀ t ∈ tests, Answers t.2.1) (hone : ∀ t ∈ tests, OneByOne t.2.1)
    (hrep : ∀ t ∈ tests, sendAndWait t.1 true (t.2.1.map some) = .ok t.2.2) (w : Which) :
    tests.flatMap (fun t => reportedOutput w t.2.2) ++ ofStream w final = expected isRetry hd w as := by
  rw [← C44_all piped isRetry hd as hclose o e c hfin w, taken_eq_takes, hcap, List.flatMap_append]
  congr 1
  · clear hcap hfin
    induction tests with
    | nil => rfl
    | cons t tests ih =>
      rw [List.flatMap_cons, List.flatMap_cons, List.flatMap_append]
      congr 1
      · have := C72_all_reported_partial t.1 t.2.1 [] t.2.2 (hproper t (by simp)) (hone t (by simp))
          (by simpa using hrep t (by simp)) w
        rw [this, List.flatMap_cons, List.flatMap_map]
      · exact ih (fun t h => hproper t (List.mem_cons_of_mem _ h)) (fun t h => hone t (List.mem_cons_of_mem _ h))
          (fun t h => hrep t (List.mem_cons_of_mem _ h))
  · simp

/-- Two tests, one of them with two incremental results. -/
def attributionRun : List Act :=
  [.child .out [1], .read .out (some 9), .write .out (.accept 9), .getCaptured,
   .child .out [2], .read .out (some 9), .write .out (.accept 9), .getCaptured, .getCaptured,
   .child .err [3], .read .err (some 9), .write .err (.accept 9), .getCaptured,
   .child .out [4], .read .out (some 9), .write .out (.accept 9), .getCaptured,
   .childCloses .out, .childCloses .err, .eof .out, .eof .err, .finish]

def attributionTests : List (Stdio × List (Msg × Stdio) × Associated) :=
  [(⟨[1], []⟩, [(.single ⟨5, none, none⟩, ⟨[2], []⟩)], ⟨[⟨5, some [2], some []⟩], ⟨[1], []⟩, none⟩),
   (⟨[], []⟩, [(.one ⟨6, none, none⟩, ⟨[], [3]⟩), (.done none, ⟨[4], []⟩)],
    ⟨[⟨6, some [], some [3]⟩], ⟨[], []⟩, some ⟨[4], []⟩⟩)]

example : Event.finished [] [] [1, 2, 3, 4] ∈ ((init false false []).run attributionRun).events := by decide
example : takes ((init false false []).run attributionRun).events =
    attributionTests.flatMap (fun t => t.1 :: t.2.1.map (·.2)) ++ [⟨[], []⟩] := by decide
example : ∀ t ∈ attributionTests, Answers t.2.1 := by
  intro t ht
  simp only [attributionTests, List.mem_cons, List.not_mem_nil, or_false] at ht
  rcases ht with rfl | rfl
  · exact .single _ _
  · exact .incremental [(_, _)] none _
example : ∀ t ∈ attributionTests, OneByOne t.2.1 := by
  intro t ht rs c hm
  simp only [attributionTests, List.mem_cons, List.not_mem_nil, or_false] at ht
  rcases ht with rfl | rfl <;> simp at hm
example : ∀ t ∈ attributionTests, sendAndWait t.1 true (t.2.1.map some) = .ok t.2.2 := by decide

/-- **C72 fails in full**: of an answer with two results each gets all of the output, so it is reported twice; of an answer with
no result, it is not reported at all. -/
theorem C72_full_statement_fails :
    (¬ ∀ (before : Stdio) (answers : List (Msg × Stdio)) (a : Associated), Answers answers →
      sendAndWait before true (answers.map some) = .ok a →
      (reportedOutput .out a).length ≤ (ofStream .out before ++ answers.flatMap (ofStream .out ·.2)).length) ∧
    (¬ ∀ (before : Stdio) (answers : List (Msg × Stdio)) (a : Associated), Answers answers →
      sendAndWait before true (answers.map some) = .ok a →
      (ofStream .out before ++ answers.flatMap (ofStream .out ·.2)).length ≤ (reportedOutput .out a).length) := by
  constructor
  · intro h
    exact absurd (h ⟨[], []⟩ _ _ (.multiple [⟨1, none, none⟩, ⟨2, none, none⟩] ⟨[7], []⟩) rfl) (by decide)
  · intro h
    exact absurd (h ⟨[], []⟩ _ _ (.multiple [] ⟨[7], []⟩) rfl) (by decide)

end Abq.Props
