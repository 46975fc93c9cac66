import Verif.Spec.LostTests
import Verif.Props.Messages

/-!
# C123: what is reported of tests that are lost with their native runner
-/

namespace Abq.Props
open Abq.Spec Abq.Spec.Messages Abq.Messages Abq.Protocol Abq.LostTests
open Abq.JsonText (Floats)

/-- **C123**: the test at hand and every test that was still to be run are reported exactly once, in order, each as one internal
error under a name of its own (if the random ids differ), with the output that was captured. -/
theorem C123_each_once_partial (decode : List UInt8 → List Char) (source : RunnerMeta) (program : String) (args : List String) (cause : Cause)
    (out : Stdio) (ms : Nat) (failedOn : List Nat) (runNumber : Nat) (remaining : List (List Nat)) (uuids : Nat → String)
    (hu : ∀ i j, uuids i = uuids j → i = j) :
    let rs := reports decode source program args cause out ms failedOn runNumber remaining uuids
    rs.map (·.workId) = failedOn :: remaining ∧
    (∀ a ∈ rs, a.runNumber = runNumber ∧ a.beforeAnyTest = out ∧ a.afterAllTests = none ∧ ∃ r, a.results = [r] ∧ r.source = source ∧
      (fieldsOf r.result).status = .privateNativeRunnerError ∧ (fieldsOf r.result).runtime = .milliseconds (toString ms ++ ".0")) ∧
    (rs.flatMap fun a => a.results.map fun r => (fieldsOf r.result).id).Nodup := by
  intro rs
  refine ⟨?_, ?_, ?_⟩
  · show (List.mapIdx _ (failedOn :: remaining)).map _ = failedOn :: remaining
    generalize failedOn :: remaining = l
    exact List.ext_getElem (by simp) (fun i h1 h2 => by simp)
  · intro a ha
    obtain ⟨i, hi, rfl⟩ := List.mem_mapIdx.1 ha
    exact ⟨rfl, rfl, rfl, _, rfl, rfl, rfl, rfl⟩
  · have e : (rs.flatMap fun a => a.results.map fun r => (fieldsOf r.result).id) =
        (List.range (failedOn :: remaining).length).map fun i => "internal-error-" ++ uuids i := by
      show (List.mapIdx _ _).flatMap _ = _
      rw [List.mapIdx_eq_zipIdx_map, List.flatMap_map]
      simp only [result, List.map_cons, List.map_nil, fieldsOf]
      rw [← List.map_eq_flatMap]
      generalize failedOn :: remaining = l
      refine List.ext_getElem (by simp) (fun i h1 h2 => by simp)
    rw [e]
    refine List.Pairwise.map (R := (· ≠ ·)) _ ?_ List.nodup_range
    intro i j hij h
    apply hij
    apply hu
    have := congrArg String.toList h
    simp only [String.toList_append] at this
    exact String.toList_inj.1 (List.append_cancel_left this)

/-- **C123**: the message of the report starts with what happened and has the command, why it failed, what was captured of its output, and the runner. -/
theorem C123_message (decode : List UInt8 → List Char) (source : RunnerMeta) (program : String) (args : List String) (cause : Cause)
    (out : Stdio) (ms : Nat) (failedOn : List Nat) (runNumber : Nat) (remaining : List (List Nat)) (uuids : Nat → String) :
    ∀ a ∈ reports decode source program args cause out ms failedOn runNumber remaining uuids, ∀ r ∈ a.results,
      ∃ m, (fieldsOf r.result).output = some m ∧
        Explains m.toList
          (match cause with
            | .timedOut _ => "-- Test Timeout --\n\n".toList
            | _ => "-- Unexpected Test Runner Failure --\n\n".toList)
          (" ".intercalate (program :: args)).toList
          (match cause with
            | .timedOut s => "timed out while running a test after ".toList ++ (toString s).toList ++ " seconds.".toList
            | _ => "stopped communicating with its abq worker before completing all test requests.".toList)
          (decode out.stdout) (decode out.stderr)
          ("worker ".toList ++ (toString source.runner.worker).toList ++ ", runner ".toList ++ (toString source.runner.runner).toList) := by
  intro a ha r hr
  obtain ⟨i, hi, rfl⟩ := List.mem_mapIdx.1 ha
  rw [List.mem_singleton] at hr
  subst hr
  refine ⟨_, rfl, ?_⟩
  rw [String.toList_ofList]
  cases cause with
  | timedOut s =>
    refine ⟨"The test command\n\n".toList ++ "    ".toList, "\n\n".toList, "\n".toList ++ "\n".toList ++
      "Here's the standard output/error we found for the failing command.\n\nStdout:\n\n".toList, "\n\nStderr:\n\n".toList,
      "\n\nPlease see ".toList, " for more details.\n".toList, ?_⟩
    unfold message reason command runnerText
    generalize (" ".intercalate (program :: args)).toList = cmd
    simp only
    simp only [List.append_assoc]
  | _ =>
    refine ⟨"The test command\n\n".toList ++ "    ".toList, "\n\n".toList,
      "\n".toList ++ "\n".toList ++
      "Here's the standard output/error we found for the failing command.\n\nStdout:\n\n".toList, "\n\nStderr:\n\n".toList,
      "\n\nPlease see ".toList, " for more details.\n".toList, ?_⟩
    unfold message reason command runnerText
    generalize (" ".intercalate (program :: args)).toList = cmd
    simp only
    simp only [List.append_assoc]

/-- **C123**: the reports reach the queue as they are (with C101), if the number of milliseconds is read as it is printed. -/
theorem C123_received (f : Floats) (e : RunStateDoc.Entity) (he : EntityOk e) (run : String) (decode : List UInt8 → List Char)
    (source : RunnerMeta) (hs : source.runner.worker < 2 ^ 32 ∧ source.runner.runner < 2 ^ 32) (program : String) (args : List String)
    (cause : Cause) (out : Stdio) (ms : Nat) (hms : Abq.Spec.JsonText.FloatKept f (toString ms ++ ".0")) (failedOn : List Nat) (runNumber : Nat)
    (hn : runNumber < 2 ^ 32) (remaining : List (List Nat)) (hw : ∀ w ∈ failedOn :: remaining, Bytes 16 w) (uuids : Nat → String) :
    let m := Request.mk e (.workerResult run (reports decode source program args cause out ms failedOn runNumber remaining uuids))
    receive decRequest f (send encRequest m) = some m := by
  intro m
  refine C101_request_received_partial f m ⟨he, ?_⟩ ?_
  · intro a ha
    obtain ⟨i, hi, rfl⟩ := List.mem_mapIdx.1 ha
    refine ⟨hw _ (List.getElem_mem ..), hn, ?_⟩
    intro r hr
    rw [List.mem_singleton] at hr
    subst hr
    refine ⟨hs.1, hs.2, hms, (by show (0 : Nat) < 2 ^ 64; decide), trivial, ?_, nofun⟩
    intro l hl
    cases hl
    exact ⟨fun n hn => by cases hn; show (10 : Nat) < 2 ^ 64; decide, fun n hn => by cases hn; show (15 : Nat) < 2 ^ 64; decide⟩
  · intro a ha r hr
    obtain ⟨i, hi, rfl⟩ := List.mem_mapIdx.1 ha
    rw [List.mem_singleton] at hr
    subst hr
    unfold result
    rw [height]
    show fieldsHeight _ ≤ 120
    have h : fieldsHeight { fake with status := .privateNativeRunnerError, metadata := [] } ≤ 120 := by decide
    exact h

/-- **C123** fails: in every such report there is something made up, whatever was captured. -/
theorem C123_made_up (decode : List UInt8 → List Char) (source : RunnerMeta) (program : String) (args : List String) (cause : Cause)
    (out : Stdio) (ms : Nat) (failedOn : List Nat) (runNumber : Nat) (remaining : List (List Nat)) (uuids : Nat → String) :
    ∀ a ∈ reports decode source program args cause out ms failedOn runNumber remaining uuids, ∀ r ∈ a.results,
      ¬ NothingMadeUp out r.result := by
  intro a ha r hr
  obtain ⟨i, hi, rfl⟩ := List.mem_mapIdx.1 ha
  rw [List.mem_singleton] at hr
  subst hr
  rintro ⟨_, _, h, _⟩
  cases h

/-- **C123** fails in full. -/
theorem C123_full_statement_fails :
    ¬ ∀ (decode : List UInt8 → List Char) (source : RunnerMeta) (program : String) (args : List String) (cause : Cause) (out : Stdio)
        (ms : Nat) (failedOn : List Nat) (runNumber : Nat) (remaining : List (List Nat)) (uuids : Nat → String),
      ∀ a ∈ reports decode source program args cause out ms failedOn runNumber remaining uuids, ∀ r ∈ a.results,
        NothingMadeUp out r.result := by
  intro h
  have hk := h (fun _ => []) ⟨⟨0, 1⟩, true, true⟩ "jest" [] .io ⟨[], []⟩ 3 [] 1 [] toString
  have hn := C123_made_up (fun _ => []) ⟨⟨0, 1⟩, true, true⟩ "jest" [] .io ⟨[], []⟩ 3 [] 1 [] toString
  have hm : ∀ l : List Associated, (∃ a ∈ l, ∃ r, r ∈ a.results) → (∀ a ∈ l, ∀ r ∈ a.results, NothingMadeUp ⟨[], []⟩ r.result) →
      ¬ ∀ a ∈ l, ∀ r ∈ a.results, ¬ NothingMadeUp ⟨[], []⟩ r.result := by
    rintro l ⟨a, ha, r, hr⟩ h1 h2
    exact h2 a ha r hr (h1 a ha r hr)
  exact hm _ ⟨_, List.mem_cons_self .., _, List.mem_cons_self ..⟩ hk hn

/-- **C123**: what a user sees: at the end of each such report are, under the headings of the test's standard output and error, two
texts that no program wrote. (Text of these bytes is what it looks like in any encoding that extends ASCII.) -/
theorem C123_shown (decode : List UInt8 → List Char) (h1 : decode [109, 121, 32, 115, 116, 100, 101, 114, 114] = "my stderr".toList)
    (h2 : decode [109, 121, 32, 115, 116, 100, 111, 117, 116] = "my stdout".toList)
    (source : RunnerMeta) (program : String) (args : List String) (cause : Cause)
    (out : Stdio) (ms : Nat) (failedOn : List Nat) (runNumber : Nat) (remaining : List (List Nat)) (uuids : Nat → String) :
    ∀ a ∈ reports decode source program args cause out ms failedOn runNumber remaining uuids, ∀ r ∈ a.results,
      "------ STDOUT\nmy stderr\n------ STDERR\nmy stdout\n".toList <:+ Output.resultSummary (shown decode a.runNumber r) := by
  intro a ha r hr
  obtain ⟨i, hi, rfl⟩ := List.mem_mapIdx.1 ha
  rw [List.mem_singleton] at hr
  subst hr
  have e1 : (shown decode runNumber (result source (uuids i) (message decode program args cause out source.runner) ms)).stdout =
      some "my stderr".toList := by
    show some (decode _) = _
    exact congrArg some h1
  have e2 : (shown decode runNumber (result source (uuids i) (message decode program args cause out source.runner) ms)).stderr =
      some "my stdout".toList := by
    show some (decode _) = _
    exact congrArg some h2
  unfold Output.resultSummary
  rw [e1, e2, List.append_assoc (bs := Output.captured _ _)]
  exact List.suffix_append_of_suffix (List.suffix_refl _)

example : (Output.resultSummary (shown (fun b => b.map fun c => Char.ofNat c.toNat) 1
    (result ⟨⟨3, 1⟩, true, true⟩ "0" ['o', 'h'] 5))) =
    "--- <internal test runner error>: ERRORED --- [worker 3]\noh\n------ STDOUT\nmy stderr\n------ STDERR\nmy stdout\n".toList := by
  decide

end Abq.Props
