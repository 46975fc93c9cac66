import Verif.Spec.ErrorText
import Verif.Props.WorkerExit
/-!
# What a native runner that gives no manifest says is wrong is shown (C136)
-/

namespace Abq.Props
open Abq.ErrorText Abq.Spec.ErrorText Abq.Spec.WorkerExit
open Abq.Protocol (Location OutOfBandError Manifest ManifestMessage)
open Abq.WorkerExit (doShutdown)

theorem mentions_before (t : List Char) {t' : List Char} {ps : List (List Char)} (h : Mentions t' ps) : Mentions (t ++ t') ps := by
  cases h with
  | nothing => exact .nothing
  | @part before p t' ps h =>
    have := Mentions.part (before := t ++ before) (p := p) h
    simpa only [List.append_assoc] using this

theorem mentions_append {t t' : List Char} {ps ps' : List (List Char)} (h : Mentions t ps) (h' : Mentions t' ps') :
    Mentions (t ++ t') (ps ++ ps') := by
  induction h with
  | nothing => exact mentions_before _ h'
  | @part before p t ps _ ih =>
    have := Mentions.part (before := before) (p := p) ih
    simpa only [List.append_assoc, List.cons_append] using this

theorem mentions_after {t : List Char} (t' : List Char) {ps : List (List Char)} (h : Mentions t ps) : Mentions (t ++ t') ps := by
  have := mentions_append h (Mentions.nothing (t := t'))
  rwa [List.append_nil] at this

theorem mentions_one (p : List Char) : Mentions p [p] := by
  have := Mentions.part (before := []) (p := p) (Mentions.nothing (t := []))
  rwa [List.nil_append, List.append_nil] at this

/-- What is mentioned is there, letter by letter. -/
theorem mentions_mem {t : List Char} {ps : List (List Char)} (h : Mentions t ps) : ∀ p ∈ ps, ∀ c ∈ p, c ∈ t := by
  induction h with
  | nothing => intro p hp; cases hp
  | @part before p t ps _ ih =>
    intro q hq c hc
    rcases List.mem_cons.1 hq with rfl | hq
    · simp [hc]
    · simp [ih q hq c hc]

theorem location_mentions {l : Location} (h : l.column.isSome → l.line.isSome) : Mentions (locationText l) (placeParts l) := by
  obtain ⟨file, line, column⟩ := l
  have hf := mentions_one file.toList
  unfold locationText placeParts number
  cases line with
  | none =>
    cases column with
    | none => exact mentions_after _ hf
    | some c => exact absurd (h rfl) Bool.false_ne_true
  | some n =>
    refine mentions_append (ps := [_]) hf ?_
    cases column with
    | none => exact mentions_after _ (mentions_after _ (mentions_before _ (mentions_one _)))
    | some c =>
      refine mentions_after _ (mentions_append (ps := [_]) (mentions_before _ (mentions_one _)) (mentions_before _ (mentions_one _)))

/-- The text of an error has all its parts. -/
theorem oob_mentions {e : OutOfBandError} (h : ∀ l, e.location = some l → l.column.isSome → l.line.isSome) :
    Mentions (oobText e) (parts e) := by
  obtain ⟨message, backtrace, exception, location, metadata⟩ := e
  unfold oobText parts
  have hm := mentions_one message.toList
  have he : Mentions (exceptionText exception) (exception.toList.map String.toList) := by
    cases exception with
    | none => exact .nothing
    | some x => exact mentions_before _ (mentions_one _)
  have hl : Mentions (whereText location) (location.toList.flatMap placeParts) := by
    cases location with
    | none => exact .nothing
    | some l =>
      have := mentions_before " at ".toList (location_mentions (h l rfl))
      simpa [whereText] using this
  have hb : ∀ bs : List String, Mentions (bs.flatMap fun b => "\n".toList ++ b.toList) (bs.map String.toList) := by
    intro bs
    induction bs with
    | nil => exact .nothing
    | cons b bs ih =>
      rw [List.flatMap_cons]
      exact mentions_append (ps := [_]) (mentions_before _ (mentions_one _)) ih
  have := mentions_append (mentions_append (mentions_append hm he) hl) (hb (backtrace.getD []))
  simpa only [List.append_assoc, List.cons_append, List.nil_append] using this

theorem mem_messages {js : List Pool.Joined} {e : Pool.RunnerError} (h : .err e ∈ js) : e.message ∈ Pool.messages js := by
  induction js with
  | nil => cases h
  | cons j js ih =>
    rcases List.mem_cons.1 h with rfl | h1
    · exact List.mem_cons_self ..
    · cases j with
      | ok x => exact ih h1
      | err x => exact List.mem_cons_of_mem _ (ih h1)
      | panicked => exact ih h1

/-- C136 (partial): a native runner that says it has no manifest says why. Then the queue is told so, and `abq test`, if what it prints is
taken, prints a text with all of it: message, exception, place and backtrace, in this order; and it exits with 101, if it does. `here`
and `read` are places in the code of abq. Missing: errors with a column and no line, and errors beside the first
(`C136_full_statement_fails`). -/
theorem C136_failure_shown_partial (here read : Place) {e : OutOfBandError} (others : Option (List OutOfBandError))
    (h : ∀ l, e.location = some l → l.column.isSome → l.line.isSome) :
    ∃ text, retrieve here read (.ok (.failure e others)) = .error text ∧ Mentions text (parts e) ∧
      (∀ v s out, ∃ m, sent v s out (.error text) = .runnerError m out ∧ m.toList = text) ∧
      ∀ out info, ∃ j, joined out info (.error text) = some j ∧
        ∀ push specs blank a js reporting ok replies, j ∈ js →
          (∀ suite reporters, .panicked ∉ js → reporting = .finished suite reporters → (∀ n, ok n = true) →
            ∃ m, .workerError m ∈ pieces (doShutdown push specs blank a js reporting ok replies).1 ∧ m.toList = text) ∧
          ∀ c, (doShutdown push specs blank a js reporting ok replies).2 = .exited c → c = 101 := by
  refine ⟨_, rfl, ?_, fun _ _ _ => ⟨_, rfl, String.toList_ofList⟩, fun out info => ⟨_, rfl, ?_⟩⟩
  · unfold locatedText
    simp only [List.append_assoc]
    exact mentions_after _ (oob_mentions h)
  · intro push specs blank a js reporting ok replies hj
    have hm := mem_messages hj
    constructor
    · intro suite reporters hp hr hw
      obtain ⟨evs, he, -, -, -, -, herr, -⟩ := C109_printed push specs blank a js reporting ok replies suite reporters hp hr hw
      rw [← herr] at hm
      unfold workerErrors at hm
      obtain ⟨p, hp, hq⟩ := List.mem_filterMap.1 hm
      rw [he]
      refine ⟨_, ?_, String.toList_ofList⟩
      cases p with
      | workerError m =>
        cases hq
        exact hp
      | _ => cases hq
    · intro c hc
      obtain ⟨_, _, _, _, he⟩ := C109_exit_code push specs blank a js reporting ok replies c hc
      rw [he, if_neg]
      intro h0
      rw [h0] at hm
      cases hm

/-- A native runner that cannot load a file. -/
def cannotLoad : OutOfBandError :=
  ⟨"cannot load", some ["at load", "at main"], some "SyntaxError", some ⟨"a.js", some 3, some 7⟩, none⟩

example : oobText cannotLoad = "cannot load".toList ++ "\n\nSyntaxError at".toList ++ " a.js[3:7]\nat load".toList ++ "\nat main".toList := by
  decide

example : ∀ l, cannotLoad.location = some l → l.column.isSome → l.line.isSome := by
  intro l h _
  cases h
  rfl

/-- C136, all of it: whatever is said of an error, and of the others. -/
def C136_failure_shown_full : Prop :=
  ∀ here read e others, ∃ text, retrieve here read (.ok (.failure e others)) = .error text ∧
    ∀ x ∈ e :: others.getD [], Mentions text (parts x)

/-- C136 does not hold in full: errors beside the first are not shown, and a column without a line is not. -/
theorem C136_full_statement_fails : ¬ C136_failure_shown_full ∧
    (∃ here read e others text, retrieve here read (.ok (.failure e (some others))) = .error text ∧
      ∃ x ∈ others, ¬ Mentions text (parts x)) ∧
    ∃ here read e text, retrieve here read (.ok (.failure e none)) = .error text ∧ ¬ Mentions text (parts e) := by
  have a : ∃ here read e others text, retrieve here read (.ok (.failure e (some others))) = .error text ∧
      ∃ x ∈ others, ¬ Mentions text (parts x) := by
    refine ⟨⟨"lib.rs", 177, 29⟩, ⟨"lib.rs", 208, 18⟩, ⟨"one", none, none, none, none⟩, [⟨"two", none, none, none, none⟩], _, rfl, _,
      List.mem_singleton.2 rfl, fun h => ?_⟩
    exact absurd (mentions_mem h "two".toList (by decide) 'w' (by decide)) (by decide)
  refine ⟨fun h => ?_, a, ?_⟩
  · obtain ⟨here, read, e, others, text, h1, x, hx, hn⟩ := a
    obtain ⟨text', h2, h3⟩ := h here read e (some others)
    rw [h1] at h2
    cases h2
    exact hn (h3 x (List.mem_cons_of_mem _ hx))
  · refine ⟨⟨"lib.rs", 177, 29⟩, ⟨"lib.rs", 208, 18⟩, ⟨"one", none, none, some ⟨"a.js", none, some 6⟩, none⟩, _, rfl, fun h => ?_⟩
    exact absurd (mentions_mem h "6".toList (by decide) '6' (by decide)) (by decide)

end Abq.Props
