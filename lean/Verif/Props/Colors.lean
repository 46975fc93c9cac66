import Verif.Proof.Colors

/-!
# C138: colours

What a terminal shows of what the reporters and reports write with colours, and when they write colours.
-/

namespace Abq.Props
open Abq.Spec.Colors Abq.ColorsProof
open Abq.Colors (Op Style Color Env Choice Provider written)
open Abq.Terminal (Text Call)

/-- **C138**, the same text. Without colours, what the reporters and the reports write is the text that C87 and C88 are about; it has no codes
that are not in the texts given to them. -/
theorem C138_plain (calls : List Call) (interactive : Bool) (g : Output.Grouping) (wallTime testTime : Text) (s : Summary.SuiteResult)
    (results : List Output.Shown) :
    written false (Colors.dots calls) = Terminal.dots calls ∧
    written false (Colors.lines calls) = Terminal.lines calls ∧
    written false (Colors.progress interactive calls) = (Terminal.progress interactive calls).text ∧
    written false (Colors.shortSummary g wallTime testTime s) = Output.shortSummary g wallTime testTime s ∧
    written false (Colors.printReport wallTime testTime s results) = Output.printReport wallTime testTime s results :=
  ⟨plain_dots calls, plain_lines calls, plain_progress interactive calls, plain_summary g wallTime testTime s, by
    unfold Colors.printReport Output.printReport
    rw [written_append, plain_failures, plain_summary]⟩

/-- **C138**, the same text on a terminal. If the names, outputs and times have no codes themselves, a terminal shows of what is written with
colours exactly the text that is written without, and is left in its normal style. -/
theorem C138_shown_partial (calls : List Call) (interactive : Bool) (g : Output.Grouping) (wallTime testTime : Text) (s : Summary.SuiteResult)
    (results : List Output.Shown) :
    (NoCodes (Terminal.dots calls) →
      shown (written true (Colors.dots calls)) = Terminal.dots calls ∧ LeavesNormal (written true (Colors.dots calls))) ∧
    (NoCodes (Terminal.lines calls) →
      shown (written true (Colors.lines calls)) = Terminal.lines calls ∧ LeavesNormal (written true (Colors.lines calls))) ∧
    (NoCodes (Terminal.progress interactive calls).text →
      shown (written true (Colors.progress interactive calls)) = (Terminal.progress interactive calls).text ∧
      LeavesNormal (written true (Colors.progress interactive calls))) ∧
    (NoCodes (Output.shortSummary g wallTime testTime s) →
      shown (written true (Colors.shortSummary g wallTime testTime s)) = Output.shortSummary g wallTime testTime s ∧
      LeavesNormal (written true (Colors.shortSummary g wallTime testTime s))) ∧
    (NoCodes (Output.printReport wallTime testTime s results) →
      shown (written true (Colors.printReport wallTime testTime s results)) = Output.printReport wallTime testTime s results ∧
      LeavesNormal (written true (Colors.printReport wallTime testTime s results))) := by
  obtain ⟨h1, h2, h3, h4, h5⟩ := C138_plain calls interactive g wallTime testTime s results
  refine ⟨fun h => ?_, fun h => ?_, fun h => ?_, fun h => ?_, fun h => ?_⟩
  · rw [← h1] at h ⊢; exact shows (tidy_dotsFrom calls 0) h
  · rw [← h2] at h ⊢; exact shows (tidy_lines calls) h
  · rw [← h3] at h ⊢; exact shows (tidy_flatMap tidy_piece _) h
  · rw [← h4] at h ⊢; exact shows (tidy_summary g wallTime testTime s) h
  · rw [← h5] at h ⊢; exact shows (tidy_append (tidy_failures results false) (tidy_summary _ wallTime testTime s)) h

/-- A passing and a failing test. -/
def colourCalls : List Call :=
  [.push 1 ⟨"1", "a".toList, .success, none, none, none⟩, .tick "1s".toList, .push 1 ⟨"2", "b".toList, .failure, some "no".toList, none, none⟩]

example : NoCodes (Terminal.dots colourCalls) ∧ NoCodes (Terminal.lines colourCalls) := by unfold NoCodes; decide
example : String.ofList (written true (Colors.dots colourCalls)) = "\x1B[0m\x1B[32m.\x1B[0m\x1B[0m\x1B[31mF\x1B[0m\n" := by decide

/-- **C138**, one result. On the screen the name of a test is in the normal style and the word for its status in the colour of that status:
green for a success, red for a failure, yellow for a test that did not run. The dot of a result has that colour too. -/
theorem C138_result (r : Terminal.Result) (h : NoCodes r.name) :
    screen normal (written true (Colors.resultLine r)) =
      ((r.name ++ ": ".toList).map (·, normal) ++ (Terminal.statusText r.status).map (·, ⟨some (colourOf r.status), false⟩) ++ [('\n', normal)],
        normal) ∧
    screen normal (written true (Colors.resultDot r.status)) = ([(Terminal.dot r.status, ⟨some (colourOf r.status), false⟩)], normal) := by
  have hc : Colors.statusColor r.status = colourOf r.status := by cases r.status <;> rfl
  constructor
  · rw [screen_ops]
    · simp only [Colors.resultLine, Colors.status, Colors.withColor, Colors.withSpec, hc]
      simp only [look, fin, List.cons_append, List.nil_append, List.append_nil, List.append_assoc, List.map_cons, List.map_nil]
    · rw [plain_resultLine]
      have hs : ∀ s, NoCodes (": ".toList ++ Terminal.statusText s ++ ['\n']) := by intro s; unfold NoCodes; cases s <;> decide
      have := hs r.status
      simp only [NoCodes, Terminal.resultLine, List.mem_append, not_or] at this h ⊢
      exact ⟨⟨⟨h, this.1.1⟩, this.1.2⟩, this.2⟩
  · rw [screen_ops]
    · simp only [Colors.resultDot, Colors.withColor, Colors.withSpec, hc]
      rfl
    · unfold NoCodes; cases r.status <;> decide

example : NoCodes "a test".toList := by unfold NoCodes; decide

/-- **C138**, red. Something red is on the screen exactly if a test failed: for the reporters, if a failed result was given to them; for the
summary of a run, if it counts a failed test; for a report, if it does or if there is a failed result. -/
theorem C138_red_partial (calls : List Call) (interactive : Bool) (g : Output.Grouping) (wallTime testTime : Text) (s : Summary.SuiteResult)
    (results : List Output.Shown) :
    (NoCodes (Terminal.dots calls) →
      (Red (written true (Colors.dots calls)) ↔ ∃ n r, .push n r ∈ calls ∧ Failed r.status)) ∧
    (NoCodes (Terminal.lines calls) →
      (Red (written true (Colors.lines calls)) ↔ ∃ n r, .push n r ∈ calls ∧ Failed r.status)) ∧
    (NoCodes (Terminal.progress interactive calls).text →
      (Red (written true (Colors.progress interactive calls)) ↔ ∃ n r, .push n r ∈ calls ∧ Failed r.status)) ∧
    (NoCodes (Output.shortSummary g wallTime testTime s) →
      (Red (written true (Colors.shortSummary g wallTime testTime s)) ↔ 0 < s.countFailed)) ∧
    (NoCodes (Output.printReport wallTime testTime s results) →
      (Red (written true (Colors.printReport wallTime testTime s results)) ↔ (∃ r ∈ results, Failed r.status) ∨ 0 < s.countFailed)) := by
  obtain ⟨h1, h2, h3, h4, h5⟩ := C138_plain calls interactive g wallTime testTime s results
  refine ⟨fun h => ?_, fun h => ?_, fun h => ?_, fun h => ?_, fun h => ?_⟩
  · rw [← h1] at h; rw [red_iff h]; exact red_dots calls 0
  · rw [← h2] at h; rw [red_iff h]; exact red_lines calls
  · rw [← h3] at h; rw [red_iff h]; exact red_progress interactive calls
  · rw [← h4] at h; rw [red_iff h]; exact red_summary g wallTime testTime s
  · rw [← h5] at h
    rw [red_iff h, Colors.printReport, red_append (tidy_failures results false), red_failures, red_summary]

example : ∃ n r, Call.push n r ∈ colourCalls ∧ Failed r.status := ⟨1, ⟨"2", "b".toList, .failure, some "no".toList, none, none⟩, by decide, trivial⟩

/-- **C138**, the progress bar. Its message with colours is shown as its message without, the terminal is left in its normal style, and there
is something red exactly if a test failed. -/
theorem C138_bar (elapsed : Text) (run passed failing : Nat) (h : NoCodes (Colors.bar .noColor elapsed run passed failing)) :
    shown (Colors.bar .ansi elapsed run passed failing) = Colors.bar .noColor elapsed run passed failing ∧
    LeavesNormal (Colors.bar .ansi elapsed run passed failing) ∧
    (Red (Colors.bar .ansi elapsed run passed failing) ↔ 0 < failing) := by
  obtain ⟨t1, t2, t3, t4, t5, nl, hne, hb⟩ := bar_groups elapsed run passed failing
  have e : (if failing = 0 then Provider.noColor.reset else Provider.noColor.redBold) = [] := by split <;> rfl
  have e1 : Provider.noColor.bold = [] := rfl
  have e2 : Provider.noColor.reset = [] := rfl
  have e3 : Provider.noColor.greenBold = [] := rfl
  have hn := hb .noColor
  rw [e, e1, e2, e3, List.nil_append] at hn
  simp only [List.append_nil] at hn
  have hs := bar_screen t1 t2 t3 t4 t5 nl failing (hn ▸ h)
  unfold shown LeavesNormal Red
  rw [hb .ansi, hs, hn]
  refine ⟨?_, rfl, ?_⟩
  · simp only [List.map_append, List.map_map, Function.comp_def, List.map_id']
  · cases t5 with
    | nil => exact absurd rfl hne
    | cons c t5 =>
      simp only [List.mem_append, List.mem_map]
      constructor
      · rintro ⟨y, hy, hr⟩
        refine Nat.pos_of_ne_zero fun e => ?_
        simp only [e, if_true] at hy
        rcases hy with ((((((⟨_, _, rfl⟩ | ⟨_, _, rfl⟩) | ⟨_, _, rfl⟩) | ⟨_, _, rfl⟩) | ⟨_, _, rfl⟩) | ⟨_, _, rfl⟩) | ⟨_, _, rfl⟩) | ⟨_, _, rfl⟩ <;>
          cases hr
      · intro hf
        refine ⟨(c, ⟨some .red, true⟩), ?_, rfl⟩
        rw [if_neg (Nat.pos_iff_ne_zero.1 hf)]
        exact .inl (.inr ⟨c, List.mem_cons_self, rfl⟩)

example : NoCodes (Colors.bar .noColor "2s".toList 3 2 1) := by unfold NoCodes; decide

/-- **C138**, warnings. A warning is shown bold and yellow as a whole, and the terminal is left in its normal style. -/
theorem C138_warning (message : Text) (h : NoCodes message) :
    screen normal (written true (Colors.warnLine message)) =
      (("WARNING: ".toList ++ message ++ ['\n']).map (·, ⟨some .yellow, true⟩), normal) ∧
    written false (Colors.warnLine message) = "WARNING: ".toList ++ message ++ ['\n'] := by
  have hp : written false (Colors.warnLine message) = "WARNING: ".toList ++ message ++ ['\n'] := by
    unfold Colors.warnLine
    generalize "WARNING: ".toList = w
    simp [written, Op.plain]
  refine ⟨?_, hp⟩
  rw [screen_ops]
  · simp only [Colors.warnLine, Colors.yellowBoldSpec, look, fin, List.map_append, List.append_nil, List.append_assoc]
  · rw [hp]
    have hw : NoCodes "WARNING: ".toList := by unfold NoCodes; decide
    simp only [NoCodes, List.mem_append, not_or] at h hw ⊢
    exact ⟨⟨hw, h⟩, by decide⟩

/-- **C138**, when. What is written to standard output has colours exactly if `--color` is `auto` and standard output shows them: it is a
terminal or the log of a CI service known to show colours, `TERM` is set and is not `dumb`, and `NO_COLOR` is not set. -/
theorem C138_when (e : Env) (pref : Options.Color) : e.attempt (e.choice pref) = true ↔ pref = .auto ∧ ShowsColours e := by
  obtain ⟨out, err, gh, bk, ci, term, nc⟩ := e
  cases pref
  · cases out <;> simp only [Env.choice, Env.ciColorTerm, ShowsColours, true_and, Bool.true_or, Bool.false_or, if_true, true_or,
      Bool.false_eq_true, false_or]
    · by_cases h : gh = some "true" ∨ bk = some "true" ∨ ci = some "true"
      · have h' : (decide (gh = some "true") || decide (bk = some "true") || decide (ci = some "true")) = true := by
          simp only [Bool.or_eq_true, decide_eq_true_eq, or_assoc]; exact h
        rw [if_pos h']
        simp only [h, true_and, Env.attempt]
        cases term with
        | none => simp
        | some t => by_cases ht : t = "dumb" <;> simp [ht]
      · have h' : ¬ (decide (gh = some "true") || decide (bk = some "true") || decide (ci = some "true")) = true := by
          simp only [Bool.or_eq_true, decide_eq_true_eq, or_assoc]; exact h
        rw [if_neg h']
        simp only [h, false_and, Env.attempt, Bool.false_eq_true]
    · simp only [Env.attempt]
      cases term with
      | none => simp
      | some t => by_cases ht : t = "dumb" <;> simp [ht]
  · simp [Env.choice, Env.attempt]

/-- A terminal. -/
def terminalEnv : Env := ⟨true, true, none, none, none, some "xterm", none⟩

example : ShowsColours terminalEnv := ⟨.inl rfl, ⟨"xterm", rfl, by decide⟩, rfl⟩

/-- **C138**, never. With `--color never` nothing that abq writes has a code of its own: what goes to a stream is what is written without
colours, and so is the message of the progress bar. -/
theorem C138_never (e : Env) (ops : List Op) (elapsed : Text) (run passed failing : Nat) :
    written (e.attempt (e.choice .never)) ops = written false ops ∧
    Colors.bar (e.choice .never).provider elapsed run passed failing = Colors.bar .noColor elapsed run passed failing :=
  ⟨rfl, rfl⟩

/-- **C138**, the full statement fails. The progress bar has colours although `NO_COLOR` is set; what is written to standard error has colours
although standard error is no terminal, if standard output is one; and a test whose output ends in a code for a colour leaves the terminal in
that colour. -/
theorem C138_full_statement_fails :
    (∃ e : Env, ¬ ShowsColours e ∧ ¬ NoCodes (Colors.bar (e.choice .auto).provider "1s".toList 0 0 0)) ∧
    (∃ e : Env, e.stderrTty = false ∧ ¬ NoCodes (written (e.attempt (e.choice .auto)) (Colors.warnLine "late".toList))) ∧
    (∃ r : Output.Shown, ¬ LeavesNormal (written true (Colors.resultSummary r))) := by
  refine ⟨⟨{ terminalEnv with noColor := some "1" }, (fun h => nomatch h.2.2), fun h => h (by decide)⟩,
    ⟨{ terminalEnv with stderrTty := false }, rfl, fun h => h (by decide)⟩, ?_⟩
  refine ⟨⟨1, "a".toList, .failure, 0, none, some "\x1B[31mx".toList, none⟩, ?_⟩
  unfold LeavesNormal
  decide

end Abq.Props
