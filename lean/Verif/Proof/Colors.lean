import Verif.Spec.Colors

/-! # Lemmas about colours -/

namespace Abq.ColorsProof
open Abq.Colors Abq.Spec.Colors
open Abq.Terminal (Text Call)
open Abq.Summary (Status)

theorem screen_char (s : Style) (c : Char) (rest : Text) (h : c ≠ '\x1B') :
    screen s (c :: rest) = ((c, s) :: (screen s rest).1, (screen s rest).2) := by
  rw [screen]
  all_goals intros; simp_all

theorem screen_text (s : Style) (t rest : Text) (h : NoCodes t) :
    screen s (t ++ rest) = (t.map (·, s) ++ (screen s rest).1, (screen s rest).2) := by
  induction t with
  | nil => rfl
  | cons c t ih =>
    rw [List.cons_append, screen_char s c _ (fun e => h (e ▸ List.mem_cons_self)), ih fun e => h (List.mem_cons_of_mem _ e)]
    rfl

theorem screen_reset (s : Style) (rest : Text) : screen s ("\x1B[0m".toList ++ rest) = screen normal rest := by simp [screen]

theorem screen_bold (s : Style) (rest : Text) : screen s ("\x1B[1m".toList ++ rest) = screen { s with bold := true } rest := by
  simp [screen]

theorem screen_fg (s : Style) (c : Color) (rest : Text) : screen s (c.code ++ rest) = screen { s with fg := some c } rest := by
  cases c <;> simp [screen, Color.code]

theorem screen_set (s st : Style) (rest : Text) : screen s ((Op.set st).ansi ++ rest) = screen st rest := by
  obtain ⟨fg, bold⟩ := st
  simp only [Op.ansi, List.append_assoc, screen_reset]
  cases bold <;> cases fg <;> simp only [Bool.false_eq_true, if_false, if_true, List.nil_append, Option.map_none, Option.map_some,
    Option.getD_none, Option.getD_some, screen_bold, screen_fg] <;> rfl

/-- What a terminal in a style shows of some writes. -/
def look : Style → List Op → List (Char × Style)
  | _, [] => []
  | s, .text t :: ops => t.map (·, s) ++ look s ops
  | _, .set st :: ops => look st ops
  | _, .reset :: ops => look normal ops

/-- The style it is in then. -/
def fin : Style → List Op → Style
  | s, [] => s
  | s, .text _ :: ops => fin s ops
  | _, .set st :: ops => fin st ops
  | _, .reset :: ops => fin normal ops

theorem written_cons (z : Bool) (op : Op) (ops : List Op) :
    written z (op :: ops) = (if z then op.ansi else op.plain) ++ written z ops := by
  cases z <;> rfl

theorem written_append (z : Bool) (a b : List Op) : written z (a ++ b) = written z a ++ written z b := by
  simp [written]

theorem screen_ops (ops : List Op) : ∀ s, NoCodes (written false ops) → screen s (written true ops) = (look s ops, fin s ops) := by
  induction ops with
  | nil => intro s _; simp [written, screen, look, fin]
  | cons op ops ih =>
    intro s h
    rw [written_cons] at h ⊢
    have h2 : NoCodes (written false ops) := fun e => h (List.mem_append_right _ e)
    cases op with
    | text t =>
      have h1 : NoCodes t := fun e => h (List.mem_append_left _ e)
      show screen s (t ++ written true ops) = _
      rw [screen_text s t _ h1, ih s h2]
      rfl
    | set st =>
      show screen s ((Op.set st).ansi ++ written true ops) = _
      rw [screen_set, ih st h2]
      rfl
    | reset =>
      show screen s ("\x1B[0m".toList ++ written true ops) = _
      rw [screen_reset, ih normal h2]
      rfl

theorem look_text (ops : List Op) : ∀ s, (look s ops).map (·.1) = written false ops := by
  induction ops with
  | nil => intro s; rfl
  | cons op ops ih =>
    intro s
    rw [written_cons]
    cases op with
    | text t =>
      show (t.map (·, s) ++ look s ops).map (·.1) = t ++ _
      rw [List.map_append, ih, List.map_map]
      congr 1
      exact List.map_id' t
    | set st => exact ih st
    | reset => exact ih normal

theorem look_append (a b : List Op) : ∀ s, look s (a ++ b) = look s a ++ look (fin s a) b := by
  induction a with
  | nil => intro s; rfl
  | cons op a ih => intro s; cases op <;> simp [look, fin, ih]

theorem fin_append (a b : List Op) : ∀ s, fin s (a ++ b) = fin (fin s a) b := by
  induction a with
  | nil => intro s; rfl
  | cons op a ih => intro s; cases op <;> simp [fin, ih]

/-- The style is normal again after these writes. -/
def Tidy (ops : List Op) : Prop := fin normal ops = normal

theorem tidy_nil : Tidy [] := rfl
theorem tidy_text (t : Text) : Tidy [.text t] := rfl
theorem tidy_spec (s : Style) (t : Text) : Tidy (withSpec s [.text t]) := rfl
theorem tidy_append {a b : List Op} (ha : Tidy a) (hb : Tidy b) : Tidy (a ++ b) := by
  unfold Tidy at *; rw [fin_append, ha, hb]
theorem tidy_flatMap {α : Type} {f : α → List Op} (h : ∀ x, Tidy (f x)) (l : List α) : Tidy (l.flatMap f) := by
  induction l with
  | nil => rfl
  | cons x l ih => exact tidy_append (h x) ih
theorem tidy_if {p : Prop} [Decidable p] {a : List Op} (ha : Tidy a) : Tidy (if p then a else []) := by
  split
  · exact ha
  · rfl

theorem tidy_status (s : Status) : Tidy (status s) := rfl
theorem tidy_resultLine (r : Terminal.Result) : Tidy (resultLine r) := rfl
theorem tidy_progress (e : Text) (a b c : Nat) : Tidy (progressOps e a b c) := rfl
theorem tidy_crash (r : Terminal.Result) : Tidy (crash r) := tidy_if (tidy_text _)
theorem tidy_summary (g : Output.Grouping) (w t : Text) (s : Summary.SuiteResult) : Tidy (shortSummary g w t s) := by
  unfold shortSummary
  split <;> rfl
theorem tidy_resultSummary (r : Output.Shown) : Tidy (resultSummary r) := rfl
theorem tidy_failures : (rs : List Output.Shown) → (b : Bool) → Tidy (failures b rs)
  | [], _ => rfl
  | r :: rs, b => by
    unfold failures
    have h := tidy_append (tidy_append (a := if b then [.text ['\n']] else []) (tidy_if (tidy_text _)) (tidy_resultSummary r))
      (tidy_failures rs true)
    have h' := tidy_failures rs b
    split <;> assumption
theorem tidy_dotsFrom : (calls : List Call) → (n : Nat) → Tidy (dotsFrom n calls)
  | [], n => tidy_if (tidy_text _)
  | .push k r :: calls, n =>
    tidy_append (tidy_append (tidy_append (tidy_spec _ _) (tidy_if (tidy_text _))) (tidy_crash r)) (tidy_dotsFrom calls (n + 1))
  | .tick _ :: calls, n => tidy_dotsFrom calls n
theorem tidy_lines : (calls : List Call) → Tidy (Colors.lines calls)
  | [] => rfl
  | .push k r :: calls => tidy_append (tidy_append (tidy_resultLine r) (tidy_crash r)) (tidy_lines calls)
  | .tick _ :: calls => tidy_lines calls
theorem tidy_piece (p : Terminal.Piece) : Tidy (piece p) := by cases p <;> rfl

theorem shows {ops : List Op} (ht : Tidy ops) (h : NoCodes (written false ops)) :
    shown (written true ops) = written false ops ∧ LeavesNormal (written true ops) := by
  unfold shown LeavesNormal
  rw [screen_ops ops _ h]
  exact ⟨look_text ops normal, ht⟩

/-! ## What is written without colours -/

theorem plain_resultLine (r : Terminal.Result) : written false (resultLine r) = Terminal.resultLine r := by
  simp only [written, resultLine, status, withColor, withSpec, Op.plain, Terminal.resultLine, List.cons_append, List.nil_append,
    List.flatMap_cons, List.flatMap_nil, List.append_nil, List.append_assoc, Bool.false_eq_true, if_false]

theorem plain_crash (r : Terminal.Result) : written false (crash r) =
    if r.status = .nativeRunnerError then r.output.getD "<no output>".toList ++ ['\n'] else [] := by
  unfold crash; split <;> simp [written, Op.plain]

theorem plain_summary (g : Output.Grouping) (w t : Text) (s : Summary.SuiteResult) :
    written false (shortSummary g w t s) = Output.shortSummary g w t s := by
  unfold shortSummary Output.shortSummary
  split <;> simp only [written, withSpec, Op.plain, List.cons_append, List.nil_append, List.flatMap_cons, List.flatMap_nil,
    List.append_nil, List.append_assoc, Bool.false_eq_true, if_false]

theorem plain_three (a b c : Text) (s : Style) : written false ([.text a] ++ withSpec s [.text b] ++ [.text c]) = a ++ b ++ c := by
  simp [written, withSpec, Op.plain]

theorem plain_resultSummary (r : Output.Shown) : written false (resultSummary r) = Output.resultSummary r := by
  unfold resultSummary status withColor Output.resultSummary
  rw [plain_three]
  simp only [List.append_assoc]

theorem plain_failures : (rs : List Output.Shown) → (b : Bool) → written false (failures b rs) = Output.failures b rs
  | [], _ => rfl
  | r :: rs, b => by
    unfold failures Output.failures
    have h1 : written false ((if b then [.text ['\n']] else []) ++ resultSummary r ++ failures true rs) =
        (if b then ['\n'] else []) ++ Output.resultSummary r ++ Output.failures true rs := by
      rw [written_append, written_append, plain_failures rs true, plain_resultSummary]
      cases b <;> rfl
    have h2 := plain_failures rs b
    cases hs : r.status <;> simp only [] <;> assumption

theorem plain_seven (a b c d e f g : Text) (s s' s'' : Style) :
    written false ([.text a] ++ withSpec s [.text b] ++ [.text c] ++ withSpec s' [.text d] ++ [.text e] ++ withSpec s'' [.text f] ++ [.text g])
      = a ++ b ++ c ++ d ++ e ++ f ++ g := by
  simp [written, withSpec, Op.plain]

theorem join_progress (h1 h2 e a b c x1 x2 x3 y z : Text) :
    h1 ++ e ++ h2 ++ a ++ (x1 ++ y) ++ b ++ (x2 ++ y) ++ c ++ (x3 ++ z) =
      (h1 ++ e ++ h2) ++ (a ++ x1) ++ y ++ (b ++ x2) ++ y ++ (c ++ x3) ++ z := by
  simp only [List.append_assoc]

theorem plain_progressOps (e : Text) (a b c : Nat) : written false (progressOps e a b c) = Terminal.Piece.text (.progress e a b c) := by
  have e1 : " tests run, ".toList = " tests run".toList ++ ", ".toList := by decide
  have e2 : " passed, ".toList = " passed".toList ++ ", ".toList := by decide
  have e3 : " failing\n".toList = " failing".toList ++ ['\n'] := by decide
  unfold progressOps Terminal.Piece.text
  rw [plain_seven, e1, e2, e3]
  exact (join_progress _ _ _ _ _ _ _ _ _ _ _).symm

theorem plain_piece (p : Terminal.Piece) : written false (piece p) = p.text := by
  cases p with
  | blank => rfl
  | result r => exact plain_resultLine r
  | progress e a b c => exact plain_progressOps e a b c

theorem plain_progress (interactive : Bool) (calls : List Call) :
    written false (progress interactive calls) = (Terminal.progress interactive calls).text := by
  unfold progress Terminal.Progress.text
  generalize (Terminal.progress interactive calls).out = out
  induction out with
  | nil => rfl
  | cons p out ih => rw [List.flatMap_cons, written_append, ih, plain_piece, List.flatMap_cons]

theorem plain_lines (calls : List Call) : written false (Colors.lines calls) = Terminal.lines calls := by
  have key : ∀ (calls : List Call) (l : Terminal.Lines), (calls.foldl Terminal.Lines.call l).out = l.out ++ written false (Colors.lines calls) := by
    intro calls
    induction calls with
    | nil => intro l; simp [Colors.lines, written]
    | cons c calls ih =>
      intro l
      rw [List.foldl_cons, ih]
      cases c with
      | tick e => rfl
      | push n r =>
        have h : (Terminal.Lines.call l (.push n r)).out = l.out ++ written false (resultLine r ++ crash r) := by
          rw [written_append, plain_resultLine, plain_crash]
          simp only [Terminal.Lines.call, Terminal.Lines.push]
          split
          · simp
          · split <;> simp
        rw [h, List.append_assoc, ← written_append]
        rfl
  rw [Terminal.lines, key]; rfl

theorem plain_dots (calls : List Call) : written false (dots calls) = Terminal.dots calls := by
  have key : ∀ (calls : List Call) (d : Terminal.Dots), (calls.foldl Terminal.Dots.call d).afterAll.out =
      d.out ++ written false (dotsFrom d.numResults calls) := by
    intro calls
    induction calls with
    | nil =>
      intro d
      simp only [List.foldl_nil, Terminal.Dots.afterAll, dotsFrom, Terminal.lineLimit]
      by_cases h : d.numResults % 80 = 0 <;> simp [h, written, Op.plain]
    | cons c calls ih =>
      intro d
      rw [List.foldl_cons, ih]
      cases c with
      | tick e => rfl
      | push n r =>
        have keep : ∀ (d : Terminal.Dots) o, (d.keep r o).out = d.out ∧ (d.keep r o).numResults = d.numResults := by
          intro d o; cases o <;> exact ⟨rfl, rfl⟩
        have h : (Terminal.Dots.call d (.push n r)).numResults = d.numResults + 1 ∧ (Terminal.Dots.call d (.push n r)).out =
            d.out ++ written false (resultDot r.status ++ (if (d.numResults + 1) % 80 = 0 then [.text ['\n']] else []) ++ crash r) := by
          rw [written_append, written_append, plain_crash]
          have e : written false (resultDot r.status) = [Terminal.dot r.status] := rfl
          rw [e]
          simp only [Terminal.Dots.call, Terminal.Dots.push, (keep _ _).1, (keep _ _).2, Terminal.lineLimit]
          by_cases h1 : (d.numResults + 1) % 80 = 0 <;> by_cases h2 : r.status = .nativeRunnerError <;>
            by_cases h3 : r.status.isFailLike = true <;> simp [h1, h2, h3, written, Op.plain, (keep _ _).1, (keep _ _).2]
        rw [h.1, h.2, List.append_assoc, ← written_append]
        rfl
  rw [Terminal.dots, key]; rfl

/-! ## Red -/

/-- There is something red in what is shown of these writes. -/
def RedOps (ops : List Op) : Prop := ∃ x ∈ look normal ops, x.2.fg = some .red

theorem red_iff {ops : List Op} (h : NoCodes (written false ops)) : Red (written true ops) ↔ RedOps ops := by
  unfold Red RedOps
  rw [screen_ops ops _ h]

theorem red_append {a b : List Op} (ha : Tidy a) : RedOps (a ++ b) ↔ RedOps a ∨ RedOps b := by
  unfold RedOps
  rw [look_append, ha]
  simp only [List.mem_append, or_and_right, exists_or]

theorem red_nil : ¬ RedOps [] := by rintro ⟨x, hx, -⟩; exact absurd hx List.not_mem_nil

theorem red_text (t : Text) : ¬ RedOps [.text t] := by
  rintro ⟨x, hx, h⟩
  simp only [look, List.append_nil, List.mem_map] at hx
  obtain ⟨c, -, rfl⟩ := hx
  cases h

theorem red_spec (s : Style) (t : Text) : RedOps (withSpec s [.text t]) ↔ s.fg = some .red ∧ t ≠ [] := by
  simp only [RedOps, withSpec, List.cons_append, List.nil_append, look, List.append_nil, List.mem_map]
  constructor
  · rintro ⟨x, ⟨c, hc, rfl⟩, h⟩
    exact ⟨h, fun e => by rw [e] at hc; exact absurd hc List.not_mem_nil⟩
  · rintro ⟨h, ht⟩
    cases t with
    | nil => exact absurd rfl ht
    | cons c t => exact ⟨(c, s), ⟨c, List.mem_cons_self, rfl⟩, h⟩

theorem red_status (s : Status) : RedOps (status s) ↔ Failed s := by
  rw [status, withColor, red_spec]
  have hne : Terminal.statusText s ≠ [] := by cases s <;> (intro h; have := congrArg List.length h; revert this; decide)
  cases s <;> simp only [statusColor, Failed, hne, ne_eq, not_false_eq_true, and_true, Option.some.injEq, reduceCtorEq]

theorem red_dot (s : Status) : RedOps (resultDot s) ↔ Failed s := by
  rw [resultDot, withColor, red_spec]
  cases s <;> simp [statusColor, Failed]

theorem red_if_text {p : Prop} [Decidable p] (t : Text) : ¬ RedOps (if p then [.text t] else []) := by
  split
  · exact red_text t
  · exact red_nil

theorem red_crash (r : Terminal.Result) : ¬ RedOps (crash r) := red_if_text _

theorem red_resultLine (r : Terminal.Result) : RedOps (resultLine r) ↔ Failed r.status := by
  rw [resultLine, red_append (tidy_append (tidy_text _) (tidy_status _)), red_append (tidy_text _), red_status]
  simp [red_text]

theorem red_dots (calls : List Call) : ∀ n, RedOps (dotsFrom n calls) ↔ ∃ k r, .push k r ∈ calls ∧ Failed r.status := by
  induction calls with
  | nil => intro n; simp only [dotsFrom, List.not_mem_nil, false_and, exists_false, iff_false]; exact red_if_text _
  | cons c calls ih =>
    intro n
    cases c with
    | tick e => simp only [dotsFrom]; rw [ih]; simp
    | push k r =>
      simp only [dotsFrom]
      have hd : Tidy (resultDot r.status) := rfl
      rw [red_append (tidy_append (tidy_append hd (tidy_if (tidy_text _))) (tidy_crash r)),
        red_append (tidy_append hd (tidy_if (tidy_text _))), red_append hd, red_dot, ih]
      simp only [red_if_text, red_crash, or_false, List.mem_cons, Terminal.Call.push.injEq]
      constructor
      · rintro (h | ⟨k', r', h, h'⟩)
        · exact ⟨k, r, .inl ⟨rfl, rfl⟩, h⟩
        · exact ⟨k', r', .inr h, h'⟩
      · rintro ⟨k', r', ⟨rfl, rfl⟩ | h, h'⟩
        · exact .inl h'
        · exact .inr ⟨k', r', h, h'⟩

theorem red_lines (calls : List Call) : RedOps (Colors.lines calls) ↔ ∃ k r, .push k r ∈ calls ∧ Failed r.status := by
  induction calls with
  | nil => simp [Colors.lines, red_nil]
  | cons c calls ih =>
    cases c with
    | tick e => simp only [Colors.lines]; rw [ih]; simp
    | push k r =>
      simp only [Colors.lines]
      rw [red_append (tidy_append (tidy_resultLine r) (tidy_crash r)), red_append (tidy_resultLine r), red_resultLine, ih]
      simp only [red_crash, or_false, List.mem_cons, Terminal.Call.push.injEq]
      constructor
      · rintro (h | ⟨k', r', h, h'⟩)
        · exact ⟨k, r, .inl ⟨rfl, rfl⟩, h⟩
        · exact ⟨k', r', .inr h, h'⟩
      · rintro ⟨k', r', ⟨rfl, rfl⟩ | h, h'⟩
        · exact .inl h'
        · exact .inr ⟨k', r', h, h'⟩

theorem red_flatMap {α : Type} {f : α → List Op} (ht : ∀ x, Tidy (f x)) (l : List α) :
    RedOps (l.flatMap f) ↔ ∃ x ∈ l, RedOps (f x) := by
  induction l with
  | nil => simp [red_nil]
  | cons x l ih => rw [List.flatMap_cons, red_append (ht x), ih]; simp

theorem red_progressOps (e : Text) (a b c : Nat) : RedOps (progressOps e a b c) ↔ 0 < c := by
  unfold progressOps
  have t1 := tidy_append (tidy_text ("--- [abq progress] ".toList ++ e ++ " ---\n".toList))
    (tidy_spec boldSpec ((toString a).toList ++ " tests run".toList))
  have t2 := tidy_append t1 (tidy_text ", ".toList)
  have t3 := tidy_append t2 (tidy_spec greenBoldSpec ((toString b).toList ++ " passed".toList))
  have t4 := tidy_append t3 (tidy_text ", ".toList)
  have t5 := tidy_append t4 (tidy_spec (failingSpec c) ((toString c).toList ++ " failing".toList))
  rw [red_append t5, red_append t4, red_append t3, red_append t2, red_append t1, red_append (tidy_text _), red_spec, red_spec, red_spec]
  simp only [red_text, false_or, or_false, boldSpec, greenBoldSpec]
  unfold failingSpec
  split <;> simp <;> omega

theorem red_piece (p : Terminal.Piece) : RedOps (piece p) ↔
    (∃ r, p = .result r ∧ Failed r.status) ∨ ∃ e a b c, p = .progress e a b c ∧ 0 < c := by
  cases p with
  | blank => simp [piece, red_text]
  | result r => simp [piece, red_resultLine]
  | progress e a b c =>
    simp only [piece, red_progressOps, reduceCtorEq, false_and, exists_false, false_or]
    exact ⟨fun h => ⟨e, a, b, c, rfl, h⟩, fun ⟨_, _, _, _, h, h'⟩ => by cases h; exact h'⟩

theorem red_summary (g : Output.Grouping) (w t : Text) (s : Summary.SuiteResult) :
    RedOps (shortSummary g w t s) ↔ 0 < s.countFailed := by
  unfold shortSummary
  dsimp only
  have hr : Tidy (if s.testsRetried > 0 then
      [.text ", ".toList] ++ withSpec yellowBoldSpec [.text ((toString s.testsRetried).toList ++ " retried".toList)] else []) :=
    tidy_if (tidy_append (tidy_text _) (tidy_spec _ _))
  have hn : ¬ RedOps (if s.testsRetried > 0 then
      [.text ", ".toList] ++ withSpec yellowBoldSpec [.text ((toString s.testsRetried).toList ++ " retried".toList)] else []) := by
    split
    · rw [red_append (tidy_text _), red_spec]; simp [red_text, yellowBoldSpec]
    · exact red_nil
  generalize (if s.testsRetried > 0 then
      [Op.text ", ".toList] ++ withSpec yellowBoldSpec [.text ((toString s.testsRetried).toList ++ " retried".toList)] else []) = x at hr hn
  have t1 := tidy_append (tidy_text (Output.header ++ ['\n'])) (tidy_spec boldSpec ("Finished in ".toList ++ w))
  have t2 := tidy_append t1 (tidy_text (" (".toList ++ t ++ " spent in test code)\n".toList))
  have t3 := tidy_append t2 (tidy_spec greenBoldSpec ((toString s.count).toList ++ " tests".toList))
  have t4 := tidy_append t3 (tidy_text ", ".toList)
  have t5 := tidy_append t4 (tidy_spec (failingSpec s.countFailed) ((toString s.countFailed).toList ++ " failures".toList))
  have t6 := tidy_append t5 hr
  rw [red_append t6, red_append t5, red_append t4, red_append t3, red_append t2, red_append t1, red_append (tidy_text _), red_spec,
    red_spec, red_spec]
  simp only [red_text, false_or, or_false, boldSpec, greenBoldSpec, hn]
  unfold failingSpec
  split <;> simp <;> omega

theorem red_resultSummary (r : Output.Shown) : RedOps (resultSummary r) ↔ Failed r.status := by
  rw [resultSummary, red_append (tidy_append (tidy_text _) (tidy_status _)), red_append (tidy_text _), red_status]
  simp [red_text]

theorem red_failures (rs : List Output.Shown) : ∀ b, RedOps (failures b rs) ↔ ∃ r ∈ rs, Failed r.status := by
  induction rs with
  | nil => intro b; simp [failures, red_nil]
  | cons r rs ih =>
    intro b
    have h1 : RedOps ((if b then [.text ['\n']] else []) ++ resultSummary r ++ failures true rs) ↔
        Failed r.status ∨ ∃ r ∈ rs, Failed r.status := by
      rw [red_append (tidy_append (tidy_if (tidy_text _)) (tidy_resultSummary r)), red_append (tidy_if (tidy_text _)), red_resultSummary, ih]
      simp [red_if_text]
    simp only [List.mem_cons, exists_eq_or_imp]
    unfold failures
    have h2 := ih b
    cases hs : r.status <;> rw [hs] at h1 <;> simp only [Failed, true_or, iff_true, false_or] at h1 ⊢ <;> assumption

/-- Whether a call gives a failed result. -/
def FailedCall : Call → Prop
  | .push _ r => Failed r.status
  | .tick _ => False

theorem failLike (s : Status) : s.isFailLike = true ↔ Failed s := by cases s <;> simp [Summary.Status.isFailLike, Failed]

/-- There is something red in the pieces written so far. -/
def RedOut (p : Terminal.Progress) : Prop := ∃ x ∈ p.out, RedOps (piece x)

theorem redOut_append (out : List Terminal.Piece) (x : Terminal.Piece) :
    (∃ y ∈ out ++ [x], RedOps (piece y)) ↔ (∃ y ∈ out, RedOps (piece y)) ∨ RedOps (piece x) := by
  simp only [List.mem_append, List.mem_singleton, or_and_right, exists_or, exists_eq_left]

theorem tickInteractive_red (p : Terminal.Progress) : p.tickInteractive.out = p.out ∧ p.tickInteractive.numFailing = p.numFailing := by
  unfold Terminal.Progress.tickInteractive
  split <;> exact ⟨rfl, rfl⟩

theorem tickNonInteractive_red (p : Terminal.Progress) (e : Text) (h : RedOut p ↔ 0 < p.numFailing) :
    (RedOut (p.tickNonInteractive e) ↔ 0 < p.numFailing) ∧ (p.tickNonInteractive e).numFailing = p.numFailing := by
  have blank : ¬ RedOps (piece .blank) := red_text _
  unfold RedOut at *
  simp only [Terminal.Progress.tickNonInteractive]
  split
  · exact ⟨h, rfl⟩
  · split
    · exact ⟨h, rfl⟩
    · cases hw : p.wroteFirst <;> simp only [Bool.false_eq_true, if_false, if_true]
      · split
        · exact ⟨h, rfl⟩
        · refine ⟨?_, rfl⟩
          rw [redOut_append, h]
          simp only [piece, red_progressOps, or_self]
      · split
        · exact ⟨by rw [redOut_append, h]; simp only [blank, or_false], rfl⟩
        · refine ⟨?_, rfl⟩
          rw [redOut_append, redOut_append, h]
          simp only [red_text, or_false, piece, red_progressOps, or_self]

theorem tick_red (p : Terminal.Progress) (e : Option Text) (h : RedOut p ↔ 0 < p.numFailing) :
    (RedOut (p.tick e) ↔ 0 < (p.tick e).numFailing) ∧ (p.tick e).numFailing = p.numFailing := by
  simp only [Terminal.Progress.tick]
  split
  · obtain ⟨h1, h2⟩ := tickInteractive_red { p with ticks := p.ticks + if e.isSome then 1 else 0 }
    unfold RedOut at *
    rw [h1, h2]
    exact ⟨h, rfl⟩
  · cases e with
    | none => exact ⟨h, rfl⟩
    | some e =>
      obtain ⟨h1, h2⟩ := tickNonInteractive_red { p with ticks := p.ticks + if (some e).isSome then 1 else 0 } e h
      exact ⟨by rw [h2]; exact h1, h2⟩

theorem call_red (p : Terminal.Progress) (c : Call) (h : RedOut p ↔ 0 < p.numFailing) :
    (RedOut (p.call c) ↔ 0 < (p.call c).numFailing) ∧ (0 < (p.call c).numFailing ↔ 0 < p.numFailing ∨ FailedCall c) := by
  cases c with
  | tick e =>
    obtain ⟨h1, h2⟩ := tick_red p (some e) h
    refine ⟨h1, ?_⟩
    show 0 < (p.tick (some e)).numFailing ↔ _
    rw [h2]; simp [FailedCall]
  | push n r =>
    have blank : ¬ RedOps (piece .blank) := red_text _
    simp only [Terminal.Progress.call, Terminal.Progress.push, FailedCall]
    by_cases hf : r.status.isFailLike = true
    · simp only [hf, if_true]
      have hr : RedOps (piece (.result r)) := (red_resultLine r).2 ((failLike _).1 hf)
      cases hw : p.wroteFirst <;> simp only [Bool.false_eq_true, if_false, if_true]
      · obtain ⟨h1, h2⟩ := tick_red { p with numResults := p.numResults + 1, numFailing := p.numFailing + 1, out := p.out ++ [.result r], wroteFirst := true } none
          ⟨fun _ => Nat.succ_pos _, fun _ => (redOut_append _ _).2 (.inr hr)⟩
        exact ⟨h1, by rw [h2]; exact ⟨fun _ => .inr ((failLike _).1 hf), fun _ => Nat.succ_pos _⟩⟩
      · obtain ⟨h1, h2⟩ := tick_red { p with numResults := p.numResults + 1, numFailing := p.numFailing + 1, out := p.out ++ [.blank] ++ [.result r], wroteFirst := true } none
          ⟨fun _ => Nat.succ_pos _, fun _ => (redOut_append _ _).2 (.inr hr)⟩
        exact ⟨h1, by rw [h2]; exact ⟨fun _ => .inr ((failLike _).1 hf), fun _ => Nat.succ_pos _⟩⟩
    · simp only [hf, Bool.false_eq_true, if_false, Nat.add_zero]
      obtain ⟨h1, h2⟩ := tick_red { p with numResults := p.numResults + 1 } none h
      refine ⟨h1, ?_⟩
      rw [h2]
      have : ¬ Failed r.status := fun e => hf ((failLike _).2 e)
      simp [this]

theorem red_progress (interactive : Bool) (calls : List Call) :
    RedOps (progress interactive calls) ↔ ∃ k r, .push k r ∈ calls ∧ Failed r.status := by
  have key : ∀ (calls : List Call) (p : Terminal.Progress), (RedOut p ↔ 0 < p.numFailing) →
      (RedOut (calls.foldl Terminal.Progress.call p) ↔ 0 < p.numFailing ∨ ∃ c ∈ calls, FailedCall c) := by
    intro calls
    induction calls with
    | nil => intro p h; simpa using h
    | cons c calls ih =>
      intro p h
      obtain ⟨h1, h2⟩ := call_red p c h
      rw [List.foldl_cons, ih _ h1, h2]
      simp [or_assoc]
  have h := key calls (.new interactive) ⟨fun ⟨x, hx, _⟩ => absurd hx List.not_mem_nil, fun h => absurd h (Nat.lt_irrefl 0)⟩
  unfold progress
  rw [red_flatMap tidy_piece]
  refine Iff.trans h ⟨?_, ?_⟩
  · rintro (h | ⟨c, hc, h⟩)
    · exact absurd h (Nat.lt_irrefl 0)
    · cases c with
      | push k r => exact ⟨k, r, hc, h⟩
      | tick e => cases h
  · rintro ⟨k, r, hc, h⟩
    exact .inr ⟨_, hc, h⟩

/-! ## The progress bar -/

theorem screen_greenBold (s : Style) (rest : Text) : screen s (Provider.ansi.greenBold ++ rest) = screen ⟨some .green, true⟩ rest := by
  simp [screen, Provider.ansi]

theorem screen_redBold (s : Style) (rest : Text) : screen s (Provider.ansi.redBold ++ rest) = screen ⟨some .red, true⟩ rest := by
  simp [screen, Provider.ansi]

theorem bar_screen (t1 t2 t3 t4 t5 nl : Text) (failing : Nat)
    (h : NoCodes (t1 ++ nl ++ t2 ++ t4 ++ t3 ++ t4 ++ t5 ++ nl)) :
    screen normal (Provider.ansi.bold ++ t1 ++ Provider.ansi.reset ++ nl ++ Provider.ansi.bold ++ t2 ++ Provider.ansi.reset ++ t4
        ++ Provider.ansi.greenBold ++ t3 ++ Provider.ansi.reset ++ t4
        ++ (if failing = 0 then Provider.ansi.reset else Provider.ansi.redBold) ++ t5 ++ Provider.ansi.reset ++ nl)
      = (t1.map (·, ⟨none, true⟩) ++ nl.map (·, normal) ++ t2.map (·, ⟨none, true⟩) ++ t4.map (·, normal) ++ t3.map (·, ⟨some .green, true⟩)
          ++ t4.map (·, normal) ++ t5.map (·, if failing = 0 then normal else ⟨some .red, true⟩) ++ nl.map (·, normal), normal) := by
  simp only [NoCodes, List.mem_append, not_or] at h
  obtain ⟨⟨⟨⟨⟨⟨⟨h1, hn⟩, h2⟩, h4⟩, h3⟩, -⟩, h5⟩, -⟩ := h
  have rs : ∀ s rest, screen s (Provider.ansi.reset ++ rest) = screen normal rest := screen_reset
  have bd : ∀ rest, screen normal (Provider.ansi.bold ++ rest) = screen ⟨none, true⟩ rest := screen_bold normal
  have en : ∀ s : Style, screen s [] = ([], s) := fun s => by simp [screen]
  have last := screen_text normal nl [] hn
  rw [List.append_nil] at last
  by_cases hf : failing = 0
  · simp only [hf, if_true, List.append_assoc, bd, rs, screen_text _ _ _ h1, screen_text _ _ _ h2, screen_text _ _ _ h3,
      screen_text _ _ _ h4, screen_text _ _ _ h5, screen_text _ _ _ hn, screen_greenBold, last, en, List.append_nil]
  · simp only [hf, if_false, List.append_assoc, bd, rs, screen_text _ _ _ h1, screen_text _ _ _ h2, screen_text _ _ _ h3,
      screen_text _ _ _ h4, screen_text _ _ _ h5, screen_text _ _ _ hn, screen_greenBold, screen_redBold, last, en, List.append_nil]

theorem bar_regroup (b r g f e t1 a1 a2 n1 n2 n3 y1 y2 y3 nl sep : Text) :
    b ++ t1 ++ r ++ nl ++ b ++ a1 ++ e ++ a2 ++ n1 ++ y1 ++ r ++ sep ++ g ++ n2 ++ y2 ++ r ++ sep ++ f ++ n3 ++ y3 ++ r ++ nl =
    b ++ t1 ++ r ++ nl ++ b ++ (a1 ++ e ++ a2 ++ n1 ++ y1) ++ r ++ sep ++ g ++ (n2 ++ y2) ++ r ++ sep ++ f ++ (n3 ++ y3) ++ r ++ nl := by
  simp only [List.append_assoc]

theorem bar_groups (elapsed : Text) (run passed failing : Nat) : ∃ t1 t2 t3 t4 t5 nl : Text, t5 ≠ [] ∧
    ∀ p : Provider, bar p elapsed run passed failing = p.bold ++ t1 ++ p.reset ++ nl ++ p.bold ++ t2 ++ p.reset ++ t4 ++ p.greenBold ++ t3 ++ p.reset
      ++ t4 ++ (if failing = 0 then p.reset else p.redBold) ++ t5 ++ p.reset ++ nl := by
  refine ⟨"> ABQ status".toList, "> [".toList ++ elapsed ++ "] ".toList ++ (toString run).toList ++ " tests run".toList,
    (toString passed).toList ++ " passed".toList, ", ".toList, (toString failing).toList ++ " failing".toList, ['\n'], ?_, fun p => ?_⟩
  · intro e
    exact absurd (List.append_eq_nil_iff.1 e).2 (by decide)
  · unfold bar
    exact bar_regroup _ _ _ _ _ _ _ _ _ _ _ _ _ _ _ _

end Abq.ColorsProof
