import Verif.Spec.WorkerReport
import Verif.Proof.Report

namespace Abq.WorkerReport
open Abq.Report (Group TestResult Reported Reporter Event toResult loopReported pushes history)
open Abq.Summary (Tracker SuiteResult)

theorem loop_eq (g : Group) (before after : Option String) (t : Task) (ts : List TestResult) :
    t.loop g before after ts =
      { reporters := t.reporters.map (·.gotAll ((loopReported before after ts).map (.push g.runNumber ·)))
        tracker := (ts.map (toResult g)).foldl Tracker.account t.tracker } := by
  induction ts generalizing before after t with
  | nil => simp [Task.loop, loopReported, Report.gotAll_nil]
  | cons r rest ih =>
    rw [Task.loop]
    simp only [ih, tellAll, Report.got_gotAll]
    cases rest with
    | nil => simp [loopReported]
    | cons r' rest => simp [loopReported]

theorem handle_eq (t : Task) (g : Group) :
    t.handle g = if g.results = [] then none else some
      { reporters := t.reporters.map (·.gotAll (pushes [g]))
        tracker := (history [g]).foldl Tracker.account t.tracker } := by
  unfold Task.handle
  rw [loop_eq, Report.loopReported_eq]
  by_cases h : g.results = []
  · simp [h]
  · have : g.results.isEmpty = false := by simpa [List.isEmpty_iff] using h
    simp [h, pushes, history]

theorem pushes_append (a b : List Group) : pushes (a ++ b) = pushes a ++ pushes b := List.flatMap_append
theorem history_append (a b : List Group) : history (a ++ b) = history a ++ history b := List.flatMap_append

theorem handleAll_some (t : Task) (gs : List Group) (h : ∀ g ∈ gs, g.results ≠ []) :
    t.handleAll gs = some
      { reporters := t.reporters.map (·.gotAll (pushes gs))
        tracker := (history gs).foldl Tracker.account t.tracker } := by
  induction gs generalizing t with
  | nil => simp [Task.handleAll, pushes, history, Report.gotAll_nil]
  | cons g gs ih =>
    rw [Task.handleAll, handle_eq, if_neg (h g (List.mem_cons_self ..))]
    simp only
    rw [ih _ fun x hx => h x (List.mem_cons_of_mem _ hx), Report.gotAll_gotAll, ← List.foldl_append, ← pushes_append,
      ← history_append]
    rfl

theorem handleAll_none (t : Task) (gs : List Group) (h : ∃ g ∈ gs, g.results = []) : t.handleAll gs = none := by
  induction gs generalizing t with
  | nil => obtain ⟨g, hg, _⟩ := h; cases hg
  | cons g gs ih =>
    rw [Task.handleAll, handle_eq]
    by_cases he : g.results = []
    · rw [if_pos he]
    · rw [if_neg he]
      obtain ⟨g', hg, h'⟩ := h
      rcases List.mem_cons.1 hg with rfl | hg
      · exact (he h').elim
      · exact ih _ ⟨g', hg, h'⟩

/-- What holds after any schedule. -/
def Inv (rs : List Reporter) (s : Sys) : Prop :=
  match s.state with
  | .working t => ∃ done, s.sent = done ++ s.channel.flatten ∧ (∀ g ∈ done, g.results ≠ []) ∧
      t.reporters = rs.map (·.gotAll (pushes done)) ∧ t.tracker = (history done).foldl Tracker.account .new
  | .panicked => ∃ g ∈ s.sent, g.results = []
  | .finished suite reporters => s.live = [] ∧ (∀ g ∈ s.sent, g.results ≠ []) ∧
      reporters = rs.map (·.gotAll (pushes s.sent ++ [.afterAll])) ∧ suite = Summary.summarise (history s.sent)

theorem inv_step {rs : List Reporter} {s : Sys} (h : Inv rs s) (a : Act) : Inv rs (s.step a) := by
  obtain ⟨state, channel, live, sent⟩ := s
  cases a with
  | send r gs =>
    simp only [Sys.step]
    split
    · next hl =>
      cases state with
      | working t =>
        obtain ⟨done, h1, h2⟩ := h
        refine ⟨done, ?_, h2⟩
        simp only at h1 ⊢
        rw [h1]; simp
      | panicked =>
        obtain ⟨g, hg, he⟩ := h
        exact ⟨g, List.mem_append_left _ hg, he⟩
      | finished suite reporters =>
        have h0 : live = [] := h.1
        subst h0
        simp at hl
    · exact h
  | quit r =>
    cases state with
    | working t => exact h
    | panicked => exact h
    | finished suite reporters =>
      refine ⟨?_, h.2⟩
      have h0 : live = [] := h.1
      simp [Sys.step, h0]
  | task =>
    cases state with
    | panicked => exact h
    | finished suite reporters => exact h
    | working t =>
      obtain ⟨done, h1, h2, h3, h4⟩ := h
      simp only at h1
      cases channel with
      | nil =>
        simp only [List.flatten_nil, List.append_nil] at h1
        subst h1
        simp only [Sys.step, State.turn]
        cases live with
        | nil =>
          refine ⟨rfl, h2, ?_, ?_⟩
          · simp only [tellAll, h3]
            have := Report.gotAll_gotAll (pushes sent) [.afterAll] rs
            simpa [Reporter.got, Reporter.gotAll] using this
          · rw [h4]; rfl
        | cons r live => exact ⟨sent, by simp, h2, h3, h4⟩
      | cons gs rest =>
        simp only [Sys.step, State.turn]
        by_cases he : ∃ g ∈ gs, g.results = []
        · rw [handleAll_none t gs he]
          obtain ⟨g, hg, he⟩ := he
          refine ⟨g, ?_, he⟩
          simp only
          rw [h1]; simp [hg]
        · have hne : ∀ g ∈ gs, g.results ≠ [] := fun g hg e => he ⟨g, hg, e⟩
          rw [handleAll_some t gs hne]
          refine ⟨done ++ gs, ?_, ?_, ?_, ?_⟩
          · simp only at *; rw [h1]; simp
          · intro g hg
            rcases List.mem_append.1 hg with hg | hg
            · exact h2 g hg
            · exact hne g hg
          · simp only; rw [h3, Report.gotAll_gotAll, pushes_append]
          · simp only; rw [h4, history_append, List.foldl_append]

theorem inv_init (rs : List Reporter) (n : Nat) : Inv rs (Sys.init rs n) :=
  ⟨[], rfl, fun g hg => by simp at hg, by simp [pushes, Report.gotAll_nil], rfl⟩

theorem inv_run (rs : List Reporter) (n : Nat) (acts : List Act) : Inv rs ((Sys.init rs n).run acts) := by
  have : ∀ s, Inv rs s → Inv rs (s.run acts) := by
    induction acts with
    | nil => exact fun s h => h
    | cons a acts ih => exact fun s h => ih _ (inv_step h a)
  exact this _ (inv_init rs n)

/-- What was sent is the sum of what the actions of live runners sent. -/
theorem task_turns (s : Sys) (hl : s.live = []) (k : Nat) (hk : s.channel.length < k) :
    ∀ t, s.state = .working t → (∀ g ∈ s.channel.flatten, g.results ≠ []) →
      ∃ suite reporters, (s.run (List.replicate k .task)).state = .finished suite reporters ∧
        (s.run (List.replicate k .task)).sent = s.sent := by
  induction k generalizing s with
  | zero => omega
  | succ k ih =>
    intro t ht hne
    rw [List.replicate_succ]
    show ∃ suite reporters, ((s.step .task).run (List.replicate k .task)).state = .finished suite reporters ∧
        ((s.step .task).run (List.replicate k .task)).sent = s.sent
    obtain ⟨state, channel, live, sent⟩ := s
    simp only at hl ht
    subst hl ht
    cases channel with
    | nil =>
      have hs : ∀ (k : Nat) (suite : SuiteResult) (rep : List Reporter) (ch : List (List Group)) (l : List Nat) (se : List Group),
          (Sys.run ⟨.finished suite rep, ch, l, se⟩ (List.replicate k .task)) = ⟨.finished suite rep, ch, l, se⟩ := by
        intro k suite rep ch l se
        induction k with
        | zero => rfl
        | succ k ih => rw [List.replicate_succ]; exact ih
      refine ⟨t.tracker.suiteResult.1, tellAll .afterAll t.reporters, ?_⟩
      have : Sys.step ⟨.working t, [], [], sent⟩ .task =
        ⟨.finished t.tracker.suiteResult.1 (tellAll .afterAll t.reporters), [], [], sent⟩ := rfl
      rw [this, hs]; exact ⟨rfl, rfl⟩
    | cons gs rest =>
      have hgs : ∀ g ∈ gs, g.results ≠ [] := fun g hg => hne g (by simp [hg])
      have e : Sys.step ⟨.working t, gs :: rest, [], sent⟩ .task =
        ⟨.working { reporters := t.reporters.map (·.gotAll (pushes gs))
                    tracker := (history gs).foldl Tracker.account t.tracker }, rest, [], sent⟩ := by
        simp only [Sys.step, State.turn, handleAll_some t gs hgs]
      rw [e]
      refine ih ⟨_, rest, [], sent⟩ rfl (by simpa using hk) _ rfl ?_
      intro g hg
      exact hne g (by simp only [List.flatten_cons]; exact List.mem_append_right _ hg)

theorem sent_run (n : Nat) (acts : List Act) : ∀ (quit : List Nat) (s : Sys),
    (∀ r, r ∈ s.live ↔ 1 ≤ r ∧ r ≤ n ∧ r ∉ quit) →
    (s.run acts).sent = s.sent ++ sentFrom n quit acts ∧
    ∀ r, r ∈ (s.run acts).live ↔ 1 ≤ r ∧ r ≤ n ∧ r ∉ quit ∧ .quit r ∉ acts := by
  induction acts with
  | nil => intro quit s h; simp [Sys.run, sentFrom, h]
  | cons a acts ih =>
    intro quit s h
    show ((s.step a).run acts).sent = _ ∧ ∀ r, r ∈ ((s.step a).run acts).live ↔ _
    cases a with
    | send r gs =>
      have hl : ∀ x, x ∈ (s.step (.send r gs)).live ↔ 1 ≤ x ∧ x ≤ n ∧ x ∉ quit := by
        intro x; rw [← h]; simp only [Sys.step]; split <;> rfl
      obtain ⟨h1, h2⟩ := ih quit _ hl
      refine ⟨?_, fun x => by rw [h2]; simp⟩
      rw [h1, sentFrom]
      by_cases hr : r ∈ s.live
      · rw [if_pos ((h r).1 hr)]
        simp [Sys.step, hr]
      · rw [if_neg (fun hc => hr ((h r).2 hc))]
        simp [Sys.step, hr]
    | quit r =>
      have hl : ∀ x, x ∈ (s.step (.quit r)).live ↔ 1 ≤ x ∧ x ≤ n ∧ x ∉ r :: quit := by
        intro x
        simp only [Sys.step, List.mem_filter, h, List.mem_cons, not_or, decide_not, Bool.not_eq_true', decide_eq_false_iff_not]
        grind
      obtain ⟨h1, h2⟩ := ih (r :: quit) _ hl
      refine ⟨?_, fun x => by rw [h2]; simp only [List.mem_cons, not_or, Act.quit.injEq]; grind⟩
      rw [h1, sentFrom]; rfl
    | task =>
      have hs : (s.step .task).sent = s.sent ∧ (s.step .task).live = s.live := by
        simp only [Sys.step]; split <;> exact ⟨rfl, rfl⟩
      obtain ⟨h1, h2⟩ := ih quit (s.step .task) (by rw [hs.2]; exact h)
      refine ⟨by rw [h1, hs.1, sentFrom], fun x => by rw [h2]; simp⟩

theorem init_live (rs : List Reporter) (n : Nat) : ∀ r, r ∈ (Sys.init rs n).live ↔ 1 ≤ r ∧ r ≤ n ∧ r ∉ ([] : List Nat) := by
  intro r
  simp only [Sys.init, List.mem_map, List.mem_range, List.not_mem_nil, not_false_eq_true, and_true]
  constructor
  · rintro ⟨a, h1, rfl⟩; omega
  · rintro ⟨h1, h2⟩; exact ⟨r - 1, by omega, by omega⟩

theorem sent_eq (rs : List Reporter) (n : Nat) (acts : List Act) : ((Sys.init rs n).run acts).sent = sentBy n acts := by
  have := (sent_run n acts [] (Sys.init rs n) (init_live rs n)).1
  rw [this]; simp [Sys.init, sentBy]

theorem live_eq (rs : List Reporter) (n : Nat) (acts : List Act) : ((Sys.init rs n).run acts).live = [] ↔ AllQuit n acts := by
  have h := (sent_run n acts [] (Sys.init rs n) (init_live rs n)).2
  rw [List.eq_nil_iff_forall_not_mem]
  constructor
  · intro hn r h1 h2
    refine Classical.byContradiction fun hc => hn r ((h r).2 ⟨h1, h2, by simp, hc⟩)
  · intro hq r hr
    obtain ⟨h1, h2, -, h3⟩ := (h r).1 hr
    exact h3 (hq r h1 h2)

end Abq.WorkerReport
