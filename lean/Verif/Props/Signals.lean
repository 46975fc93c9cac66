import Verif.Model.Signals

/-!
# Stopping a queue with signals (C70)
-/

namespace Abq.Signals

theorem run_append (s : St) (as bs : List Act) : s.run (as ++ bs) = (s.run as).run bs := List.foldl_append ..

theorem run_cons (s : St) (a : Act) (as : List Act) : s.run (a :: as) = (s.step a).run as := rfl

/-- If `P` is kept by every step, and the step `a` leads from `P` to `Q`, then `Q` holds after `a` was taken. -/
theorem reach {P Q : St → Prop} (a : Act) (hP : ∀ s b, P s → P (s.step b)) (hQ : ∀ s b, Q s → Q (s.step b))
    (h : ∀ s, P s → Q (s.step a)) : ∀ (as : List Act) (s : St), P s → a ∈ as → Q (s.run as) := by
  have keep : ∀ (as : List Act) (s : St), Q s → Q (s.run as) := by
    intro as
    induction as with
    | nil => intro s h; exact h
    | cons b as ih => intro s h; exact ih _ (hQ s b h)
  intro as
  induction as with
  | nil => intro s _ hm; cases hm
  | cons b as ih =>
    intro s hs hm
    rcases List.mem_cons.mp hm with rfl | hm
    · exact keep as _ (h s hs)
    · exact ih _ (hP s b hs) hm

/-- The invariant of all schedules. -/
structure Inv (s : St) : Prop where
  waiting : s.listener = .waiting → s.channel = 0 ∧ s.receivedShutdown = false
  woken : s.listener ≠ .waiting → 0 < s.signals ∧
    ((s.channel = 1 ∧ s.receivedShutdown = false) ∨ (s.channel = 0 ∧ s.receivedShutdown = true))
  flag : s.receivedShutdown = s.retired
  last : s.stopping = true → s.retired = true
  panicked : s.panicked = false

theorem inv_init : Inv {} := by constructor <;> simp

/-- What a poll does in a state of the invariant. -/
theorem poll_eq (s : St) (h : Inv s) :
    (s.listener = .waiting ∧ s.step .poll = s) ∨
    (s.stopping = true ∧ s.step .poll = s) ∨
    (s.listener ≠ .waiting ∧ s.channel = 1 ∧ s.receivedShutdown = false ∧
      s.step .poll = { s with channel := 0, receivedShutdown := true, retired := true }) ∨
    (s.listener = .done ∧ s.channel = 0 ∧ s.retired = true ∧ s.step .poll = { s with stopping := true }) ∨
    (s.listener = .sent ∧ s.channel = 0 ∧ s.retired = true ∧ s.step .poll = s) := by
  obtain ⟨h1, h2, h4, h6, h7⟩ := h
  have e : s.step .poll = if s.stopping || s.panicked then s
    else if 0 < s.channel then { s with channel := s.channel - 1 }.received
    else if s.listener = .done then s.received
    else s := rfl
  rw [h7, Bool.or_false] at e
  by_cases hst : s.stopping = true
  · rw [if_pos hst] at e; exact .inr (.inl ⟨hst, e⟩)
  · rw [if_neg hst] at e
    by_cases hw : s.listener = .waiting
    · rw [(h1 hw).1] at e
      rw [if_neg (by omega), hw, if_neg (by decide)] at e
      exact .inl ⟨hw, e⟩
    · rcases (h2 hw).2 with ⟨hc, hr⟩ | ⟨hc, hr⟩
      · rw [hc, if_pos (by omega)] at e
        simp only [St.received, hr, Bool.false_eq_true, if_false] at e
        exact .inr (.inr (.inl ⟨hw, hc, hr, by rw [e, h7]⟩))
      · rw [hc, if_neg (by omega)] at e
        have hret : s.retired = true := by rw [← h4]; exact hr
        cases hl : s.listener with
        | waiting => exact absurd hl hw
        | sent =>
          rw [hl, if_neg (by decide)] at e
          exact .inr (.inr (.inr (.inr ⟨rfl, hc, hret, e⟩)))
        | done =>
          rw [hl, if_pos rfl] at e
          simp only [St.received, hr, if_true, hret] at e
          exact .inr (.inr (.inr (.inl ⟨rfl, hc, hret, by rw [e, hl, hr, hret]⟩)))

theorem listen_eq (s : St) : s.step .listen =
    match s.listener with
    | .waiting => if 0 < s.signals then { s with listener := .sent, channel := s.channel + 1 } else s
    | .sent => { s with listener := .done }
    | .done => s := rfl

theorem inv_step (s : St) (a : Act) (h : Inv s) : Inv (s.step a) := by
  cases a with
  | signal =>
    obtain ⟨h1, h2, h4, h6, h7⟩ := h
    exact ⟨h1, fun hw => ⟨Nat.succ_pos _, (h2 hw).2⟩, h4, h6, h7⟩
  | listen =>
    obtain ⟨h1, h2, h4, h6, h7⟩ := h
    rw [listen_eq]
    cases hl : s.listener with
    | waiting =>
      obtain ⟨c0, r0⟩ := h1 hl
      simp only
      split
      · rename_i hp
        exact ⟨(fun h => by cases h), fun _ => ⟨hp, .inl ⟨by simp [c0], r0⟩⟩, h4, h6, h7⟩
      · exact ⟨h1, h2, h4, h6, h7⟩
    | sent => exact ⟨(fun h => by cases h), fun _ => h2 (by rw [hl]; decide), h4, h6, h7⟩
    | done => exact ⟨h1, h2, h4, h6, h7⟩
  | poll =>
    rcases poll_eq s h with ⟨-, e⟩ | ⟨-, e⟩ | ⟨hw, hc, hr, e⟩ | ⟨hd, hc, hr, e⟩ | ⟨-, -, -, e⟩
    · rw [e]; exact h
    · rw [e]; exact h
    · rw [e]
      exact ⟨fun h => absurd h hw, fun _ => ⟨(h.woken hw).1, .inr ⟨rfl, rfl⟩⟩, rfl, fun _ => rfl, h.panicked⟩
    · rw [e]
      exact ⟨h.waiting, h.woken, h.flag, fun _ => hr, h.panicked⟩
    · rw [e]; exact h

theorem inv_run (as : List Act) (s : St) (h : Inv s) : Inv (s.run as) := by
  induction as generalizing s with
  | nil => exact h
  | cons a as ih => exact ih _ (inv_step s a h)

theorem signals_run (as : List Act) (s : St) : (s.run as).signals = s.signals + as.count .signal := by
  induction as generalizing s with
  | nil => simp [St.run]
  | cons a as ih =>
    rw [run_cons, ih, List.count_cons]
    have : (s.step a).signals = s.signals + if a == .signal then 1 else 0 := by
      cases a with
      | signal => rfl
      | listen => rw [listen_eq]; cases s.listener <;> simp <;> split <;> rfl
      | poll =>
        rw [show (Act.poll == Act.signal) = false from rfl]
        unfold St.step St.received; simp only; repeat' split
        all_goals first | rfl | contradiction
    omega

theorem run_sub_cons (a : Act) (l bs : List Act) (h : List.Sublist (a :: l) bs) :
    ∃ r1 r2, bs = r1 ++ r2 ∧ a ∈ r1 ∧ List.Sublist l r2 := List.cons_sublist_iff.mp h

end Abq.Signals

namespace Abq.Props
open Abq.Signals

/-- **C70.** A queue is not retired, let alone stopped, unless the process receives a signal to terminate; and its assertion
that it is retired when it stops never fails. -/
theorem C70_not_without_signal (as : List Act) :
    ((({} : St).run as).retired = true → Act.signal ∈ as) ∧
    ((({} : St).run as).stopping = true → (({} : St).run as).retired = true) ∧
    (({} : St).run as).panicked = false := by
  have inv := inv_run as {} inv_init
  refine ⟨fun h => ?_, inv.last, inv.panicked⟩
  have hl : (({} : St).run as).listener ≠ .waiting := by
    intro hw
    have := (inv.waiting hw).2
    rw [inv.flag, h] at this; cases this
  have := (inv.woken hl).1
  rw [signals_run] at this
  exact List.count_pos_iff.mp (by simpa using this)

/-- The states on the way to the end. -/
def Sent (s : St) : Prop := Inv s ∧ s.listener ≠ .waiting
def Ended (s : St) : Prop := Inv s ∧ s.listener = .done
def EndedRetired (s : St) : Prop := Inv s ∧ s.listener = .done ∧ s.retired = true
def Signalled (s : St) : Prop := Inv s ∧ 0 < s.signals

theorem signalled_keep (s : St) (b : Act) : Signalled s → Signalled (s.step b) := by
  intro ⟨h, hp⟩
  refine ⟨inv_step s b h, ?_⟩
  have := signals_run [b] s
  rw [show s.run [b] = s.step b from rfl] at this
  omega

theorem listener_keep (s : St) (b : Act) (h : Inv s) :
    (s.listener ≠ .waiting → (s.step b).listener ≠ .waiting) ∧ (s.listener = .done → (s.step b).listener = .done) := by
  cases b with
  | signal => exact ⟨id, id⟩
  | listen => rw [listen_eq]; cases hl : s.listener <;> simp [hl]
  | poll =>
    rcases poll_eq s h with ⟨-, e⟩ | ⟨-, e⟩ | ⟨-, -, -, e⟩ | ⟨-, -, -, e⟩ | ⟨-, -, -, e⟩ <;> rw [e] <;> exact ⟨id, id⟩

theorem retired_keep (s : St) (b : Act) (h : Inv s) : s.retired = true → (s.step b).retired = true := by
  cases b with
  | signal => exact id
  | listen => rw [listen_eq]; cases s.listener <;> simp; split <;> simp
  | poll =>
    rcases poll_eq s h with ⟨-, e⟩ | ⟨-, e⟩ | ⟨-, -, -, e⟩ | ⟨-, -, -, e⟩ | ⟨-, -, -, e⟩ <;> rw [e] <;> intro h <;>
      first | exact h | rfl

theorem stopping_keep (s : St) (b : Act) (h : Inv s) : s.stopping = true → (s.step b).stopping = true := by
  cases b with
  | signal => exact id
  | listen => rw [listen_eq]; cases s.listener <;> simp; split <;> simp
  | poll =>
    rcases poll_eq s h with ⟨-, e⟩ | ⟨-, e⟩ | ⟨-, -, -, e⟩ | ⟨-, -, -, e⟩ | ⟨-, -, -, e⟩ <;> rw [e] <;> intro h <;>
      first | exact h | rfl

theorem sent_poll (s : St) (h : Sent s) : (s.step .poll).retired = true := by
  rcases poll_eq s h.1 with ⟨hw, -⟩ | ⟨hs, e⟩ | ⟨-, -, -, e⟩ | ⟨-, -, hr, e⟩ | ⟨-, -, hr, e⟩
  · exact absurd hw h.2
  · rw [e]; exact h.1.last hs
  · rw [e]
  · rw [e]; exact hr
  · rw [e]; exact hr

theorem ended_poll (s : St) (h : EndedRetired s) : (s.step .poll).stopping = true := by
  obtain ⟨hi, hd, hr⟩ := h
  rcases poll_eq s hi with ⟨hw, -⟩ | ⟨hs, e⟩ | ⟨-, -, h0, -⟩ | ⟨-, -, -, e⟩ | ⟨hs, -⟩
  · rw [hd] at hw; cases hw
  · rw [e]; exact hs
  · rw [hi.flag, hr] at h0; cases h0
  · rw [e]
  · rw [hd] at hs; cases hs

/-- **C70** (retiring). Once the process received a signal, the queue is retired as soon as the listening thread and then the
main loop had a turn, whatever else happens. -/
theorem C70_retires_partial (as bs : List Act) (hs : Act.signal ∈ as) (hb : List.Sublist [Act.listen, .poll] bs) :
    (({} : St).run (as ++ bs)).retired = true := by
  have h0 : Signalled (({} : St).run as) :=
    ⟨inv_run as {} inv_init, by rw [signals_run]; have := List.count_pos_iff.mpr hs; omega⟩
  obtain ⟨b1, b2, rfl, m1, hb⟩ := run_sub_cons _ _ _ hb
  rw [run_append, run_append]
  have h1 : Sent ((({} : St).run as).run b1) := reach .listen signalled_keep
    (fun s b h => ⟨inv_step s b h.1, (listener_keep s b h.1).1 h.2⟩)
    (fun s h => ⟨inv_step s _ h.1, by rw [listen_eq]; cases hl : s.listener <;> simp [h.2, hl]⟩) b1 _ h0 m1
  have h2 : Inv (((({} : St).run as).run b1).run b2) ∧ (((({} : St).run as).run b1).run b2).retired = true :=
    reach (Q := fun s => Inv s ∧ s.retired = true) .poll
    (fun s b h => ⟨inv_step s b h.1, (listener_keep s b h.1).1 h.2⟩)
    (fun s b h => ⟨inv_step s b h.1, retired_keep s b h.1 h.2⟩)
    (fun s h => ⟨inv_step s _ h.1, sent_poll s h⟩) b2 _ h1 (by simpa using hb)
  exact h2.2

/-- **C70 fails** as documented ("retires on one term signal, and dies on two"), in every schedule: after a single signal, the
queue stops as soon as the listening thread and the main loop had two turns each, whether or not there are runs that have not
finished. -/
theorem C70_one_signal_kills (as bs : List Act) (hs : Act.signal ∈ as)
    (hb : List.Sublist [Act.listen, .listen, .poll, .poll] bs) : (({} : St).run (as ++ bs)).stopping = true := by
  have h0 : Signalled (({} : St).run as) :=
    ⟨inv_run as {} inv_init, by rw [signals_run]; have := List.count_pos_iff.mpr hs; omega⟩
  obtain ⟨b1, b2, rfl, m1, hb⟩ := run_sub_cons _ _ _ hb
  obtain ⟨b2, b3, rfl, m2, hb⟩ := run_sub_cons _ _ _ hb
  obtain ⟨b3, b4, rfl, m3, hb⟩ := run_sub_cons _ _ _ hb
  rw [run_append, run_append, run_append, run_append]
  have k1 : ∀ s b, Sent s → Sent (s.step b) := fun s b h => ⟨inv_step s b h.1, (listener_keep s b h.1).1 h.2⟩
  have k2 : ∀ s b, Ended s → Ended (s.step b) := fun s b h => ⟨inv_step s b h.1, (listener_keep s b h.1).2 h.2⟩
  have k3 : ∀ s b, EndedRetired s → EndedRetired (s.step b) := fun s b h =>
    ⟨inv_step s b h.1, (listener_keep s b h.1).2 h.2.1, retired_keep s b h.1 h.2.2⟩
  have h1 : Sent ((({} : St).run as).run b1) := reach .listen signalled_keep k1
    (fun s h => ⟨inv_step s _ h.1, by rw [listen_eq]; cases hl : s.listener <;> simp [h.2, hl]⟩) b1 _ h0 m1
  have h2 : Ended (((({} : St).run as).run b1).run b2) := reach .listen k1 k2
    (fun s h => ⟨inv_step s _ h.1, by
      rw [listen_eq]
      cases hl : s.listener with
      | waiting => exact absurd hl h.2
      | sent => rfl
      | done => exact hl⟩) b2 _ h1 m2
  have h3 : EndedRetired ((((({} : St).run as).run b1).run b2).run b3) := reach .poll k2 k3
    (fun s h => ⟨inv_step s _ h.1, (listener_keep s _ h.1).2 h.2,
      sent_poll s ⟨h.1, by rw [h.2]; decide⟩⟩) b3 _ h2 m3
  exact (reach (Q := fun s => Inv s ∧ s.stopping = true) .poll k3
    (fun s b h => ⟨inv_step s b h.1, stopping_keep s b h.1 h.2⟩)
    (fun s h => ⟨inv_step s _ h.1, ended_poll s h⟩) b4 _ h3 (by simpa using hb)).2

/-- **C70 fails** as documented: it is not so that the queue stops only if two signals were received. -/
theorem C70_full_statement_fails :
    ¬ ∀ as : List Act, (({} : St).run as).stopping = true → 2 ≤ as.count .signal := by
  intro h
  exact absurd (h [.signal, .listen, .listen, .poll, .poll] rfl) (by decide)

/-- The steps of the theorems, with others between them. -/
example : (({} : St).run [.poll, .signal, .poll, .listen, .poll, .poll]).retired = true ∧
    (({} : St).run [.poll, .signal, .poll, .listen, .poll, .poll]).stopping = false := by decide

end Abq.Props
