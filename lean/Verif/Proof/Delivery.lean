import Verif.Spec.Delivery
import Verif.Proof.BufferedResults

/-!
# Delivering results: invariant
-/

namespace Abq.Delivery
open Abq.Buffered
variable {α : Type}

/-- All but the batch that is under way. -/
def Whole (b : Bool) (sent l : List (List α)) : Prop := l = if b then sent else sent.dropLast

/-- What the queue and the local handler have at each point. -/
def Stage (t : Sender α) : Prop :=
  match t.phase with
  | .idle => t.received = t.buffer.sent ∧ t.told = t.buffer.sent
  | .sending r l => t.buffer.sent ≠ [] ∧ ¬ (r = .done ∧ l = true) ∧ Whole l t.buffer.sent t.told ∧
      Whole (match r with | .reading x => x | .done => true | _ => false) t.buffer.sent t.received ∧
      (∀ k, r = .connecting k → 1 ≤ k ∧ k ≤ 5)
  | _ => (∃ x, Whole x t.buffer.sent t.received) ∧ ∃ x, Whole x t.buffer.sent t.told

structure Inv (t : Sender α) : Prop where
  tracked : t.tracked = t.buffer.sent
  stage : Stage t
  attempts : ∀ k ∈ t.attempts, 1 ≤ k ∧ k ≤ 5

theorem op_sent (b : Buffer α) (o : Op α) : (b.op o).sent = b.sent ∨ ∃ x, (b.op o).sent = b.sent ++ [x] := by
  cases o with
  | push x => simp only [Buffer.op, Buffer.push, Buffer.send]; split <;> simp
  | flush => simp only [Buffer.op, Buffer.flush, Buffer.send]; split <;> simp

theorem dropLast_drop {l : List (List α)} (h : l ≠ []) : l.dropLast ++ l.drop (l.length - 1) = l := by
  rw [List.dropLast_eq_take, List.take_append_drop]

theorem stage_joined {t : Sender α} {r : Remote} {l : Bool} (h0 : t.buffer.sent ≠ []) (h1 : Whole l t.buffer.sent t.told)
    (h2 : Whole (match r with | .reading x => x | .done => true | _ => false) t.buffer.sent t.received)
    (h3 : ∀ k, r = .connecting k → 1 ≤ k ∧ k ≤ 5) (hp : t.phase = joined r l) : Stage t := by
  unfold Stage
  rw [hp]
  cases r <;> cases l <;> simp only [joined]
  all_goals first
    | exact ⟨h0, by simp, h1, h2, h3⟩
    | exact ⟨h2, h1⟩

theorem flush_left (b : Buffer α) : (b.op .flush).buffer = [] := by
  simp only [Buffer.op, Buffer.flush, Buffer.send]
  split
  · rename_i h; exact List.isEmpty_iff.mp h
  · rfl

theorem inv_call {t : Sender α} (h : Inv t) (hp : t.phase = .idle) (o : Op α) : Inv (t.call o) := by
  obtain ⟨h1, h2, h3⟩ := h
  obtain ⟨b, ph, cl, tr, re, tl, at'⟩ := t
  simp only at h1 hp
  subst h1 hp
  simp only [Sender.call]
  simp only [Stage] at h2
  obtain ⟨e1, e2⟩ := h2
  subst e1
  rcases op_sent b o with hs | ⟨x, hs⟩
  · rw [if_pos (by rw [hs])]
    exact ⟨hs.symm, by simp only [Stage]; rw [hs]; exact ⟨rfl, e2⟩, h3⟩
  · rw [if_neg (by rw [hs]; simp)]
    refine ⟨by simp [hs], ?_, h3⟩
    simp only [Stage]
    refine ⟨by simp [hs], by simp, ?_, ?_, ?_⟩
    · simp [Whole, hs, e2]
    · simp [Whole, hs]
    · intro k hk; cases hk; omega

theorem inv_step {t : Sender α} (h : Inv t) (a : Act α) : Inv (t.step a) := by
  have h0 := h
  obtain ⟨h1, h2, h3⟩ := h
  obtain ⟨b, ph, cl, tr, re, tl, at'⟩ := t
  simp only at h1
  subst h1
  cases a with
  | op o =>
    simp only [Sender.step]
    split
    · rename_i hp; exact inv_call h0 hp.1 o
    · exact h0
  | close =>
    simp only [Sender.step]
    split
    · rename_i hp; exact inv_call (t := ⟨b, ph, true, b.sent, re, tl, at'⟩) ⟨rfl, h2, h3⟩ hp.1 .flush
    · exact h0
  | connect ok =>
    cases ph with
    | idle => exact ⟨rfl, h2, h3⟩
    | panicked => exact ⟨rfl, h2, h3⟩
    | dropped => exact ⟨rfl, h2, h3⟩
    | sending r l =>
      cases r with
      | connecting k =>
        simp only [Stage] at h2
        obtain ⟨a1, a2, a3, a4, a5⟩ := h2
        have hk := a5 k rfl
        simp only [Sender.step]
        refine ⟨rfl, ?_, ?_⟩
        · cases ok with
          | true => simp only [Stage]; exact ⟨a1, by simp, a3, a4, by simp⟩
          | false =>
            simp only [Stage]
            by_cases h5 : k < 5
            · simp only [h5, if_true, Bool.false_eq_true, if_false]
              exact ⟨a1, by simp, a3, a4, fun k' hk' => by cases hk'; omega⟩
            · simp only [h5, Bool.false_eq_true, if_false]
              exact ⟨⟨_, a4⟩, ⟨_, a3⟩⟩
        · intro j hj
          rcases List.mem_append.1 hj with hj | hj
          · exact h3 j hj
          · simp only [List.mem_singleton] at hj; subst hj; exact hk
      | writing => exact ⟨rfl, h2, h3⟩
      | reading x => exact ⟨rfl, h2, h3⟩
      | done => exact ⟨rfl, h2, h3⟩
  | write ok reaches =>
    cases ph with
    | idle => exact ⟨rfl, h2, h3⟩
    | panicked => exact ⟨rfl, h2, h3⟩
    | dropped => exact ⟨rfl, h2, h3⟩
    | sending r l =>
      cases r with
      | connecting k => exact ⟨rfl, h2, h3⟩
      | reading x => exact ⟨rfl, h2, h3⟩
      | done => exact ⟨rfl, h2, h3⟩
      | writing =>
        simp only [Stage] at h2
        obtain ⟨a1, a2, a3, a4, a5⟩ := h2
        have hre : re = b.sent.dropLast := by simpa [Whole] using a4
        have hw : Whole reaches b.sent (if reaches then re ++ b.sent.drop (b.sent.length - 1) else re) := by
          cases reaches with
          | true => simp only [Whole, if_true]; rw [hre, dropLast_drop a1]
          | false => simp only [Whole, Bool.false_eq_true, if_false]; exact hre
        simp only [Sender.step]
        refine ⟨rfl, ?_, h3⟩
        cases ok with
        | true => simp only [Stage, if_true]; exact ⟨a1, by simp, a3, hw, by simp⟩
        | false => simp only [Stage, Bool.false_eq_true, if_false]; exact ⟨⟨_, hw⟩, ⟨_, a3⟩⟩
  | ack ok =>
    cases ph with
    | idle => exact ⟨rfl, h2, h3⟩
    | panicked => exact ⟨rfl, h2, h3⟩
    | dropped => exact ⟨rfl, h2, h3⟩
    | sending r l =>
      cases r with
      | connecting k => exact ⟨rfl, h2, h3⟩
      | writing => exact ⟨rfl, h2, h3⟩
      | done => exact ⟨rfl, h2, h3⟩
      | reading x =>
        simp only [Stage] at h2
        obtain ⟨a1, a2, a3, a4, a5⟩ := h2
        simp only [Sender.step]
        cases ok with
        | true =>
          cases x with
          | true => exact ⟨rfl, stage_joined (r := .done) (l := l) a1 a3 a4 (by simp) rfl, h3⟩
          | false =>
            simp only [Bool.false_eq_true, if_false, if_true]
            exact ⟨rfl, by simp only [Stage]; exact ⟨a1, a2, a3, a4, a5⟩, h3⟩
        | false =>
          simp only [Bool.false_eq_true, if_false]
          exact ⟨rfl, by simp only [Stage]; exact ⟨⟨_, a4⟩, ⟨_, a3⟩⟩, h3⟩
  | tellLocal =>
    cases ph with
    | idle => exact ⟨rfl, h2, h3⟩
    | panicked => exact ⟨rfl, h2, h3⟩
    | dropped => exact ⟨rfl, h2, h3⟩
    | sending r l =>
      cases l with
      | true => exact ⟨rfl, h2, h3⟩
      | false =>
        simp only [Stage] at h2
        obtain ⟨a1, a2, a3, a4, a5⟩ := h2
        have htl : tl = b.sent.dropLast := by simpa [Whole] using a3
        simp only [Sender.step]
        refine ⟨rfl, stage_joined (r := r) (l := true) a1 ?_ a4 a5 rfl, h3⟩
        simp only [Whole, if_true]
        rw [htl, dropLast_drop a1]
  | drop =>
    cases ph with
    | panicked => exact ⟨rfl, h2, h3⟩
    | dropped => exact ⟨rfl, h2, h3⟩
    | idle =>
      simp only [Stage] at h2
      exact ⟨rfl, ⟨⟨true, h2.1⟩, ⟨true, h2.2⟩⟩, h3⟩
    | sending r l =>
      simp only [Stage] at h2
      obtain ⟨a1, a2, a3, a4, a5⟩ := h2
      exact ⟨rfl, ⟨⟨_, a4⟩, ⟨_, a3⟩⟩, h3⟩

theorem inv_new (n : Nat) : Inv (Sender.new α n) := ⟨rfl, ⟨rfl, rfl⟩, by simp [Sender.new]⟩

theorem inv_run (n : Nat) (as : List (Act α)) : Inv ((Sender.new α n).run as) := by
  suffices ∀ t : Sender α, Inv t → Inv (t.run as) from this _ (inv_new n)
  induction as with
  | nil => exact fun t h => h
  | cons a as ih => exact fun t h => ih _ (inv_step h a)

theorem call_buffer (t : Sender α) (o : Op α) : (t.call o).buffer = t.buffer.op o ∧ (t.call o).closed = t.closed := by
  simp only [Sender.call]
  split <;> exact ⟨rfl, rfl⟩

theorem step_buffer (t : Sender α) (a : Act α) :
    ((t.step a).buffer = match a with
      | .op o => if t.phase = .idle ∧ t.closed = false then t.buffer.op o else t.buffer
      | .close => if t.phase = .idle ∧ t.closed = false then t.buffer.op .flush else t.buffer
      | _ => t.buffer) ∧
    ((t.step a).closed = match a with
      | .close => if t.phase = .idle ∧ t.closed = false then true else t.closed
      | _ => t.closed) := by
  cases a with
  | op o =>
    simp only [Sender.step]
    split
    · exact call_buffer t o
    · exact ⟨rfl, rfl⟩
  | close =>
    simp only [Sender.step]
    split
    · exact call_buffer _ _
    · exact ⟨rfl, rfl⟩
  | connect ok =>
    obtain ⟨b, ph, cl, tr, re, tl, at'⟩ := t
    cases ph <;> simp only [Sender.step, and_self]; rename_i r l; cases r <;> exact ⟨rfl, rfl⟩
  | write ok x =>
    obtain ⟨b, ph, cl, tr, re, tl, at'⟩ := t
    cases ph <;> simp only [Sender.step, and_self]; rename_i r l; cases r <;> exact ⟨rfl, rfl⟩
  | ack ok =>
    obtain ⟨b, ph, cl, tr, re, tl, at'⟩ := t
    cases ph <;> simp only [Sender.step, and_self]
    rename_i r l
    cases r <;> simp only [and_self]
    split
    · split <;> exact ⟨rfl, rfl⟩
    · exact ⟨rfl, rfl⟩
  | tellLocal =>
    obtain ⟨b, ph, cl, tr, re, tl, at'⟩ := t
    cases ph <;> simp only [Sender.step, and_self]; rename_i r l; cases l <;> exact ⟨rfl, rfl⟩
  | drop =>
    obtain ⟨b, ph, cl, tr, re, tl, at'⟩ := t
    cases ph <;> exact ⟨rfl, rfl⟩

theorem closed_run (as : List (Act α)) (t : Sender α) (h : t.closed = true → t.buffer.buffer = []) :
    (t.run as).closed = true → (t.run as).buffer.buffer = [] := by
  induction as generalizing t with
  | nil => exact h
  | cons a as ih =>
    refine ih (t.step a) ?_
    obtain ⟨h1, h2⟩ := step_buffer t a
    rw [h1, h2]
    cases a with
    | op o =>
      simp only []
      split
      · rename_i hp; intro hc; rw [hp.2] at hc; cases hc
      · exact h
    | close =>
      simp only []
      split
      · exact fun _ => flush_left _
      · exact h
    | _ => exact h

theorem content_run (as : List (Act α)) (t : Sender α) :
    (t.run as).buffer.sent.flatten ++ (t.run as).buffer.buffer = t.buffer.sent.flatten ++ t.buffer.buffer ++ taken t as := by
  induction as generalizing t with
  | nil => simp [Sender.run, taken]
  | cons a as ih =>
    rw [show t.run (a :: as) = (t.step a).run as from rfl, ih, (step_buffer t a).1]
    simp only [taken]
    cases a with
    | op o =>
      by_cases hp : t.phase = .idle ∧ t.closed = false
      · simp only []
        rw [if_pos hp, op_content]
        cases o <;> simp [pushes, hp]
      · simp only []
        rw [if_neg hp]
        cases o with
        | push x => simp only []; rw [if_neg hp]; simp
        | flush => simp
    | close =>
      simp only []
      split
      · rw [op_content]; simp [pushes]
      · simp
    | connect ok => simp
    | write ok x => simp
    | ack ok => simp
    | tellLocal => simp
    | drop => simp

theorem ok_run (as : List (Act α)) (t : Sender α) (h : Buffered.Ok t.buffer) :
    Buffered.Ok (t.run as).buffer ∧ (t.run as).buffer.batchSize = t.buffer.batchSize := by
  induction as generalizing t with
  | nil => exact ⟨h, rfl⟩
  | cons a as ih =>
    have h1 : Buffered.Ok (t.step a).buffer ∧ (t.step a).buffer.batchSize = t.buffer.batchSize := by
      rw [(step_buffer t a).1]
      cases a with
      | op o =>
        simp only []
        split
        · exact ⟨Buffered.ok_op h o, op_batchSize _ _⟩
        · exact ⟨h, rfl⟩
      | close =>
        simp only []
        split
        · exact ⟨Buffered.ok_op h _, op_batchSize _ _⟩
        · exact ⟨h, rfl⟩
      | _ => exact ⟨h, rfl⟩
    obtain ⟨h2, h3⟩ := ih _ h1.1
    exact ⟨h2, h3.trans h1.2⟩

theorem whole_take {x : Bool} {sent l : List (List α)} (h : Whole x sent l) :
    ∃ k, l = sent.take k ∧ sent.length ≤ k + 1 := by
  cases x with
  | true => exact ⟨sent.length, by simpa [Whole] using h, by omega⟩
  | false => exact ⟨sent.length - 1, by rw [← List.dropLast_eq_take]; simpa [Whole] using h, by omega⟩

theorem stage_take {t : Sender α} (h : Stage t) :
    (∃ k, t.received = t.buffer.sent.take k ∧ t.buffer.sent.length ≤ k + 1) ∧
    (∃ k, t.told = t.buffer.sent.take k ∧ t.buffer.sent.length ≤ k + 1) := by
  unfold Stage at h
  split at h
  · exact ⟨⟨_, by rw [h.1, List.take_length], by omega⟩, ⟨_, by rw [h.2, List.take_length], by omega⟩⟩
  · exact ⟨whole_take h.2.2.2.1, whole_take h.2.2.1⟩
  · obtain ⟨⟨x, hx⟩, y, hy⟩ := h
    exact ⟨whole_take hx, whole_take hy⟩

theorem broken_step {t : Sender α} (h : Broken t) (a : Act α) : Broken (t.step a) ∧ (t.step a).received = t.received ∧
    (t.step a).told = t.told ∧ (t.step a).buffer = t.buffer := by
  obtain ⟨b, ph, cl, tr, re, tl, at'⟩ := t
  rcases h with h | h <;> simp only at h <;> subst h <;> cases a <;> simp [Sender.step, Broken]

end Abq.Delivery
