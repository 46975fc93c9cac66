import Verif.Proof.Delivery
import Verif.Props.BufferedResults

/-!
# C114: a runner's results reach the queue once, in order, or the runner fails
-/

namespace Abq.Props
open Abq.Buffered Abq.Delivery
variable {α : Type}

/-- **C114.** Whatever fails and wherever the runner is stopped, the results the queue has received, and those the local reporters
were told of, are a first part of those the runner took in hand, in order and each once. At most the batch that is being delivered
is missing: what came before it is at the queue. -/
theorem C114_in_order (n : Nat) (as : List (Act α)) :
    let t := (Sender.new α n).run as
    (∃ missing, t.received.flatten ++ missing ++ t.buffer.buffer = taken (Sender.new α n) as ∧ missing.length ≤ max 1 n) ∧
    (∃ missing, t.told.flatten ++ missing ++ t.buffer.buffer = taken (Sender.new α n) as ∧ missing.length ≤ max 1 n) ∧
    t.buffer.buffer.length < max 1 n := by
  intro t
  have hi := inv_run (α := α) n as
  have hc := content_run as (Sender.new α n)
  obtain ⟨hok, hbs⟩ := ok_run as (Sender.new α n) (Buffered.ok_new n)
  have hbs : t.buffer.batchSize = n := hbs
  obtain ⟨hs, ht⟩ := stage_take hi.stage
  have hlast : ∀ k, t.buffer.sent.length ≤ k + 1 → (t.buffer.sent.drop k).flatten.length ≤ max 1 n := by
    intro k hk
    have hl : (t.buffer.sent.drop k).length ≤ 1 := by rw [List.length_drop]; omega
    match hd : t.buffer.sent.drop k, hl with
    | [], _ => simp
    | [x], _ =>
      have hx : x ∈ t.buffer.sent := List.mem_of_mem_drop (by rw [hd]; simp)
      have := (hok.sizes x hx).2
      rw [show t.buffer.batchSize = n from hbs] at this
      simpa using this
  have hpart : ∀ k, (t.buffer.sent.take k).flatten ++ (t.buffer.sent.drop k).flatten ++ t.buffer.buffer =
      taken (Sender.new α n) as := by
    intro k
    rw [← List.flatten_append, List.take_append_drop]
    exact hc
  refine ⟨?_, ?_, ?_⟩
  · obtain ⟨k, hk, hl⟩ := hs
    exact ⟨_, by rw [show t.received = _ from hk]; exact hpart k, hlast k hl⟩
  · obtain ⟨k, hk, hl⟩ := ht
    exact ⟨_, by rw [show t.told = _ from hk]; exact hpart k, hlast k hl⟩
  · have := hok.small
    rw [show ((Sender.new α n).run as).buffer.batchSize = n from hbs] at this
    exact this

/-- **C114.** When the task has come to its end, all results the runner had are at the queue, which acknowledged them, and with the
local reporters, each once and in order; and the tracker of retries was told of the same. -/
theorem C114_all_delivered (n : Nat) (as : List (Act α)) (hf : ((Sender.new α n).run as).finished = true) :
    let t := (Sender.new α n).run as
    t.received.flatten = taken (Sender.new α n) as ∧ t.told = t.received ∧ t.tracked = t.received := by
  intro t
  simp only [Sender.finished, Bool.and_eq_true, beq_iff_eq] at hf
  have hi := inv_run (α := α) n as
  have hc := content_run as (Sender.new α n)
  have hl := closed_run as (Sender.new α n) (by simp [Sender.new]) hf.1
  have hst := hi.stage
  unfold Stage at hst
  rw [hf.2] at hst
  simp only at hst
  rw [hl, List.append_nil] at hc
  exact ⟨by rw [show t.received = _ from hst.1]; exact hc, by rw [show t.told = _ from hst.2, show t.received = _ from hst.1],
    by rw [show t.tracked = _ from hi.tracked, show t.received = _ from hst.1]⟩

/-- **C114.** A task that panicked or was dropped does nothing more: nothing is delivered again, or later. -/
theorem C114_no_second_try (n : Nat) (as bs : List (Act α)) (hb : Broken ((Sender.new α n).run as)) :
    Broken ((Sender.new α n).run (as ++ bs)) ∧ ((Sender.new α n).run (as ++ bs)).finished = false ∧
    ((Sender.new α n).run (as ++ bs)).received = ((Sender.new α n).run as).received ∧
    ((Sender.new α n).run (as ++ bs)).told = ((Sender.new α n).run as).told := by
  have key : ∀ t : Sender α, Broken t → Broken (t.run bs) ∧ (t.run bs).received = t.received ∧ (t.run bs).told = t.told := by
    induction bs with
    | nil => exact fun t h => ⟨h, rfl, rfl⟩
    | cons b bs ih =>
      intro t h
      obtain ⟨h1, h2, h3, -⟩ := broken_step h b
      obtain ⟨k1, k2, k3⟩ := ih _ h1
      exact ⟨k1, k2.trans h2, k3.trans h3⟩
  have hrun : (Sender.new α n).run (as ++ bs) = ((Sender.new α n).run as).run bs := List.foldl_append
  rw [hrun]
  obtain ⟨h1, h2, h3⟩ := key _ hb
  refine ⟨h1, ?_, h2, h3⟩
  rcases h1 with h1 | h1 <;> simp [Sender.finished, h1]

/-- **C114.** Each batch is delivered as soon as the queue can be reached in one of five attempts, and reads and acknowledges it;
and if all five attempts fail, or it is written or acknowledged in vain, the runner panics. -/
theorem C114_delivers (t : Sender α) (l : Bool) (hp : t.phase = .sending (.connecting 1) l) (k : Nat) (hk : k < 5) :
    (t.run (List.replicate k (.connect false) ++ [.connect true, .write true true, .ack true, .tellLocal])).phase = .idle ∧
    (t.run (List.replicate 5 (.connect false))).phase = .panicked ∧
    (∀ x, (t.run (List.replicate k (.connect false) ++ [.connect true, .write false x])).phase = .panicked) ∧
    (∀ x, (t.run (List.replicate k (.connect false) ++ [.connect true, .write true x, .ack false])).phase = .panicked) := by
  obtain ⟨b, ph, cl, tr, re, tl, at'⟩ := t
  simp only at hp
  subst hp
  match k, hk with
  | 0, _ => cases l <;> simp [Sender.run, Sender.step, joined, List.replicate]
  | 1, _ => cases l <;> simp [Sender.run, Sender.step, joined, List.replicate]
  | 2, _ => cases l <;> simp [Sender.run, Sender.step, joined, List.replicate]
  | 3, _ => cases l <;> simp [Sender.run, Sender.step, joined, List.replicate]
  | 4, _ => cases l <;> simp [Sender.run, Sender.step, joined, List.replicate]

/-- **C114.** No more than five attempts are made to connect for a batch. -/
theorem C114_attempts (n : Nat) (as : List (Act α)) : ∀ k ∈ ((Sender.new α n).run as).attempts, 1 ≤ k ∧ k ≤ 5 :=
  (inv_run n as).attempts

/-- Three results in batches of two: the first connection takes two attempts. -/
def threeResults : List (Act Nat) :=
  [.op (.push 1), .op (.push 2), .connect false, .tellLocal, .connect true, .write true true, .ack true, .op (.push 3), .close,
   .connect true, .write true true, .tellLocal, .ack true]

example : ((Sender.new Nat 2).run threeResults).finished = true ∧ ((Sender.new Nat 2).run threeResults).received = [[1, 2], [3]] ∧
    taken (Sender.new Nat 2) threeResults = [1, 2, 3] := by decide

/-- The acknowledgement is lost: the runner panics, though the queue has the results. -/
example : let t := (Sender.new Nat 2).run (threeResults.take 9 ++ [.connect true, .write true true, .ack false])
    t.phase = .panicked ∧ t.received = [[1, 2], [3]] ∧ t.told = [[1, 2]] := by decide

/-- The request is lost: the runner panics, and the queue has the results of the first batch. -/
example : let t := (Sender.new Nat 2).run (threeResults.take 9 ++ [.connect true, .write false false])
    t.phase = .panicked ∧ t.received = [[1, 2]] ∧ t.tracked = [[1, 2], [3]] := by decide

example : Broken ((Sender.new Nat 2).run (threeResults.take 9 ++ [.connect true, .write true true, .ack false])) := .inl (by decide)

example : ((Sender.new Nat 2).run (threeResults.take 2)).phase = .sending (.connecting 1) false := by decide

end Abq.Props
