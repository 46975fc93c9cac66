import Verif.Proof.BufferedResults

/-!
# Buffered results are neither lost, duplicated nor reordered (C29)

All theorems are about every sequence of calls of `push` and `flush` and every batch size.
-/

namespace Abq.Props
open Abq.Buffered

/-- **C29.** What was sent, then what is buffered, is what was pushed: in order, each once. Batches are not
empty and not larger than the batch size (a size of zero counts as one), and what is buffered is smaller. -/
theorem C29_sent_in_order (α : Type) (batchSize : Nat) (os : List (Op α)) :
    let b := (Buffer.new α batchSize).ops os
    b.sent.flatten ++ b.buffer = pushes os ∧
    (∀ s ∈ b.sent, s ≠ [] ∧ s.length ≤ max 1 batchSize) ∧ b.buffer.length < max 1 batchSize := by
  obtain ⟨h1, h2, h3⟩ := ops_all (Buffer.new α batchSize) (Buffered.ok_new batchSize) os
  have h2 : ((Buffer.new α batchSize).ops os).batchSize = batchSize := h2
  refine ⟨by simpa [Buffer.new] using h3, ?_, ?_⟩
  · have := h1.sizes; rw [h2] at this; exact this
  · have := h1.small; rw [h2] at this; exact this

/-- **C29.** After a flush everything pushed was sent. -/
theorem C29_nothing_left_after_flush (α : Type) (batchSize : Nat) (os : List (Op α)) :
    let b := (Buffer.new α batchSize).ops (os ++ [.flush])
    b.buffer = [] ∧ b.sent.flatten = pushes os := by
  have h := (C29_sent_in_order α batchSize (os ++ [.flush])).1
  have he : ((Buffer.new α batchSize).ops (os ++ [.flush])).buffer = [] := by
    have : (Buffer.new α batchSize).ops (os ++ [.flush]) = ((Buffer.new α batchSize).ops os).flush := by
      simp [Buffer.ops, Buffer.op]
    rw [this]
    simp only [Buffer.flush, Buffer.send]
    split
    · rename_i hh; exact List.isEmpty_iff.mp hh
    · rfl
  refine ⟨he, ?_⟩
  rw [he, List.append_nil] at h
  rw [h]
  clear h he
  induction os with
  | nil => rfl
  | cons o os ih => cases o <;> simp [pushes, ih]

example : (Buffer.new Nat 2).ops [.push 1, .flush, .push 2, .push 3, .push 4] =
    ⟨2, [4], [[1], [2, 3]]⟩ := by decide

end Abq.Props
