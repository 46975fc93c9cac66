import Verif.Spec.BufferedResults

/-! # Batching results (C29) -/

namespace Abq.Buffered
variable {α : Type}

structure Ok (b : Buffer α) : Prop where
  sizes : ∀ s ∈ b.sent, s ≠ [] ∧ s.length ≤ max 1 b.batchSize
  small : b.buffer.length < max 1 b.batchSize

theorem ok_new (n : Nat) : Ok (Buffer.new α n) := ⟨by simp [Buffer.new], by simp [Buffer.new]; omega⟩

theorem ok_op {b : Buffer α} (h : Ok b) (o : Op α) : Ok (b.op o) := by
  have hs := h.small
  cases o with
  | push x =>
    simp only [Buffer.op, Buffer.push, Buffer.send]
    split
    · refine ⟨?_, by simp; omega⟩
      intro s hm
      simp only [List.mem_append, List.mem_singleton] at hm
      rcases hm with hm | rfl
      · exact h.sizes s hm
      · simp; omega
    · rename_i hlt
      refine ⟨h.sizes, ?_⟩
      simp only [List.length_append, List.length_singleton] at hlt ⊢
      omega
  | flush =>
    simp only [Buffer.op, Buffer.flush, Buffer.send]
    split
    · exact h
    · rename_i hne
      refine ⟨?_, by simp; omega⟩
      intro s hm
      simp only [List.mem_append, List.mem_singleton] at hm
      rcases hm with hm | rfl
      · exact h.sizes s hm
      · exact ⟨by intro e; rw [e] at hne; simp at hne, by dsimp only; omega⟩

theorem op_content (b : Buffer α) (o : Op α) :
    (b.op o).sent.flatten ++ (b.op o).buffer = b.sent.flatten ++ b.buffer ++ pushes [o] := by
  cases o with
  | push x =>
    simp only [Buffer.op, Buffer.push, Buffer.send, pushes]
    split <;> simp
  | flush =>
    simp only [Buffer.op, Buffer.flush, Buffer.send, pushes]
    split <;> simp

theorem op_batchSize (b : Buffer α) (o : Op α) : (b.op o).batchSize = b.batchSize := by
  cases o with
  | push x => simp only [Buffer.op, Buffer.push, Buffer.send]; split <;> rfl
  | flush => simp only [Buffer.op, Buffer.flush, Buffer.send]; split <;> rfl

theorem ops_all (b : Buffer α) (h : Ok b) (os : List (Op α)) :
    Ok (b.ops os) ∧ (b.ops os).batchSize = b.batchSize ∧
    (b.ops os).sent.flatten ++ (b.ops os).buffer = b.sent.flatten ++ b.buffer ++ pushes os := by
  induction os generalizing b with
  | nil => exact ⟨h, rfl, by simp [Buffer.ops, pushes]⟩
  | cons o os ih =>
    obtain ⟨h1, h2, h3⟩ := ih (b.op o) (ok_op h o)
    refine ⟨h1, h2.trans (op_batchSize b o), ?_⟩
    refine h3.trans ?_
    rw [op_content]
    cases o <;> simp [pushes]

end Abq.Buffered

