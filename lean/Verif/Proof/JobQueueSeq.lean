import Verif.Proof.JobQueueLin
import Verif.Proof.JobQueueMisc

/-! # The job queue executed by one request at a time -/

namespace Abq.JobQueue
variable {T : Type}

/-- A queue as the queue server uses it. -/
structure WF (q : JobQueue T) : Prop where
  cells : q.assigned.length = q.queue.length
  ptr : q.ptr ≤ q.queue.length

theorem wf_new (work : List (T × Nat)) (st : TestStrategy) : (JobQueue.new work st).WF :=
  ⟨by simp [JobQueue.new], by simp [JobQueue.new]⟩

/-- What one request does. -/
structure Pulled (q q' : JobQueue T) (tag : Tag) (items : List T) : Prop where
  queue : q'.queue = q.queue
  strategy : q'.strategy = q.strategy
  assigned : q'.assigned = assignCells q.assigned tag q.ptr q'.ptr
  le : q.ptr ≤ q'.ptr
  le' : q'.ptr ≤ q.queue.length
  lt : q.ptr < q.queue.length → q.ptr < q'.ptr
  items : items = slice q.queue q.ptr q'.ptr

theorem getBounds_spec {q : JobQueue T} (h : q.WF) {n : Nat} (hn : 0 < n) :
    (q.getBounds n).1 = (q.ptr, (q.getBounds n).2) ∧ q.ptr ≤ (q.getBounds n).2 ∧
      (q.getBounds n).2 ≤ q.queue.length ∧ (q.ptr < q.queue.length → q.ptr < (q.getBounds n).2) := by
  have hp := h.ptr
  unfold getBounds
  split
  · simp only [getBoundsByTest, byTestBounds]
    have h1 : ¬ q.ptr > q.queue.length := by omega
    simp only [h1, if_false]
    by_cases h2 : q.ptr + n > q.queue.length
    · simp only [h2, if_true]
      exact ⟨trivial, hp, Nat.le_refl _, fun h => h⟩
    · simp only [h2, if_false, Bool.false_eq_true]
      exact ⟨trivial, by omega, by omega, fun _ => by omega⟩
  · unfold getBoundsByTopLevelGroup
    split
    · rename_i e he
      have hb := groupClosure_bounds he
      exact ⟨rfl, by omega, by omega, fun _ => by omega⟩
    · rename_i he
      have hb := groupClosure_none he
      have : q.ptr = q.queue.length := by omega
      exact ⟨by simp [this], Nat.le_refl _, hp, fun h => by omega⟩

theorem getWork_spec {q : JobQueue T} (h : q.WF) (tag : Tag) {n : Nat} (hn : 0 < n) :
    ∃ q' items, q.getWork tag n = some (q', items) ∧ Pulled q q' tag items := by
  obtain ⟨h1, h2, h3, h4⟩ := getBounds_spec h hn
  refine ⟨{ q with
    ptr := (q.getBounds n).2, assigned := assignCells q.assigned tag q.ptr (q.getBounds n).2 },
    slice q.queue q.ptr (q.getBounds n).2, ?_, rfl, rfl, rfl, h2, h3, h4, rfl⟩
  unfold getWork
  simp only [h1]
  rw [if_pos ⟨h2, by rw [h.cells]; exact h3, h3⟩]

theorem Pulled.wf {q q' : JobQueue T} {tag : Tag} {items : List T} (h : Pulled q q' tag items)
    (hw : q.WF) : q'.WF := by
  refine ⟨?_, by rw [h.queue]; exact h.le'⟩
  rw [h.queue, h.assigned, assignCells_length, hw.cells]

theorem getWork_pulled {q q' : JobQueue T} {tag : Tag} {n : Nat} {items : List T} (h : q.WF)
    (hn : 0 < n) (hg : q.getWork tag n = some (q', items)) : Pulled q q' tag items := by
  obtain ⟨q1, i1, h1, h2⟩ := getWork_spec h tag hn
  rw [hg] at h1
  cases h1
  exact h2

end Abq.JobQueue
