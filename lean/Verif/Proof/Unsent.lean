import Verif.Spec.Unsent
import Verif.Spec.RunnerEnd
import Verif.Proof.RunnerEnd

/-! # Invariant for C156 -/

namespace Abq.Pipe
open Abq.Retries Abq.Buffered

/-- The answer that waits for room in the channel. -/
def inHand : Runner → List Results
  | .sending (.results r) => [r]
  | _ => []

/-- No failure was seen yet. -/
def live : Runner → Prop
  | .receiving => True
  | .running _ => True
  | .sending _ => True
  | .closed false => True
  | _ => False

structure Held (n : Nat) (p : Pipe) (as : List Results) : Prop where
  cap : p.chanCap = 2 * n
  chan : p.chan.length ≤ 2 * n
  size : p.out.batchSize = n
  buffer : p.out.buffer.length < n
  order : ∃ kept more dropped, as = kept ++ dropped ∧ p.reported ++ p.underway ++ inHand p.runner = kept ++ more ∧
    (live p.runner → dropped = [] ∧ more = []) ∧ dropped.length + (inHand p.runner).length ≤ 1

theorem held_init (sources : List (List Fetch.Resp)) (maxRun n : Nat) (hn : 1 ≤ n) : Held n (init sources maxRun n) [] := by
  refine ⟨by simp [init]; omega, by simp [init], rfl, by simp [init, Buffer.new]; omega, [], [], [], rfl, rfl, fun _ => ⟨rfl, rfl⟩, by simp [init, inHand]⟩

/-- A step that leaves what is underway alone. -/
theorem Held.same {n : Nat} {p q : Pipe} {as : List Results} (h : Held n p as) (hc : q.chanCap = p.chanCap) (hch : q.chan = p.chan)
    (ho : q.out = p.out) (hi : inHand q.runner = inHand p.runner) (hl : live q.runner → live p.runner) : Held n q as := by
  obtain ⟨h1, h2, h3, h4, kept, more, dropped, h5, h6, h7, h8⟩ := h
  refine ⟨by rw [hc, h1], by rw [hch]; exact h2, by rw [ho]; exact h3, by rw [ho]; exact h4, kept, more, dropped, h5, ?_,
    fun h => h7 (hl h), by rw [hi]; exact h8⟩
  rw [hi, ← h6]
  simp only [Pipe.reported, Pipe.underway, hch, ho]

theorem push_all (o : Buffer Results) (r : Results) :
    (o.push r).sent.flatten ++ (o.push r).buffer = o.sent.flatten ++ o.buffer ++ [r] ∧ (o.push r).batchSize = o.batchSize ∧
    (0 < o.batchSize → (o.push r).buffer.length < o.batchSize) := by
  unfold Buffer.push
  dsimp only
  split
  · simp [Buffer.send]
  · rename_i h
    exact ⟨by simp, rfl, fun _ => by simpa using h⟩

theorem flush_all (o : Buffer Results) :
    o.flush.sent.flatten ++ o.flush.buffer = o.sent.flatten ++ o.buffer ∧ o.flush.batchSize = o.batchSize ∧
    o.flush.buffer.length ≤ o.buffer.length := by
  unfold Buffer.flush
  split
  · exact ⟨rfl, rfl, Nat.le_refl _⟩
  · simp [Buffer.send]

theorem held_step {n : Nat} {p : Pipe} {as : List Results} (h : Held n p as) (a : Act) : Held n (step p a) (as ++ answer p a) := by
  cases a with
  | fetch =>
    simp only [answer, List.append_nil, step]
    unfold Pipe.fetch
    split
    · split <;> exact h.same rfl rfl rfl rfl id
    · exact h
  | produce => simp only [answer, List.append_nil, step]; exact h.same rfl rfl rfl rfl id
  | consume =>
    simp only [answer, List.append_nil, step]
    unfold Pipe.consume
    split
    · rename_i hr
      refine h.same rfl rfl rfl ?_ (fun _ => by rw [hr]; trivial)
      rw [hr]
      simp only [afterRecv]
      split
      · rfl
      · split <;> rfl
    · rename_i w hr
      refine h.same rfl rfl rfl ?_ ?_
      · rw [hr]
        dsimp only
        split <;> rfl
      · dsimp only
        split <;> exact fun h => h.elim
    · exact h
  | result rs =>
    simp only [answer, step]
    unfold Pipe.result
    cases hr : p.runner with
    | running w =>
      obtain ⟨h1, h2, h3, h4, kept, more, dropped, h5, h6, h7, h8⟩ := h
      obtain ⟨rfl, rfl⟩ := h7 (by rw [hr]; trivial)
      refine ⟨h1, h2, h3, h4, kept ++ [⟨w.spec.workId, w.runNumber, rs⟩], [], [], by simp [h5], ?_, fun _ => ⟨rfl, rfl⟩, by simp [inHand]⟩
      rw [hr] at h6
      simp only [inHand, List.append_nil] at h6 ⊢
      rw [← h6]
      simp only [Pipe.reported, Pipe.underway]
    | _ => simp only [List.append_nil]; exact h
  | crash =>
    simp only [answer, List.append_nil, step]
    unfold Pipe.crash
    split
    · rename_i w hr
      exact h.same rfl rfl rfl (by rw [hr]; rfl) (fun h => h.elim)
    · exact h
  | timeout =>
    simp only [answer, List.append_nil, step]
    unfold Pipe.timeout
    split
    · rename_i r hr
      obtain ⟨h1, h2, h3, h4, kept, more, dropped, h5, h6, h7, h8⟩ := h
      obtain ⟨rfl, rfl⟩ := h7 (by rw [hr]; trivial)
      rw [hr] at h6
      simp only [inHand, List.append_nil] at h6
      refine ⟨h1, h2, h3, h4, p.reported ++ p.underway, [], [r], ?_, ?_, fun h => h.elim, by simp [inHand]⟩
      · rw [h5, List.append_nil, h6]
      · simp [inHand, Pipe.reported, Pipe.underway]
    · exact h
  | send =>
    simp only [answer, List.append_nil, step]
    unfold Pipe.send
    split
    · rename_i m hr
      split
      · rename_i hroom
        obtain ⟨h1, h2, h3, h4, kept, more, dropped, h5, h6, h7, h8⟩ := h
        obtain ⟨rfl, rfl⟩ := h7 (by rw [hr]; trivial)
        refine ⟨h1, by simp only [List.length_append, List.length_singleton]; omega, h3, h4, kept, [], [], h5, ?_, fun _ => ⟨rfl, rfl⟩, by simp [inHand]⟩
        rw [hr] at h6
        rw [← h6]
        cases m <;> simp [inHand, Pipe.reported, Pipe.underway]
      · exact h
    · rename_i r rs hr
      split
      · rename_i hroom
        obtain ⟨h1, h2, h3, h4, kept, more, dropped, h5, h6, h7, h8⟩ := h
        have hi : inHand (afterFailure rs) = [] := by cases rs <;> rfl
        refine ⟨h1, by simp only [List.length_append, List.length_singleton]; omega, h3, h4, kept, more ++ [r], dropped, h5, ?_, ?_, ?_⟩
        · rw [hr] at h6
          simp only [inHand, List.append_nil] at h6
          rw [← List.append_assoc, ← h6]
          simp [hi, Pipe.reported, Pipe.underway]
        · cases rs <;> exact fun h => h.elim
        · rw [hr] at h8
          rw [hi]
          exact h8
      · exact h
    · exact h
  | take =>
    simp only [answer, List.append_nil, step]
    have hpos : 0 < n := by have := h.buffer; omega
    unfold Pipe.take
    split
    · rename_i r ms hc
      obtain ⟨h1, h2, h3, h4, h5⟩ := h
      obtain ⟨g1, g2, g3⟩ := push_all p.out r
      refine ⟨h1, by rw [hc] at h2; simp only [List.length_cons] at h2; simp only [Pipe.handle]; omega, by simp only [Pipe.handle]; rw [g2, h3], by simp only [Pipe.handle]; rw [← h3]; exact g3 (by omega), ?_⟩
      obtain ⟨kept, more, dropped, h5, h6, h7, h8⟩ := h5
      refine ⟨kept, more, dropped, h5, ?_, h7, h8⟩
      rw [← h6]
      simp only [Pipe.reported, Pipe.underway, Pipe.handle, hc, List.filterMap_cons]
      rw [← List.append_assoc, g1]
      simp
    · rename_i ms hc
      obtain ⟨h1, h2, h3, h4, h5⟩ := h
      obtain ⟨g1, g2, g3⟩ := flush_all p.out
      refine ⟨h1, by rw [hc] at h2; simp only [List.length_cons] at h2; simp only [Pipe.handle]; omega, by simp only [Pipe.handle]; rw [g2, h3], by simp only [Pipe.handle]; omega, ?_⟩
      obtain ⟨kept, more, dropped, h5, h6, h7, h8⟩ := h5
      refine ⟨kept, more, dropped, h5, ?_, h7, h8⟩
      rw [← h6]
      simp only [Pipe.reported, Pipe.underway, Pipe.handle, hc, List.filterMap_cons]
      rw [← List.append_assoc, g1]
      simp
    · rename_i hc
      split
      · split
        · exact h
        · obtain ⟨h1, h2, h3, h4, h5⟩ := h
          obtain ⟨g1, g2, g3⟩ := flush_all p.out
          refine ⟨h1, by simpa [Pipe.handle] using h2, by simp only [Pipe.handle]; rw [g2, h3], by simp only [Pipe.handle]; omega, ?_⟩
          obtain ⟨kept, more, dropped, h5, h6, h7, h8⟩ := h5
          refine ⟨kept, more, dropped, h5, ?_, h7, h8⟩
          rw [← h6]
          simp only [Pipe.reported, Pipe.underway, Pipe.handle]
          rw [← List.append_assoc, g1]
          simp
      · exact h

theorem held_run {n : Nat} (as : List Act) : ∀ {p : Pipe} {rs : List Results}, Held n p rs → Held n (run p as) (rs ++ answers p as) := by
  induction as with
  | nil => intro p rs h; simpa [answers, run] using h
  | cons a as ih =>
    intro p rs h
    have := ih (held_step h a)
    rw [List.append_assoc] at this
    exact this

/-- No failure was seen, and `send_results_task` has returned only with nothing left. -/
structure Through (p : Pipe) : Prop where
  live : live p.runner
  ended : p.ended = true → (∃ b, p.runner = .closed b) ∧ p.chan = [] ∧ p.out.buffer = []

theorem through_step {p : Pipe} (h : Through p) (a : Act) (h1 : a ≠ .crash) (h2 : a ≠ .timeout) : Through (step p a) := by
  have same : ∀ {q : Pipe}, q.runner = p.runner → q.chan = p.chan → q.out = p.out → q.ended = p.ended → Through q := by
    intro q e1 e2 e3 e4
    exact ⟨by rw [e1]; exact h.live, by rw [e1, e2, e3, e4]; exact h.ended⟩
  have open' : ∀ {q : Pipe}, (∀ b, p.runner ≠ .closed b) → q.ended = p.ended → Pipe.live q.runner → Through q := by
    intro q e1 e2 e3
    refine ⟨e3, fun h' => ?_⟩
    rw [e2] at h'
    obtain ⟨⟨b, hb⟩, -⟩ := h.ended h'
    exact absurd hb (e1 b)
  cases a with
  | fetch =>
    simp only [step]
    unfold Pipe.fetch
    split
    · split <;> exact same rfl rfl rfl rfl
    · exact h
  | produce => exact same rfl rfl rfl rfl
  | consume =>
    simp only [step]
    unfold Pipe.consume
    split
    · rename_i hr
      refine open' (by rw [hr]; simp) rfl ?_
      simp only [afterRecv]
      split
      · trivial
      · split <;> trivial
    · rename_i w hr
      have := h.live
      rw [hr] at this
      exact this.elim
    · exact h
  | result rs =>
    simp only [step]
    unfold Pipe.result
    split
    · rename_i w hr
      exact open' (by rw [hr]; simp) rfl trivial
    · exact h
  | crash => exact absurd rfl h1
  | timeout => exact absurd rfl h2
  | send =>
    simp only [step]
    unfold Pipe.send
    split
    · rename_i m hr
      split
      · exact open' (by rw [hr]; simp) rfl trivial
      · exact h
    · rename_i r rs hr
      have := h.live
      rw [hr] at this
      exact this.elim
    · exact h
  | take =>
    simp only [step]
    unfold Pipe.take
    split
    · rename_i r ms hc
      refine ⟨h.live, fun h' => ?_⟩
      have := (h.ended h').2.1
      rw [hc] at this; cases this
    · rename_i ms hc
      refine ⟨h.live, fun h' => ?_⟩
      have := (h.ended h').2.1
      rw [hc] at this; cases this
    · rename_i hc
      split
      · rename_i b hr
        split
        · exact h
        · exact ⟨h.live, fun _ => ⟨⟨b, hr⟩, hc, (flush_sent p.out).2.1⟩⟩
      · exact h

theorem through_run (as : List Act) : ∀ {p : Pipe}, Through p → (∀ a ∈ as, a ≠ .crash ∧ a ≠ .timeout) → Through (run p as) := by
  induction as with
  | nil => exact fun h _ => h
  | cons a as ih =>
    intro p h hok
    have := hok a (List.mem_cons_self ..)
    exact ih (through_step h a this.1 this.2) fun b hb => hok b (List.mem_cons_of_mem _ hb)

end Abq.Pipe

namespace Abq.RunnerEnd
open Abq.Retries Abq.Pipe

/-- `send_results_task` has returned only with nothing left. -/
def EndOk (p : Pipe) : Prop := p.ended = true → (∃ b, p.runner = .closed b) ∧ p.chan = [] ∧ p.out.buffer = []

theorem endOk_step {p : Pipe} (h : EndOk p) (a : Pipe.Act) : EndOk (Pipe.step p a) := by
  have open' : ∀ {q : Pipe}, (∀ b, p.runner ≠ .closed b) → q.ended = p.ended → EndOk q := by
    intro q e1 e2 h'
    rw [e2] at h'
    obtain ⟨⟨b, hb⟩, -⟩ := h h'
    exact absurd hb (e1 b)
  cases a with
  | fetch =>
    simp only [Pipe.step]
    unfold Pipe.fetch
    split
    · split <;> exact h
    · exact h
  | produce => exact h
  | consume =>
    simp only [Pipe.step]
    unfold Pipe.consume
    split
    · rename_i hr
      exact open' (by rw [hr]; simp) rfl
    · rename_i w hr
      exact open' (by rw [hr]; simp) rfl
    · exact h
  | result rs =>
    simp only [Pipe.step]
    unfold Pipe.result
    split
    · rename_i w hr
      exact open' (by rw [hr]; simp) rfl
    · exact h
  | crash =>
    simp only [Pipe.step]
    unfold Pipe.crash
    split
    · rename_i w hr
      exact open' (by rw [hr]; simp) rfl
    · exact h
  | timeout =>
    simp only [Pipe.step]
    unfold Pipe.timeout
    split
    · rename_i w hr
      exact open' (by rw [hr]; simp) rfl
    · exact h
  | send =>
    simp only [Pipe.step]
    unfold Pipe.send
    split
    · rename_i m hr
      split
      · exact open' (by rw [hr]; simp) rfl
      · exact h
    · rename_i r rs hr
      split
      · exact open' (by rw [hr]; simp) rfl
      · exact h
    · exact h
  | take =>
    simp only [Pipe.step]
    unfold Pipe.take
    split
    · rename_i r ms hc
      intro h'
      have := (h h').2.1
      rw [hc] at this; cases this
    · rename_i ms hc
      intro h'
      have := (h h').2.1
      rw [hc] at this; cases this
    · rename_i hc
      split
      · rename_i b hr
        split
        · exact h
        · exact fun _ => ⟨⟨b, hr⟩, hc, (flush_sent p.out).2.1⟩
      · exact h

/-- Once the runner's task has returned, what was or will be handed over stays the same. -/
theorem closed_all {p : Pipe} {b : Bool} (hr : p.runner = .closed b) (a : Pipe.Act) :
    (Pipe.step p a).reported ++ (Pipe.step p a).underway = p.reported ++ p.underway := by
  cases a with
  | fetch =>
    simp only [Pipe.step]
    unfold Pipe.fetch
    split
    · split <;> rfl
    · rfl
  | produce => rfl
  | consume => simp [Pipe.step, Pipe.consume, hr]
  | result rs => simp [Pipe.step, Pipe.result, hr]
  | crash => simp [Pipe.step, Pipe.crash, hr]
  | timeout => simp [Pipe.step, Pipe.timeout, hr]
  | send => simp [Pipe.step, Pipe.send, hr]
  | take =>
    simp only [Pipe.step]
    unfold Pipe.take
    split
    · rename_i r ms hc
      simp only [Pipe.reported, Pipe.underway, Pipe.handle, hc, List.filterMap_cons]
      rw [← List.append_assoc, (push_all p.out r).1]
      simp
    · rename_i ms hc
      simp only [Pipe.reported, Pipe.underway, Pipe.handle, hc, List.filterMap_cons]
      rw [← List.append_assoc, (flush_all p.out).1]
      simp
    · rename_i hc
      split
      · split
        · rfl
        · simp only [Pipe.reported, Pipe.underway, Pipe.handle]
          rw [← List.append_assoc, (flush_all p.out).1]
          simp
      · rfl

/-- After a failed restart all answers are handed over or under way. -/
structure Left (n : Nat) (l : Life) (rs : List Results) : Prop where
  held : Held n l.pipe rs
  endOk : EndOk l.pipe
  all : l.failed = true → l.pipe.runner = .closed true ∧ l.pipe.reported ++ l.pipe.underway = rs

theorem left_step {n : Nat} {l : Life} {rs : List Results} (h : Left n l rs) (a : Act) : Left n (l.step a) (rs ++ answer l a) := by
  cases a with
  | pipe a =>
    have e : answer l (.pipe a) = Pipe.answer l.pipe a := by
      unfold answer Pipe.answer
      cases a <;> cases l.pipe.runner <;> rfl
    refine ⟨by rw [e]; exact held_step h.held a, endOk_step h.endOk a, fun hf => ?_⟩
    obtain ⟨hr, hall⟩ := h.all hf
    refine ⟨closed_step l.pipe a true hr, ?_⟩
    have : Pipe.answer l.pipe a = [] := by unfold Pipe.answer; rw [hr]; cases a <;> rfl
    rw [e, this, List.append_nil, ← hall]
    exact closed_all hr a
  | restartFails =>
    simp only [answer, List.append_nil, Life.step]
    split
    · rename_i w hr
      split
      · refine ⟨h.held.same rfl rfl rfl (by rw [hr]; rfl) (fun h => h.elim), ?_, fun _ => ⟨rfl, ?_⟩⟩
        · intro he
          obtain ⟨⟨b, hb⟩, -⟩ := h.endOk he
          rw [hr] at hb; cases hb
        · obtain ⟨-, -, -, -, kept, more, dropped, h5, h6, h7, -⟩ := h.held
          obtain ⟨rfl, rfl⟩ := h7 (by rw [hr]; trivial)
          rw [h5, ← h6, hr]
          simp [inHand, Pipe.reported, Pipe.underway]
      · exact h
    · exact h
  | notify =>
    simp only [answer, List.append_nil, Life.step]
    split
    · split
      · exact h
      · exact ⟨h.held, h.endOk, h.all⟩
    · exact h

theorem left_run {n : Nat} (as : List Act) : ∀ {l : Life} {rs : List Results}, Left n l rs → Left n (l.run as) (rs ++ answers l as) := by
  induction as with
  | nil => intro l rs h; simpa [answers, Life.run] using h
  | cons a as ih =>
    intro l rs h
    have := ih (left_step h a)
    rw [List.append_assoc] at this
    exact this

end Abq.RunnerEnd
