import Verif.Proof.Capture

/-!
# C44, C71: the output of a native runner
-/

namespace Abq.Props
open Abq.Spec Abq.Capture

/-- The stream `w` of the output of a call to `get_captured_ref`. -/
def seen (w : Which) (o e : List Byte) : List Byte := match w with | .out => o | .err => e

/-- **C44**: what is captured is at all times the beginning of what the child wrote (after the retry header on its stdout, if
it is a retry): nothing is made up, repeated, left out in between or out of order. -/
theorem C44_captured_prefix (piped isRetry : Bool) (hd : List Byte) (as : List Act) (w : Which) :
    taken w ((init piped isRetry hd).run as).events <+: expected isRetry hd w as := by
  have := (inv piped isRetry hd as).side_prefix w
  exact List.IsPrefix.trans (List.prefix_append _ _) this

/-- **C44**: when the capture is finished, without an earlier `close`, all that the child wrote was captured. -/
theorem C44_all (piped isRetry : Bool) (hd : List Byte) (as : List Act) (hclose : .close ∉ as) (o e c : List Byte)
    (h : .finished o e c ∈ ((init piped isRetry hd).run as).events) (w : Which) :
    taken w ((init piped isRetry hd).run as).events = expected isRetry hd w as := by
  have hi := inv piped isRetry hd as
  obtain ⟨_, _, k⟩ := hi.finished o e c h
  obtain ⟨_, k2, k3⟩ := k w
  obtain ⟨_, h2, h3, h4⟩ := (hi.streams w).ended (k3 hclose)
  have := (hi.streams w).bytes
  rw [k2, h2, h3, h4] at this
  simpa [expected] using this

/-- **C44**: if the output is forwarded, then what the parent's stream accepted is the beginning of what is to be captured, no
less than what was captured, and the same when the capture is finished. -/
theorem C44_forwarded (isRetry : Bool) (hd : List Byte) (as : List Act) (w : Which) :
    let s := (init true isRetry hd).run as
    taken w s.events <+: (s.stream w).forwarded ∧ (s.stream w).forwarded <+: expected isRetry hd w as ∧
    (∀ o e c, .finished o e c ∈ s.events → (s.stream w).forwarded = taken w s.events) := by
  intro s
  have hi := inv true isRetry hd as
  have hp : (s.stream w).piped = true := piped_run true isRetry hd as w
  have hf := (hi.streams w).fwd hp
  refine ⟨?_, ?_, ?_⟩
  · rw [hf]; exact List.prefix_append _ _
  · rw [hf]; exact hi.side_prefix w
  · intro o e c h
    obtain ⟨_, _, k⟩ := hi.finished o e c h
    rw [hf, (k w).2.1, List.append_nil]

/-- **C44**: without forwarding nothing is written to the parent's streams. -/
theorem C44_not_forwarded (isRetry : Bool) (hd : List Byte) (as : List Act) (w : Which) :
    (((init false isRetry hd).run as).stream w).forwarded = [] := not_forwarded isRetry hd as w

/-- **C44**: the combined output is an interleaving of all that was captured of the two streams. -/
theorem C44_combined (piped isRetry : Bool) (hd : List Byte) (as : List Act) (o e c : List Byte)
    (h : .finished o e c ∈ ((init piped isRetry hd).run as).events) :
    Merge (taken .out ((init piped isRetry hd).run as).events) (taken .err ((init piped isRetry hd).run as).events) c :=
  ((inv piped isRetry hd as).finished o e c h).2.1

/-- **C44**: looking at the output without taking it shows what follows the captures so far. -/
theorem C44_peeked (piped isRetry : Bool) (hd : List Byte) (as : List Act) (pre post : List Event) (o e : List Byte)
    (h : ((init piped isRetry hd).run as).events = pre ++ .peeked o e :: post) (w : Which) :
    taken w pre ++ seen w o e <+: expected isRetry hd w as := by
  obtain ⟨k1, k2⟩ := peeks piped isRetry hd as pre o e post h
  cases w
  · exact k1
  · exact k2

/-- **C44**: the capture never blocks for ever: if no read from the child fails, nor, if the output is forwarded, a write to
the parent's streams, then once the child has closed its streams the tasks can copy all that is left, and `finish` returns it. -/
theorem C44_completes (piped isRetry : Bool) (hd : List Byte) (as : List Act) (hh : Healthy piped as) (hclose : .close ∉ as)
    (hopen : ((init piped isRetry hd).run as).done = false) :
    ∃ N o e c, .finished o e c ∈
      ((init piped isRetry hd).run (as ++ drain .out N ++ drain .err N ++ [.finish])).events := by
  have hi := inv piped isRetry hd as
  obtain ⟨s, hs⟩ : ∃ s, (init piped isRetry hd).run as = s := ⟨_, rfl⟩
  have ht := healthy_task piped isRetry hd as hh hclose
  have hh := hi.handle hclose
  rw [hs] at hi ht hopen hh
  let N := (s.out.header.length + s.out.buf.length + s.out.pipe.length) +
    (s.err.header.length + s.err.buf.length + s.err.pipe.length)
  refine ⟨N, ?_⟩
  have e1 : (init piped isRetry hd).run (as ++ drain .out N ++ drain .err N ++ [.finish]) =
      ((s.run (drain .out N)).run (drain .err N)).step .finish := by
    rw [run_snoc]
    unfold St.run at hs ⊢
    rw [List.foldl_append, List.foldl_append, hs]
  obtain ⟨c1, h1⟩ := run_drain s .out N
  obtain ⟨c2, h2⟩ := run_drain (s.run (drain .out N)) .err N
  have hok : ∀ w, (s.stream w).task = .running ∨ (s.stream w).task = .ok ∧ (s.stream w).closed = true := by
    intro w
    rcases ht w with k | k
    · exact .inl k
    · exact .inr ⟨k, ((hi.streams w).ended k).1⟩
  have ho : (drained s.out N).task = .ok := drained_ok _ _ (Nat.le_add_right _ _) (hok .out)
  have he : (drained s.err N).task = .ok := drained_ok _ _ (Nat.le_add_left _ _) (hok .err)
  have to_ : (drained s.out N).trivialHandle = false := by rw [drained_handle]; exact (hh .out).1
  have te : (drained s.err N).trivialHandle = false := by rw [drained_handle]; exact (hh .err).1
  rw [e1, h2, h1]
  exact finish_ok s (drained s.out N) (drained s.err N) c2 hopen ho he to_ te

/-- A child that writes to both streams, captured twice, with a write accepted in part. -/
def captureRun : List Act :=
  [.child .out [1, 2, 3], .write .out (.accept 9), .read .out (some 2), .write .out (.accept 1), .getCaptured, .child .err [7],
   .read .err (some 9), .write .err (.accept 9), .getCapturedRef, .write .out (.accept 9), .read .out (some 9),
   .write .out (.accept 9), .childCloses .out, .childCloses .err, .eof .out, .eof .err, .finish]

example : ((init true true [9]).run captureRun).events = [.captured [9, 1] [], .peeked [] [7], .finished [2, 3] [7] [9, 1, 7, 2, 3]] := by
  decide
example : expected true [9] .out captureRun = [9, 1, 2, 3] ∧ expected true [9] .err captureRun = [7] := by decide
example : Healthy true captureRun ∧ Act.close ∉ captureRun := by
  refine ⟨fun w => ?_, by decide⟩
  cases w <;> decide
example : Healthy true (captureRun.take 10) ∧ Act.close ∉ captureRun.take 10 ∧
    ((init true true [9]).run (captureRun.take 10)).done = false := by
  refine ⟨fun w => ?_, by decide, by decide⟩
  cases w <;> decide

/-- Without forwarding, it does not matter that the parent's streams fail. -/
example : Healthy false (captureRun.take 10 ++ [.write .out .fail]) := by
  intro w
  cases w <;> decide

/-- **C71** (in part): collecting the output at the end does not crash the worker, if the capture was not closed before, and
its output was not collected before.

Missing: the case after `close`, which is what the worker calls when it kills a native runner after a timeout, see
`C71_full_statement_fails`; and that of a second `finish`, see `C71_collected_twice`. -/
theorem C71_no_crash_partial (piped isRetry : Bool) (hd : List Byte) (as : List Act) (hclose : .close ∉ as)
    (honce : ∀ pre, pre ++ [.finish] <+: as → ((init piped isRetry hd).run pre).done = false) :
    ¬ Crashed ((init piped isRetry hd).run as).events := by
  rintro (h | h)
  · exact hclose ((inv piped isRetry hd as).panicked h)
  · exact again_run _ as (by simp [init]) honce h

example : Act.close ∉ captureRun ∧ ∀ pre, pre ++ [.finish] <+: captureRun → ((init true true [9]).run pre).done = false := by
  refine ⟨by decide, ?_⟩
  have h : ∀ n, n < 18 → captureRun[n]? = some .finish → ((init true true [9]).run (captureRun.take n)).done = false := by decide
  intro pre hp
  have hl := hp.length_le
  have he := List.prefix_iff_eq_take.mp ((List.prefix_append _ _).trans hp)
  rw [he]
  refine h _ (by simp [captureRun] at hl ⊢; omega) ?_
  obtain ⟨t, ht⟩ := hp
  rw [← ht]
  simp

/-- **C71** fails in full: `close` aborts the tasks, which the runtime drops later; if `finish` gets there first it finds the
side channels still shared, and its `expect` panics. The schedule is the one after a timeout: the child is killed (its ends of
the pipes are closed), the capture is closed and then finished. -/
theorem C71_full_statement_fails :
    ¬ ∀ (piped isRetry : Bool) (hd : List Byte) (as : List Act), ¬ Crashed ((init piped isRetry hd).run as).events := by
  intro h
  exact absurd (h false false [] [.child .out [1], .childCloses .out, .childCloses .err, .close, .finish]) (by
    unfold Crashed; decide)

/-- **C71** fails in another way: when the output was collected, it is a crash to collect it again. This is what the worker does
when a native runner cannot be started again for another attempt (`C71_collected_twice_exactly`, `C73_failed_restart_panics`). -/
theorem C71_collected_twice (piped isRetry : Bool) (hd : List Byte) (as : List Act)
    (hdone : ((init piped isRetry hd).run as).done = true) : Crashed ((init piped isRetry hd).run (as ++ [.finish])).events := by
  rw [run_snoc]
  right
  unfold St.step
  simp only [hdone, if_true]
  simp

example : ((init true true [9]).run captureRun).done = true := by decide

/-- **C71**: if the runtime drops the aborted tasks first, `finish` does not crash after a `close`. -/
theorem C71_after_reaped (piped isRetry : Bool) (hd : List Byte) (as : List Act)
    (hopen : ((init piped isRetry hd).run as).done = false) :
    ¬ Crashed ((init piped isRetry hd).run (as ++ [.close, .reap .out, .reap .err, .finish])).events := by
  have e : (init piped isRetry hd).run (as ++ [.close, .reap .out, .reap .err, .finish]) =
      (((((init piped isRetry hd).run as).step .close).step (.reap .out)).step (.reap .err)).step .finish := by
    unfold St.run; rw [List.foldl_append]; rfl
  have h0 := no_again_open piped isRetry hd as hopen
  have hp := no_panic_open piped isRetry hd as hopen
  rw [e]
  generalize (init piped isRetry hd).run as = s at *
  rintro (h | h)
  · exact reaped_finish s hopen hp h
  · have hd3 : (((s.step .close).step (.reap .out)).step (.reap .err)).done = false := by
      have : (s.step .close).done = false := by unfold St.step; simp [hopen]
      exact (set_rest _ _ _).2.1.trans ((set_rest _ _ _).2.1.trans this)
    rcases step_again _ _ h with k | ⟨_, k⟩
    · rcases step_again _ _ k with k | ⟨k, _⟩
      · rcases step_again _ _ k with k | ⟨k, _⟩
        · rcases step_again _ _ k with k | ⟨k, _⟩
          · exact h0 k
          · cases k
        · cases k
      · cases k
    · rw [hd3] at k; cases k

example : ((init true true [9]).run (captureRun.take 10)).done = false := by decide

end Abq.Props
