import Verif.Proof.NativeRunner

/-!
# C121, C122: a worker and the process of its native runner
-/

namespace Abq.Props
open Abq.Spec Abq.NativeRunner

/-- A native runner that answers a test with a message that cannot be read, and then waits for its next test. -/
def unreadableAnswer : List NativeRunner.Act :=
  [.connect, .say (.version true), .go, .go, .context true true, .say .initSuccess, .go, .test false true, .say .garbage, .go]

/-- **C121**: exactly when a worker waits for ever for its native runner, unless it is told to shut down: when it waits, without
a time limit, for a message that is not sent on a connection that is not closed, for a process that does not exit, or for the
end of output that is not closed. -/
theorem C121_stuck_exactly (manifest : Bool) (as : List NativeRunner.Act) (h : ¬ Returned ((init manifest).run as)) :
    (∀ bs, (∀ b ∈ bs, Rest b) → ((init manifest).run as).run bs = (init manifest).run as) ↔ Stuck ((init manifest).run as) := by
  have hi := inv manifest as
  generalize (init manifest).run as = s at *
  constructor
  · intro k
    refine Classical.byContradiction fun hs => ?_
    obtain ⟨a, ha, hne⟩ := unstuck hi h hs
    have := k [a] (fun b hb => by rw [List.mem_singleton.1 hb]; exact ha)
    exact hne (congrArg St.phase this)
  · intro hs bs
    induction bs with
    | nil => intro _; rfl
    | cons b bs ih =>
      intro hb
      show (s.step b).run bs = s
      rw [stuck_step hi hs b (hb b (List.mem_cons_self ..))]
      exact ih fun c hc => hb c (List.mem_cons_of_mem _ hc)

/-- **C121** fails in full: not every worker can get to its end without its native runner. A native runner that answers a test
with a message that cannot be read, and waits for its next test, is waited for, and the test is not reported. -/
theorem C121_full_statement_fails :
    ¬ ∀ (manifest : Bool) (as : List NativeRunner.Act),
      ∃ bs, (∀ b ∈ bs, Rest b) ∧ Returned (((init manifest).run as).run bs) := by
  intro h
  obtain ⟨bs, h1, h2⟩ := h false unreadableAnswer
  have hn : ¬ Returned ((init false).run unreadableAnswer) := by
    rintro ⟨r, hr⟩
    have : ((init false).run unreadableAnswer).phase = .lost := by decide
    rw [this] at hr
    cases hr
  have hs : Stuck ((init false).run unreadableAnswer) := ⟨.exit, by decide, by unfold There; decide⟩
  rw [(C121_stuck_exactly false unreadableAnswer hn).2 hs bs h1] at h2
  exact hn h2

/-- **C121**: whatever the worker does after an answer that cannot be read, as long as the native runner does not exit: it goes on
waiting, and the test is not reported. -/
theorem C121_unreadable_answer (manifest : Bool) (as bs : List NativeRunner.Act) (hp : ((init manifest).run as).phase = .testing)
    (m : Msg) (rest : List Msg) (hm : ((init manifest).run as).proc.inbox = m :: rest) (h1 : m ≠ .results) (h2 : m ≠ .increment)
    (ha : ((init manifest).run as).proc.alive = true) (hb : ∀ b ∈ bs, Rest b) :
    let s := ((init manifest).run as).run (.go :: bs)
    ¬ Returned s ∧ s.notes = ((init manifest).run as).notes := by
  intro s
  obtain ⟨t, ht⟩ : ∃ t, (init manifest).run as = t := ⟨_, rfl⟩
  have hrun : (init manifest).run (as ++ [.go]) = t.go := by
    show List.foldl St.step _ _ = _
    rw [List.foldl_append]
    exact congrArg St.go ht
  have hgo : t.go.phase = .lost ∧ t.go.proc.alive = true ∧ t.go.notes = t.notes := by
    rw [ht] at hp hm ha
    simp only [St.go, hp, Proc.read, hm]
    cases m <;> simp_all
  have hn : ¬ Returned ((init manifest).run (as ++ [.go])) := by
    rintro ⟨r, hr⟩
    rw [hrun, hgo.1] at hr
    cases hr
  have hst : Stuck ((init manifest).run (as ++ [.go])) := by
    rw [hrun]
    exact ⟨.exit, by rw [hgo.1]; rfl, by show ¬ (_ = false); rw [hgo.2.1]; decide⟩
  have := (C121_stuck_exactly manifest _ hn).2 hst bs hb
  have hs : s = t.go.run bs := by
    show ((init manifest).run as).run (.go :: bs) = _
    rw [ht]; rfl
  rw [hrun] at this hn
  rw [hs, this, ht]
  exact ⟨hn, hgo.2.2⟩

example : ((init false).run unreadableAnswer.dropLast).phase = .testing ∧
    ((init false).run unreadableAnswer.dropLast).proc.inbox = [.garbage] ∧
    ((init false).run unreadableAnswer.dropLast).proc.alive = true := by decide

/-- **C121** (in part): once its native runner has exited and its output is closed, a worker can get to its end whatever state it
is in, even if another native runner is started on the way.

Missing: a native runner that does not exit, outside the time limits; see `C121_stuck_exactly`. -/
theorem C121_ends_partial (manifest : Bool) (as : List NativeRunner.Act) :
    ∃ bs, (∀ b ∈ bs, Rest b) ∧ Returned ((((init manifest).run as).run [.exit, .closeOutput]).run bs) := by
  have hi := inv_run (inv manifest as) [.exit, .closeOutput]
  exact canEnd_exited hi rfl (kill_conn _) rfl

/-- **C121**: a native runner that does not answer a test within the time limit is killed, the test is reported as failed, and
the worker ends with an error, whatever the native runner does. -/
theorem C121_test_limit (manifest : Bool) (as : List NativeRunner.Act) (hp : ((init manifest).run as).phase = .testing) :
    let s := ((init manifest).run as).run [.limit, .go, .go]
    s.phase = .ended .error ∧ s.notes = ((init manifest).run as).notes ++ [.lost] ∧ ∀ p ∈ started s, p.alive = false := by
  intro s
  have hi := inv manifest as
  have hr : Inv s := inv_run hi _
  have he : s.phase = .ended .error ∧ s.notes = ((init manifest).run as).notes ++ [.lost] := by
    have hf := hi.finished
    show (((((init manifest).run as).step .limit).step .go).step .go).phase = _ ∧
      (((((init manifest).run as).step .limit).step .go).step .go).notes = _
    generalize (init manifest).run as = t at *
    have hff : t.captureFinished = false := by
      cases k : t.captureFinished with
      | false => rfl
      | true => rcases hf k with ⟨r, e⟩ | ⟨r, e⟩ <;> rw [hp] at e <;> cases e
    simp [St.step, St.go, hp, Proc.kill, hff, St.end]
  refine ⟨he.1, he.2, ?_⟩
  intro p hp
  have k := hr.ended _ he.1
  unfold started at hp
  rw [k.2] at hp
  rcases List.mem_cons.1 hp with rfl | hp
  · exact k.1
  · exact hr.droppedDead p (by simpa using hp)

example : ((init false).run (unreadableAnswer.take 8)).phase = .testing := by decide

/-- **C121**: a native runner that does not connect within the time limit, or connects and does not say what it is, or does so in
a version that is not supported, is killed within another time limit, and then the worker ends in one more step. If it was to make the
manifest, the queue is told that there is none. -/
theorem C121_connect_limit (manifest : Bool) (as : List NativeRunner.Act)
    (hp : ((init manifest).run as).phase = .accepting ∨ ((init manifest).run as).phase = .refused) :
    let s := ((init manifest).run as).run [.limit, .limit, .go]
    Returned s ∧ (((init manifest).run as).purpose = .manifest → .noManifest ∈ s.notes) ∧ ∀ p ∈ started s, p.alive = false := by
  intro s
  have hi := inv manifest as
  have hr : Inv s := inv_run hi _
  have he : Returned s ∧ (((init manifest).run as).purpose = .manifest → .noManifest ∈ s.notes) := by
    have h5 := hi.old
    show Returned (((((init manifest).run as).step .limit).step .limit).step .go) ∧
      (_ → _ ∈ (((((init manifest).run as).step .limit).step .limit).step .go).notes)
    generalize (init manifest).run as = t at *
    unfold Returned
    rcases hp with hp | hp <;> rw [hp] at h5 <;>
      (cases hq : t.purpose <;> rw [hq] at h5 <;> simp [St.step, St.go, hp, St.refuse, hq, St.end])
    all_goals
      cases ho : t.old with
      | none => rw [ho] at h5; simp at h5
      | some p => simp
  refine ⟨he.1, he.2, ?_⟩
  obtain ⟨r, e⟩ := he.1
  intro p hp
  have k := hr.ended _ e
  unfold started at hp
  rw [k.2] at hp
  rcases List.mem_cons.1 hp with rfl | hp
  · exact k.1
  · exact hr.droppedDead p (by simpa using hp)

example : ((init true).run [.connect, .say (.version false), .go, .go]).phase = .refused ∧
    ((init true).run [.connect, .say (.version false), .go, .go]).purpose = .manifest := by decide

/-- **C121**: the signal to shut down ends a worker at once, whatever it waits for. -/
theorem C121_shutdown (manifest : Bool) (as : List NativeRunner.Act) (h : ¬ Returned ((init manifest).run as)) :
    (((init manifest).run as).step .cancel).phase = .ended .cancelled := by
  unfold Returned at h
  simp only [St.step]
  split
  · rename_i r hr; exact absurd ⟨r, hr⟩ h
  · rfl

example : ¬ Returned ((init false).run unreadableAnswer) := by
  rintro ⟨r, hr⟩
  have : ((init false).run unreadableAnswer).phase = .lost := by decide
  rw [this] at hr
  cases hr

/-- **C122**: when a worker has returned, in whatever way, none of the native runners it has started is alive. -/
theorem C122_none_left (manifest : Bool) (as : List NativeRunner.Act) (h : Returned ((init manifest).run as)) :
    ∀ p ∈ started ((init manifest).run as), p.alive = false := by
  have hi := inv manifest as
  obtain ⟨r, hr⟩ := h
  obtain ⟨k1, k2⟩ := hi.ended r hr
  intro p hp
  unfold started at hp
  rw [k2] at hp
  rcases List.mem_cons.1 hp with rfl | hp
  · exact k1
  · exact hi.droppedDead p (by simpa using hp)

/-- **C122**: at no time are two native runners of a worker alive: another one is started only once the one before has exited and
its output is closed. -/
theorem C122_one_at_a_time (manifest : Bool) (as : List NativeRunner.Act) :
    (started ((init manifest).run as)).countP (·.alive) ≤ 1 := by
  have hi := inv manifest as
  unfold started
  have h0 : (((init manifest).run as).old.toList ++ ((init manifest).run as).dropped).countP (·.alive) = 0 := by
    rw [List.countP_eq_zero]
    intro p hp
    rcases List.mem_append.1 hp with hp | hp
    · rw [(hi.oldDead p (by simpa using hp)).1]; decide
    · rw [hi.droppedDead p hp]; decide
  rw [List.cons_append, List.countP_cons, h0]
  split <;> omega

/-- A worker that gets the manifest from one native runner, has another run a test, and a third one run it again. -/
def threeNativeRunners : List NativeRunner.Act :=
  [.connect, .say (.version true), .say .manifest, .go, .go, .go, .exit, .closeOutput, .go, .go,
   .connect, .say (.version true), .go, .go, .context true true, .say .initSuccess, .go, .test false true, .say .results, .go,
   .test true true, .exit, .closeOutput, .go, .go,
   .connect, .say (.version true), .go, .go, .say .initSuccess, .go, .say .increment, .go, .say .results, .go, .noTests true,
   .exit, .closeOutput, .go, .go]

example : ((init true).run threeNativeRunners).phase = .ended .exit ∧ (started ((init true).run threeNativeRunners)).length = 3 ∧
    ((init true).run threeNativeRunners).notes = [.manifest] := by decide
example : Returned ((init true).run threeNativeRunners) := ⟨.exit, by decide⟩

/-- **C73** fails in another way: a worker whose native runner cannot be started again for another attempt does not end with an
error but with a panic, for it collects the output of the earlier one a second time. -/
theorem C73_failed_restart_panics (manifest : Bool) (as : List NativeRunner.Act) (hr : ((init manifest).run as).purpose = .retry)
    (hp : ((init manifest).run as).phase = .accepting) :
    (((init manifest).run as).run [.limit, .limit, .go]).phase = .ended .panic := by
  have hi := inv manifest as
  have h5 := hi.old
  show (((((init manifest).run as).step .limit).step .limit).step .go).phase = _
  generalize (init manifest).run as = t at *
  rw [hp] at h5
  cases ho : t.old with
  | none => rw [ho, hr] at h5; simp at h5
  | some p => simp [St.step, St.go, hp, St.refuse, hr, St.end, ho]

example : ((init true).run (threeNativeRunners.take 25)).purpose = .retry ∧
    ((init true).run (threeNativeRunners.take 25)).phase = .accepting := by decide

/-- **C71**: the output is collected a second time, and the worker panics, only if a native runner was not started again for another
attempt: at some step before, the worker was waiting for one to connect and gave up. -/
theorem C71_collected_twice_exactly (manifest : Bool) (as : List NativeRunner.Act)
    (h : ((init manifest).run as).phase = .ended .panic) :
    ∃ pre a, pre ++ [a] <+: as ∧ ((init manifest).run pre).purpose = .retry ∧
      (((init manifest).run pre).phase = .accepting ∨ ((init manifest).run pre).phase = .refused) ∧
      ((init manifest).run (pre ++ [a])).phase = .output .error :=
  collected_twice manifest as h

end Abq.Props
