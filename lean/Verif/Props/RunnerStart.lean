import Verif.Proof.RunnerStart

/-!
# C77: the queue is told what became of the manifest
-/

namespace Abq.Props
open Abq.RunnerStart

/-- A runner that was asked for the manifest, or not. -/
def startRunner (asked : Bool) : RunnerStart.Run := { asked }

/-- **C77**: a runner that was asked for the manifest and has ended without losing the queue has told it exactly one thing: the
manifest its native runner gave; or that there is none, which its native runner failed to give; or, if it was told to shut down,
that the run is cancelled. -/
theorem C77_tells_the_queue (as : List RunnerStart.Act) (o : Outcome)
    (h : ((startRunner true).run as).ended o) (ho : o ≠ .panic) :
    let evs := ((startRunner true).run as).events
    (answersIn evs = [.manifest] ∧ .gotManifest ∈ evs) ∨
    (answersIn evs = [.manifestError] ∧ Failed evs ∧ o = .error) ∨
    (.shutdown ∈ evs ∧ .cancel ∈ sentIn evs ∧ o = .exit cancelledCode) := by
  have inv := (inv_run true as).1
  rw [show ((RunnerStart.Run.mk true .launching []).run as).stage = .ended o from h] at inv
  intro evs
  revert inv
  rw [show ((RunnerStart.Run.mk true .launching []).run as).events = evs from rfl]
  generalize evs = evs
  clear h
  intro inv
  cases inv with
  | live h => cases h
  | cancelled h => right; right; simp [sentIn]
  | noLaunch => right; left; simp [answersIn, sentIn, Failed]
  | noManifest => right; left; simp [answersIn, sentIn, Failed]
  | noFirst h => cases h
  | noSecond => left; simp [answersIn, sentIn]
  | closed h => left; cases h <;> simp [answersIn, sentIn, ready]
  | panic => exact absurd rfl ho
  | cancelPanic => exact absurd rfl ho

theorem live_told {asked : Bool} {s : Stage} {evs : List Event} (h : Live asked s evs) :
    (answersIn evs).length ≤ 1 ∧ (asked = false → answersIn evs = []) ∧
    (.manifest ∈ answersIn evs → .gotManifest ∈ evs) ∧ (.manifestError ∈ answersIn evs → Failed evs) ∧
    .cancel ∉ sentIn evs ∧ launchesIn evs <+: (if asked then [true, false] else [false]) := by
  cases h with
  | manifest c e => subst e; cases c <;> simp [answersIn, sentIn, launchesIn, ack]
  | noLaunch c e => subst e; cases c <;> simp [answersIn, sentIn, launchesIn, ack, Failed]
  | noManifest c e => subst e; cases c <;> simp [answersIn, sentIn, launchesIn, ack, Failed]
  | telling c code => cases asked <;> cases c <;> simp [answersIn, sentIn, launchesIn, ack, ready]
  | launching => simp [answersIn, sentIn, launchesIn]
  | retrieving e => subst e; simp [answersIn, sentIn, launchesIn]
  | restarting e => subst e; simp [answersIn, sentIn, launchesIn]
  | _ => cases asked <;> simp [answersIn, sentIn, launchesIn, ready]

/-- **C77**: at any time, whether the runner was asked or not: the queue is told of the manifest at most once, never if the runner
was not asked, and only the truth; the run is cancelled only if the runner was shut down; and native runners are started at most
once for the manifest, first, if asked, and at most once to run tests. -/
theorem C77_at_most_once (asked : Bool) (as : List RunnerStart.Act) :
    let evs := ((startRunner asked).run as).events
    (answersIn evs).length ≤ 1 ∧ (asked = false → answersIn evs = []) ∧
    (.manifest ∈ answersIn evs → .gotManifest ∈ evs) ∧ (.manifestError ∈ answersIn evs → Failed evs) ∧
    (.cancel ∈ sentIn evs → .shutdown ∈ evs) ∧
    launchesIn evs <+: (if asked then [true, false] else [false]) := by
  have inv := (inv_run asked as).1
  intro evs
  revert inv
  rw [show ((RunnerStart.Run.mk asked .launching []).run as).events = evs from rfl]
  generalize evs = evs
  generalize ((RunnerStart.Run.mk asked .launching []).run as).stage = s
  intro inv
  have weak : ∀ {s evs}, Live asked s evs → ∀ more : List Event, answersIn more = [] → launchesIn more = [] →
      (.cancel ∈ sentIn more → .shutdown ∈ more) →
      (answersIn (evs ++ more)).length ≤ 1 ∧ (asked = false → answersIn (evs ++ more) = []) ∧
      (.manifest ∈ answersIn (evs ++ more) → .gotManifest ∈ (evs ++ more)) ∧
      (.manifestError ∈ answersIn (evs ++ more) → Failed (evs ++ more)) ∧
      (.cancel ∈ sentIn (evs ++ more) → .shutdown ∈ (evs ++ more)) ∧
      launchesIn (evs ++ more) <+: (if asked then [true, false] else [false]) := by
    intro s evs hl more h1 h2 h3
    obtain ⟨a, b, c, d, e, f⟩ := live_told hl
    have e1 : answersIn (evs ++ more) = answersIn evs := by
      rw [show answersIn (evs ++ more) = answersIn evs ++ answersIn more by simp [answersIn, sentIn], h1, List.append_nil]
    have e2 : launchesIn (evs ++ more) = launchesIn evs := by
      rw [show launchesIn (evs ++ more) = launchesIn evs ++ launchesIn more by simp [launchesIn], h2, List.append_nil]
    rw [e1, e2]
    refine ⟨a, b, fun h => List.mem_append_left _ (c h), fun h => ?_, fun h => ?_, f⟩
    · rcases d h with d | d
      · exact .inl (List.mem_append_left _ d)
      · exact .inr (List.mem_append_left _ d)
    · rw [show sentIn (evs ++ more) = sentIn evs ++ sentIn more by simp [sentIn]] at h
      rcases List.mem_append.mp h with h | h
      · exact absurd h e
      · exact List.mem_append_right _ (h3 h)
  cases inv with
  | live h => simpa using weak h [] rfl rfl (by simp [sentIn])
  | cancelling c h =>
    rw [List.append_assoc]
    cases c <;> exact weak h _ (by simp [answersIn, sentIn, ack]) (by simp [launchesIn, ack]) (by simp)
  | cancelled h => exact weak h _ (by simp [answersIn, sentIn]) (by simp [launchesIn]) (by simp)
  | noLaunch e => subst e; simp [answersIn, sentIn, launchesIn, Failed]
  | noManifest e => subst e; simp [answersIn, sentIn, launchesIn, Failed]
  | noFirst e => subst e; simp [answersIn, sentIn, launchesIn]
  | noSecond e => subst e; simp [answersIn, sentIn, launchesIn]
  | closed h => simpa using weak h [] rfl rfl (by simp [sentIn])
  | panic e he h =>
    cases e <;> simp only [lossy] at he
    all_goals exact weak h _ (by simp [answersIn, sentIn]) (by simp [launchesIn]) (by simp [sentIn])
  | cancelPanic e c he h =>
    rw [List.append_assoc, List.append_assoc]
    cases e <;> simp only [lossy] at he
    all_goals cases c <;> exact weak h _ (by simp [answersIn, sentIn, ack]) (by simp [launchesIn, ack]) (by simp)

/-- **C77**: the runner panics only if the queue was lost, or the output of the native runner could not be collected. -/
theorem C77_panics (asked : Bool) (as : List RunnerStart.Act) (h : ((startRunner asked).run as).ended .panic) :
    ∃ e ∈ ((startRunner asked).run as).events, lossy e := by
  have inv := (inv_run asked as).1
  rw [show ((RunnerStart.Run.mk asked .launching []).run as).stage = .ended .panic from h] at inv
  revert inv
  rw [show ((RunnerStart.Run.mk asked .launching []).run as).events = ((startRunner asked).run as).events from rfl]
  generalize ((startRunner asked).run as).events = evs
  intro inv
  cases inv with
  | live h => cases h
  | closed h => cases h with | closing _ h => exact absurd rfl h
  | panic e he h => exact ⟨e, by simp, he⟩
  | cancelPanic e c he h => exact ⟨e, by simp, he⟩

/-- **C77**: a runner that was told to shut down, at whatever point, cancels the run if the queue can be reached within five
attempts. -/
theorem C77_shutdown (asked : Bool) (as : List RunnerStart.Act) (n : Nat) (hn : n < 5)
    (hlive : ((startRunner asked).run as).stage.live = true) :
    let r := (startRunner asked).run (as ++ .shutdown :: List.replicate n .fail ++ [.ok, .ok, .ok])
    r.ended (.exit cancelledCode) ∧ .cancel ∈ sentIn r.events := by
  have e : ∀ r : RunnerStart.Run, r.stage.live = true →
      (r.run (.shutdown :: List.replicate n .fail ++ [.ok, .ok, .ok])).stage = .ended (.exit cancelledCode) ∧
      .cancel ∈ sentIn (r.run (.shutdown :: List.replicate n .fail ++ [.ok, .ok, .ok])).events := by
    intro r hr
    have : r.step .shutdown = r.to (.telling .cancel (.connecting 1) .cancelled) [.shutdown] := by simp [RunnerStart.Run.step, hr]
    have h1 : ∀ l, r.run (.shutdown :: l) = (r.to (.telling .cancel (.connecting 1) .cancelled) [.shutdown]).run l := by
      intro l
      rw [← this]
      rfl
    have h2 : ∀ m : Nat, ∀ q : RunnerStart.Run, q.stage = .telling .cancel (.connecting m) .cancelled →
        (q.run [.ok, .ok, .ok]).stage = .ended (.exit cancelledCode) ∧ .cancel ∈ sentIn (q.run [.ok, .ok, .ok]).events := by
      rintro m ⟨qa, qs, qe⟩ hq
      simp only at hq
      subst hq
      refine ⟨rfl, ?_⟩
      show Msg.cancel ∈ sentIn (((qe ++ []) ++ [.sent .cancel]) ++ [])
      simp [sentIn]
    have h3 : ∀ k m : Nat, ∀ q : RunnerStart.Run, m + k ≤ 5 → q.stage = .telling .cancel (.connecting m) .cancelled →
        (q.run (List.replicate k .fail)).stage = .telling .cancel (.connecting (m + k)) .cancelled := by
      intro k
      induction k with
      | zero => intro m q _ hq; exact hq
      | succ k ih =>
        rintro m ⟨qa, qs, qe⟩ hm hq
        simp only at hq
        subst hq
        have : (RunnerStart.Run.mk qa (.telling .cancel (.connecting m) .cancelled) qe).step .fail =
            RunnerStart.Run.mk qa (.telling .cancel (.connecting (m + 1)) .cancelled) (qe ++ []) := by
          simp only [RunnerStart.Run.step, RunnerStart.Run.tell]
          rw [if_neg (by omega)]
          rfl
        have := ih (m + 1) _ (by omega) (congrArg RunnerStart.Run.stage this)
        rw [show m + 1 + k = m + (k + 1) by omega] at this
        exact this
    rw [List.cons_append, h1]
    have := h2 (1 + n) ((r.to (.telling .cancel (.connecting 1) .cancelled) [.shutdown]).run (List.replicate n .fail))
      (h3 n 1 _ (by omega) rfl)
    simpa [RunnerStart.Run.run, List.foldl_append] using this
  have := e _ hlive
  simpa [RunnerStart.Run.run, RunnerStart.Run.ended, List.foldl_append] using this

/-- **C77**: the runner comes to an end: whatever happens, it awaits at most 29 things. -/
theorem C77_bounded (asked : Bool) (as : List RunnerStart.Act) : changes (startRunner asked) as ≤ 29 :=
  changes_rank as _

/-- The manifest is sent at the second attempt to connect, and the tests are run. -/
example :
    let r := (startRunner true).run [.ok, .ok, .fail, .ok, .ok, .ok, .ok, .ok, .ok, .exits 1, .ok, .ok, .ok, .ok]
    r.ended (.exit 1) ∧ sentIn r.events = [.manifest, .ranAll] ∧ launchesIn r.events = [true, false] := by
  simp only [RunnerStart.Run.ended]; decide

/-- A shutdown after the manifest was written: the queue is told of both. -/
example :
    let r := (startRunner true).run [.ok, .ok, .ok, .ok, .shutdown, .ok, .ok, .ok]
    r.ended (.exit 1) ∧ sentIn r.events = [.manifest, .cancel] := by
  simp only [RunnerStart.Run.ended]; decide

example : ((startRunner true).run [.ok, .ok, .ok, .ok]).stage.live = true := by decide

example : ((startRunner true).run [.fail, .fail, .fail, .fail, .fail, .fail]).stage = .ended .panic := by decide

end Abq.Props
