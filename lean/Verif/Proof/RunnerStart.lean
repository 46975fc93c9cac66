import Verif.Spec.RunnerStart

/-! # Helpers for C77: what happened before each stage -/

namespace Abq.RunnerStart

/-- What was sent when sending is at `c`. -/
def ack (m : Msg) (c : Conn) : List Event := if c = .reading then [.sent m] else []

/-- What happened when the native runner is ready to run tests. -/
def ready (asked : Bool) : List Event :=
  if asked then [.launched true, .gotManifest, .sent .manifest, .launched false] else [.launched false]

inductive Live (asked : Bool) : Stage → List Event → Prop
  | launching : Live asked .launching []
  | retrieving : asked = true → Live asked .retrieving [.launched true]
  | manifest (c : Conn) : asked = true →
      Live asked (.telling .manifest c .restart) ([.launched true, .gotManifest] ++ ack .manifest c)
  | noLaunch (c : Conn) : asked = true →
      Live asked (.telling .manifestError c .fail) ([.launchFailed true] ++ ack .manifestError c)
  | noManifest (c : Conn) : asked = true →
      Live asked (.telling .manifestError c .fail) ([.launched true, .noManifest] ++ ack .manifestError c)
  | restarting : asked = true → Live asked .restarting [.launched true, .gotManifest, .sent .manifest]
  | context : Live asked .context (ready asked)
  | init : Live asked .init (ready asked)
  | fastExit (b : Bool) : Live asked (.fastExit b) (ready asked)
  | executing : Live asked .executing (ready asked)
  | telling (c : Conn) (code : Int) : Live asked (.telling .ranAll c (.close code)) (ready asked ++ ack .ranAll c)
  | closing (o : Outcome) : o ≠ .panic → Live asked (.closing o) (ready asked)
  | told (code : Int) : Live asked (.closing (.exit code)) (ready asked ++ [.sent .ranAll])

inductive Inv (asked : Bool) : Stage → List Event → Prop
  | live {s evs} : Live asked s evs → Inv asked s evs
  | cancelling {s evs} (c : Conn) : Live asked s evs →
      Inv asked (.telling .cancel c .cancelled) (evs ++ [.shutdown] ++ ack .cancel c)
  | cancelled {s evs} : Live asked s evs → Inv asked (.ended (.exit cancelledCode)) (evs ++ [.shutdown, .sent .cancel])
  | noLaunch : asked = true → Inv asked (.ended .error) [.launchFailed true, .sent .manifestError]
  | noManifest : asked = true → Inv asked (.ended .error) [.launched true, .noManifest, .sent .manifestError]
  | noFirst : asked = false → Inv asked (.ended .error) [.launchFailed false]
  | noSecond : asked = true →
      Inv asked (.ended .error) [.launched true, .gotManifest, .sent .manifest, .launchFailed false]
  | closed {o evs} : Live asked (.closing o) evs → Inv asked (.ended o) evs
  | panic {s evs} (e : Event) : lossy e → Live asked s evs → Inv asked (.ended .panic) (evs ++ [e])
  | cancelPanic {s evs} (e : Event) (c : Conn) : lossy e → Live asked s evs →
      Inv asked (.ended .panic) (evs ++ [.shutdown] ++ ack .cancel c ++ [e])

theorem live_live {asked : Bool} {s : Stage} {evs : List Event} (h : Live asked s evs) : s.live = true := by
  cases h <;> rfl

/-- One step of a stage at which the run may be shut down. -/
theorem inv_live_step {asked : Bool} {s : Stage} {evs : List Event} (h : Live asked s evs) (a : Act) :
    Inv asked ((Run.mk asked s evs).step a).stage ((Run.mk asked s evs).step a).events := by
  cases a with
  | shutdown =>
    simp only [Run.step, live_live h, if_true, Run.to]
    have := Inv.cancelling (.connecting 1) h
    simpa [ack] using this
  | ok =>
    cases h with
    | launching =>
      cases asked
      · exact .live .context
      · exact .live (.retrieving rfl)
    | retrieving e => exact .live (.manifest (.connecting 1) e)
    | manifest c e =>
      cases c with
      | connecting n => exact .live (.manifest .writing e)
      | writing => exact .live (.manifest .reading e)
      | reading => exact .live (.restarting e)
    | noLaunch c e =>
      cases c with
      | connecting n => exact .live (.noLaunch .writing e)
      | writing => exact .live (.noLaunch .reading e)
      | reading => exact .noLaunch e
    | noManifest c e =>
      cases c with
      | connecting n => exact .live (.noManifest .writing e)
      | writing => exact .live (.noManifest .reading e)
      | reading => exact .noManifest e
    | restarting e => subst e; exact .live .context
    | context => simpa [Run.step, Run.to] using Inv.live (.init (asked := asked))
    | init => simpa [Run.step, Run.to] using Inv.live (.executing (asked := asked))
    | fastExit b => exact .live (.fastExit b)
    | executing => exact .live .executing
    | telling c code =>
      cases c with
      | connecting n => simpa [Run.step, Run.tell, Run.to, ack] using Inv.live (.telling (asked := asked) .writing code)
      | writing => simpa [Run.step, Run.tell, Run.to, ack] using Inv.live (.telling (asked := asked) .reading code)
      | reading => simpa [Run.step, Run.tell, Run.follow, Run.to, ack] using Inv.live (.told (asked := asked) code)
    | closing o ho => simpa [Run.step, Run.to] using Inv.closed (.closing (asked := asked) o ho)
    | told code => simpa [Run.step, Run.to] using Inv.closed (.told (asked := asked) code)
  | fail =>
    have hlost : ∀ m, lossy (.lost m) := fun _ => trivial
    cases h with
    | launching =>
      cases asked
      · exact .noFirst rfl
      · exact .live (.noLaunch (.connecting 1) rfl)
    | retrieving e => exact .live (.noManifest (.connecting 1) e)
    | manifest c e =>
      cases c with
      | connecting n =>
        simp only [Run.step, Run.tell]
        split
        · exact .panic _ (hlost _) (.manifest (.connecting n) e)
        · exact .live (.manifest (.connecting (n + 1)) e)
      | writing => exact .panic _ (hlost _) (.manifest .writing e)
      | reading => exact .panic _ (hlost _) (.manifest .reading e)
    | noLaunch c e =>
      cases c with
      | connecting n =>
        simp only [Run.step, Run.tell]
        split
        · exact .panic _ (hlost _) (.noLaunch (.connecting n) e)
        · exact .live (.noLaunch (.connecting (n + 1)) e)
      | writing => exact .panic _ (hlost _) (.noLaunch .writing e)
      | reading => exact .panic _ (hlost _) (.noLaunch .reading e)
    | noManifest c e =>
      cases c with
      | connecting n =>
        simp only [Run.step, Run.tell]
        split
        · exact .panic _ (hlost _) (.noManifest (.connecting n) e)
        · exact .live (.noManifest (.connecting (n + 1)) e)
      | writing => exact .panic _ (hlost _) (.noManifest .writing e)
      | reading => exact .panic _ (hlost _) (.noManifest .reading e)
    | restarting e => exact .noSecond e
    | context => simpa [Run.step, Run.to] using Inv.live (.closing (asked := asked) .error (by simp))
    | init => simpa [Run.step, Run.to] using Inv.live (.closing (asked := asked) .error (by simp))
    | fastExit b => simpa [Run.step, Run.to] using Inv.live (.closing (asked := asked) .error (by simp))
    | executing => simpa [Run.step, Run.to] using Inv.live (.closing (asked := asked) .error (by simp))
    | telling c code =>
      cases c with
      | connecting n =>
        simp only [Run.step, Run.tell]
        split
        · exact .panic _ (hlost _) (.telling (.connecting n) code)
        · simpa [Run.to, ack] using Inv.live (.telling (asked := asked) (.connecting (n + 1)) code)
      | writing => exact .panic _ (hlost _) (.telling .writing code)
      | reading => exact .panic _ (hlost _) (.telling .reading code)
    | closing o ho => exact .panic .outputLost trivial (.closing o ho)
    | told code => exact .panic .outputLost trivial (.told code)
  | complete b =>
    cases h with
    | context => simpa [Run.step, Run.to] using Inv.live (.fastExit (asked := asked) b)
    | launching => exact .live .launching
    | retrieving e => exact .live (.retrieving e)
    | manifest c e => cases c <;> exact .live (.manifest _ e)
    | noLaunch c e => cases c <;> exact .live (.noLaunch _ e)
    | noManifest c e => cases c <;> exact .live (.noManifest _ e)
    | restarting e => exact .live (.restarting e)
    | init => exact .live .init
    | fastExit b => exact .live (.fastExit b)
    | executing => exact .live .executing
    | telling c code => cases c <;> exact .live (.telling _ code)
    | closing o ho => exact .live (.closing o ho)
    | told code => exact .live (.told code)
  | exits x =>
    cases h with
    | context => exact .live .context
    | launching => exact .live .launching
    | retrieving e => exact .live (.retrieving e)
    | manifest c e => cases c <;> exact .live (.manifest _ e)
    | noLaunch c e => cases c <;> exact .live (.noLaunch _ e)
    | noManifest c e => cases c <;> exact .live (.noManifest _ e)
    | restarting e => exact .live (.restarting e)
    | init => exact .live .init
    | fastExit b => simpa [Run.step, Run.to] using Inv.live (.closing (asked := asked) (.exit (if b then max x cancelledCode else x)) (by simp))
    | executing => simpa [Run.step, Run.to, ack] using Inv.live (.telling (asked := asked) (.connecting 1) x)
    | telling c code => cases c <;> exact .live (.telling _ code)
    | closing o ho => exact .live (.closing o ho)
    | told code => exact .live (.told code)
  | panic =>
    cases h with
    | context => exact .live .context
    | launching => exact .live .launching
    | retrieving e => exact .live (.retrieving e)
    | manifest c e => cases c <;> exact .live (.manifest _ e)
    | noLaunch c e => cases c <;> exact .live (.noLaunch _ e)
    | noManifest c e => cases c <;> exact .live (.noManifest _ e)
    | restarting e => exact .live (.restarting e)
    | init => exact .live .init
    | fastExit b => exact .live (.fastExit b)
    | executing => exact .panic .resultsLost trivial .executing
    | telling c code => cases c <;> exact .live (.telling _ code)
    | closing o ho => exact .live (.closing o ho)
    | told code => exact .live (.told code)

theorem ended_step {asked : Bool} {o : Outcome} {evs : List Event} (a : Act) :
    (Run.mk asked (.ended o) evs).step a = Run.mk asked (.ended o) evs := by
  cases a <;> rfl

theorem inv_step {asked : Bool} {s : Stage} {evs : List Event} (h : Inv asked s evs) (a : Act) :
    Inv asked ((Run.mk asked s evs).step a).stage ((Run.mk asked s evs).step a).events := by
  cases h with
  | live h => exact inv_live_step h a
  | cancelling c h =>
    rename_i s evs
    cases c with
    | connecting n =>
      cases a with
      | ok => simpa [Run.step, Run.tell, Run.to, ack] using Inv.cancelling .writing h
      | fail =>
        simp only [Run.step, Run.tell]
        split
        · exact .cancelPanic (.lost .cancel) (.connecting n) trivial h
        · simpa [Run.to, ack] using Inv.cancelling (.connecting (n + 1)) h
      | shutdown => exact .cancelling _ h
      | _ => exact .cancelling _ h
    | writing =>
      cases a with
      | ok => simpa [Run.step, Run.tell, Run.to, ack] using Inv.cancelling .reading h
      | fail => exact .cancelPanic (.lost .cancel) .writing trivial h
      | shutdown => exact .cancelling _ h
      | _ => exact .cancelling _ h
    | reading =>
      cases a with
      | ok => simpa [Run.step, Run.tell, Run.follow, Run.to, ack] using Inv.cancelled h
      | fail => exact .cancelPanic (.lost .cancel) .reading trivial h
      | shutdown => exact .cancelling _ h
      | _ => exact .cancelling _ h
  | cancelled h => rw [ended_step]; exact .cancelled h
  | noLaunch h => rw [ended_step]; exact .noLaunch h
  | noManifest h => rw [ended_step]; exact .noManifest h
  | noFirst h => rw [ended_step]; exact .noFirst h
  | noSecond h => rw [ended_step]; exact .noSecond h
  | closed h => rw [ended_step]; exact .closed h
  | panic e he h => rw [ended_step]; exact .panic e he h
  | cancelPanic e c he h => rw [ended_step]; exact .cancelPanic e c he h

theorem step_asked (r : Run) (a : Act) : (r.step a).asked = r.asked := by
  obtain ⟨asked, s, evs⟩ := r
  cases a with
  | shutdown => simp only [Run.step]; split <;> rfl
  | _ =>
    cases s with
    | telling m c k =>
      cases c <;> simp only [Run.step, Run.tell] <;> try rfl
      all_goals first | (split <;> rfl) | (cases k <;> rfl)
    | _ => simp only [Run.step] <;> repeat' (first | rfl | split)

theorem inv_run (asked : Bool) (as : List Act) :
    Inv asked ((Run.mk asked .launching []).run as).stage ((Run.mk asked .launching []).run as).events ∧
      ((Run.mk asked .launching []).run as).asked = asked := by
  suffices ∀ r : Run, r.asked = asked → Inv asked r.stage r.events →
      Inv asked (r.run as).stage (r.run as).events ∧ (r.run as).asked = asked from this _ rfl (.live .launching)
  induction as with
  | nil => intro r e h; exact ⟨h, e⟩
  | cons a as ih =>
    intro r e h
    refine ih (r.step a) ((step_asked r a).trans e) ?_
    obtain ⟨x, s, evs⟩ := r
    simp only at e
    subst e
    exact inv_step h a

/-! ### The runner comes to an end -/

def Conn.rank : Conn → Nat
  | .connecting n => 3 + (5 - n)
  | .writing => 2
  | .reading => 1

def Stage.rank : Stage → Nat
  | .launching => 29
  | .retrieving => 28
  | .telling _ c .restart => 20 + c.rank
  | .telling _ c .fail => 8 + c.rank
  | .telling _ c (.close _) => 8 + c.rank
  | .telling _ c .cancelled => c.rank
  | .restarting => 20
  | .context => 19
  | .init => 18
  | .fastExit _ => 17
  | .executing => 17
  | .closing _ => 8
  | .ended _ => 0

theorem live_rank {s : Stage} (h : s.live = true) : 8 ≤ s.rank := by
  cases s with
  | telling m c k => cases k <;> simp_all [Stage.live, Stage.rank] <;> omega
  | _ => simp_all [Stage.live, Stage.rank]

theorem rank_step (r : Run) (a : Act) : r.step a = r ∨ (r.step a).stage.rank < r.stage.rank := by
  obtain ⟨asked, s, evs⟩ := r
  cases a with
  | shutdown =>
    simp only [Run.step]
    split
    · rename_i h
      right
      have := live_rank h
      show 7 < s.rank
      exact Nat.lt_of_lt_of_le (by omega) this
    · exact .inl rfl
  | _ =>
    cases s with
    | telling m c k =>
      cases c with
      | connecting n =>
        cases k <;> first
          | exact .inl rfl
          | (right; simp only [Run.step, Run.tell, Run.to, Stage.rank, Conn.rank]; omega)
          | (simp only [Run.step, Run.tell]; split <;> right <;> simp only [Run.to, Stage.rank, Conn.rank] <;> omega)
      | writing =>
        cases k <;> first
          | exact .inl rfl
          | (right; simp only [Run.step, Run.tell, Run.to, Stage.rank, Conn.rank]; omega)
      | reading =>
        cases k <;> first
          | exact .inl rfl
          | (right; simp only [Run.step, Run.tell, Run.follow, Run.to, Stage.rank, Conn.rank]; omega)
    | launching =>
      cases asked <;> first
        | exact .inl rfl
        | (right; simp [Run.step, Run.to, Stage.rank, Conn.rank])
    | _ =>
      first
        | exact .inl rfl
        | (right; simp [Run.step, Run.to, Stage.rank, Conn.rank])

theorem changes_rank (as : List Act) : ∀ r : Run, changes r as ≤ r.stage.rank := by
  induction as with
  | nil => intro r; exact Nat.zero_le _
  | cons a as ih =>
    intro r
    have := ih (r.step a)
    simp only [changes]
    rcases rank_step r a with h | h
    · rw [if_pos h]
      rw [h] at this ⊢
      omega
    · split <;> omega

end Abq.RunnerStart
