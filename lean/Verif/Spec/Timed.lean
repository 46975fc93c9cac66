import Verif.Model.Timed
import Verif.Spec.AllRuns
/-!
# Vocabulary about timers in time
-/

namespace Abq.Timed
open Spec
variable {T : Type}

/-- The tasks in flight, each with the time it came to be what it is. -/
def stamped (s : State T) : List (Pending T × Nat) := s.runs.pending.zip s.born

/-- How many tests of a run were handed out. -/
def handed (s : State T) (rid : RunId) : Nat := (handedOut rid s.runs.events).length

/-- The run is waiting for its manifest or handing out tests. -/
def Going (s : State T) (rid : RunId) : Prop := phaseOf s.runs rid = some .waiting ∨ phaseOf s.runs rid = some .serving

/-- The queue is never behind by more than `slack`: at every time in the schedule, a timer that is set is not overdue by
more, and its handler has not been waiting for longer. -/
def Prompt (period slack : Nat) (acts : List (Act T)) : Prop :=
  ∀ pre, pre <+: acts → ∀ p b, (p, b) ∈ stamped (State.start.run period pre) →
    (∀ rid last, p = .timer rid last → (State.start.run period pre).now ≤ b + period + slack) ∧
    (∀ rid last, p = .timeoutWrite rid last → (State.start.run period pre).now ≤ b + slack)

/-- The timers that were set, with the times they were due. -/
def inserted {F : Type} : Manager F → List (ManagerAct F) → List (Nat × F)
  | _, [] => []
  | s, .insert d x :: acts =>
    (if s.holding = none then [(s.now + d, x)] else []) ++ inserted (s.step (.insert d x)) acts
  | s, a :: acts => inserted (s.step a) acts

end Abq.Timed
