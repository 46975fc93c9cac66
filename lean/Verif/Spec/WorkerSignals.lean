import Verif.Model.WorkerSignals
import Verif.Spec.RunnerStart

/-! # Vocabulary of C107 -/

namespace Abq.WorkerSignals
open RunnerStart (sentIn)

/-- A runner was told to shut down before it had ended by itself. -/
def wasTold (r : RunnerStart.Run) : Prop := .shutdown ∈ r.events

/-- The queue was told to cancel the run. -/
def toldQueue (r : RunnerStart.Run) : Prop := .cancel ∈ sentIn r.events

/-- What a process can do but receive signals: how many of its steps change anything. -/
def changes : Worker → List Act → Nat
  | _, [] => 0
  | w, a :: as => (if a = .signal ∨ w.step a = w then 0 else 1) + changes (w.step a) as

/-- The runner `i` notices that it is to shut down, and tells the queue, which it reaches after `n` failed attempts. -/
def shutsDownAfter (i n : Nat) : List Act :=
  .notice i :: (List.replicate n (.runner i .fail) ++ [.runner i .ok, .runner i .ok, .runner i .ok])

/-- All runners do, from `i` on, each after the given number of failed attempts. -/
def allShutDown : Nat → List Nat → List Act
  | _, [] => []
  | i, n :: ns => shutsDownAfter i n ++ allShutDown (i + 1) ns

end Abq.WorkerSignals
