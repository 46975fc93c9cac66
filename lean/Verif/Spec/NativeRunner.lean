import Verif.Model.NativeRunner

/-!
# Waiting for a native runner: vocabulary of C121 and C122
-/

namespace Abq.Spec
open Abq.NativeRunner

/-- What the native runner does of its own accord. -/
def ByNative : NativeRunner.Act → Bool
  | .connect | .say _ | .hangUp | .exit | .closeOutput => true
  | _ => false

/-- A step that is neither the native runner's nor the signal to shut down: time passes, the queue answers, the worker goes on. -/
def Rest (a : NativeRunner.Act) : Prop := ByNative a = false ∧ a ≠ .cancel

/-- What only the native runner can bring about. -/
inductive Want where
  | message | exit | output
deriving DecidableEq, Repr

/-- What the worker waits for without a time limit. -/
def unlimited : Phase → Option Want
  | .greeting | .manifest | .initializing => some .message
  | .manifestExit _ | .fastExit | .restartExit | .lost | .closing => some .exit
  | .manifestOutput _ | .restartOutput | .output _ => some .output
  | .accepting | .refused | .testing | .context | .idle | .ended _ => none

/-- It is there: a message, or the end of the connection; the end of the process; the end of its output (or it is not waited for any
more). -/
def There (s : NativeRunner.St) : Want → Prop
  | .message => s.proc.inbox ≠ [] ∨ s.proc.conn ≠ .opened
  | .exit => s.proc.alive = false
  | .output => s.proc.outputOpen = false ∨ s.captureClosed = true ∨ s.captureFinished = true

/-- The worker waits, without a time limit, for what only the native runner can bring about. -/
def Stuck (s : NativeRunner.St) : Prop := ∃ w, unlimited s.phase = some w ∧ ¬ There s w

/-- The worker has returned. -/
def Returned (s : NativeRunner.St) : Prop := ∃ r, s.phase = .ended r

/-- All native runners it has started. -/
def started (s : NativeRunner.St) : List Proc := s.proc :: s.old.toList ++ s.dropped

end Abq.Spec
