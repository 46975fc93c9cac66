import Verif.Spec.Progress
import Verif.Spec.ReportWait
import Verif.Spec.Fetch
/-! # Vocabulary for when a report has the results of a run (C153) -/

namespace Abq.Spec.ReportServed
open Abq.Recording
variable {T : Type}

/-- A queue in time: all the choices of its scheduler by each moment, since it started. -/
def Grows (history : Nat → List (Recording.Act T)) : Prop := ∀ s t, s ≤ t → history s <+: history t

/-- What has been observed of the queue by a moment. -/
def seenBy (enc : Report.Line → Results.Bytes) (noop : Bool) (history : Nat → List (Recording.Act T)) (t : Nat) : List (Obs T) :=
  ((init T noop).run enc (history t)).log

/-- All runners of the run are done, and a client whose turn begins at `now` asks for its results. Some time later, when `before` is all
that has been observed of the queue, its request comes to the file. It is put off, and the client reads so; or it is let in, and the client
is sent the contents of the file as they are when they are read, or reads nothing if they cannot be read. -/
def FromQueue (enc : Report.Line → Results.Bytes) (noop : Bool) (history : Nat → List (Recording.Act T)) (rid : RunId)
    (world : Nat → ReportWait.Turn) : Prop :=
  ∀ now, ∃ before, seenBy enc noop history now <+: before ∧
    ((∃ t, before ++ [.file rid .pending] <+: seenBy enc noop history t ∧ (world now).reply = some .pending) ∨
     (∃ t r meanwhile bytes broken,
        before ++ [.file rid (.asked r)] ++ meanwhile ++ [.file rid (.stream r bytes)] <+: seenBy enc noop history t ∧
        bytes.length < 2 ^ 32 ∧
        (world now).reply = some (.streaming ⟨Wire.streamBytes bytes.length (Fetch.onWire bytes), broken⟩)) ∨
     (∃ t r meanwhile,
        before ++ [.file rid (.asked r)] ++ meanwhile ++ [.file rid (.readFailed r)] <+: seenBy enc noop history t ∧
        (world now).reply = none))

end Abq.Spec.ReportServed
