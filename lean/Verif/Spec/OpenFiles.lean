import Verif.Model.OffloadJob

/-! # Vocabulary for the files a queue keeps open -/

namespace Abq.OpenFiles.Spec
open Abq.Names (Str)

/-- The results of all runs, when a queue has just been started: nothing is open. -/
def Fresh (w : Str → Results.Res) : Prop := ∀ r, ∃ noop disk remote, w r = Results.init noop disk remote

/-- Steps on the results of runs, in the order in which they happen. -/
def serve (w : Str → Results.Res) (acts : List (Str × Results.Act)) : Str → Results.Res :=
  acts.foldl (fun w x => fun r => if r = x.1 then Results.step (w r) x.2 else w r) w

/-- The queue has the results file of the run open. -/
def Open (w : Str → Results.Res) (r : Str) : Prop := (w r).fd = some .opened

/-- The step is not one of an offload job. -/
def NotOffload : Results.Act → Prop
  | .offload .. => False
  | _ => True

end Abq.OpenFiles.Spec
