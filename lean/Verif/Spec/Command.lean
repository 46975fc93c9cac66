import Verif.Spec.AllRuns
import Verif.Model.Command

/-! What C46 speaks about. -/

namespace Abq.Props
open Abq Runs Spec

variable {T : Type}

/-- A worker `p` is being answered: at the end of the schedule `acts` its request is resumed, and the queue admits it with
the flag `d`. -/
def AdmittedWith (acts : List (RunsAct T)) (p : JoinParams) (d : Bool) : Prop :=
  ∃ i ans ok, ((init : Runs T).run acts).pending[i]? = some (.joinRead p) ∧
    ((((init : Runs T).run acts).step (.resume i ans ok)).events =
        ((init : Runs T).run acts).events ++ [.joined p (.fresh false d)] ∨
      (((init : Runs T).run acts).step (.resume i ans ok)).events =
        ((init : Runs T).run acts).events ++ [.joined p (.retry d)])

/-- The run `rid` started with the command `c` under the hash function: by a worker that was asked to generate the manifest,
or loaded from the store, where `c` is the command whose hash was stored. -/
def StartedWith (blake3 : String → String) (acts : List (RunsAct T)) (rid : RunId) (c : Command) : Prop :=
  ∀ x ∈ ((init : Runs T).run acts).events, (asksToGenerate rid x = true ∨ isLoad rid x = true) →
    commandOf x = some (commandHash blake3 c)

end Abq.Props
