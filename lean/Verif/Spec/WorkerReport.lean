import Verif.Model.WorkerReport
import Verif.Spec.Report

/-! # Vocabulary of C80 -/

namespace Abq.WorkerReport
open Abq.Report (Group Reporter Event)

/-- What a reporter was told, besides what it was told before. -/
def Told (before after : List Reporter) (es : List Event) : Prop :=
  after.map (·.log) = before.map fun r => r.log ++ es

/-- What runners `1..n` sent: a runner sends until it quits. -/
def sentFrom (n : Nat) (quit : List Nat) : List Act → List Group
  | [] => []
  | .send r gs :: rest => (if 1 ≤ r ∧ r ≤ n ∧ r ∉ quit then gs else []) ++ sentFrom n quit rest
  | .quit r :: rest => sentFrom n (r :: quit) rest
  | .task :: rest => sentFrom n quit rest

def sentBy (n : Nat) (acts : List Act) : List Group := sentFrom n [] acts

/-- All of runners `1..n` have quit. -/
def AllQuit (n : Nat) (acts : List Act) : Prop := ∀ r, 1 ≤ r → r ≤ n → .quit r ∈ acts

end Abq.WorkerReport
