import Verif.Model.Delivery

/-!
# Vocabulary of C114
-/

namespace Abq.Delivery
open Abq.Buffered

/-- The results the task took from the runner, in order, in the course of some steps. -/
def taken {α : Type} (t : Sender α) : List (Act α) → List α
  | [] => []
  | a :: as =>
    (match a with
      | .op (.push x) => if t.phase = .idle ∧ t.closed = false then [x] else []
      | _ => []) ++ taken (t.step a) as

/-- The task is at an end that is not its proper one. -/
def Broken {α : Type} (t : Sender α) : Prop := t.phase = .panicked ∨ t.phase = .dropped

end Abq.Delivery
