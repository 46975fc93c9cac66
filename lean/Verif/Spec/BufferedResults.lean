import Verif.Model.BufferedResults

/-! # Vocabulary of C29 -/

namespace Abq.Buffered
variable {α : Type}

/-- What the calls pushed, in order. -/
def pushes : List (Op α) → List α
  | [] => []
  | .push x :: os => x :: pushes os
  | .flush :: os => pushes os

end Abq.Buffered
