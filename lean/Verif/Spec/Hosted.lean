import Verif.Model.Hosted

/-!
# Vocabulary: replies worth retrying, and values in a query
-/

namespace Abq.Hosted

/-- The reply is a server error or a rate limit. -/
def Reply.Retried : Reply → Prop
  | .transport => False
  | .status c => (500 ≤ c ∧ c < 600) ∨ c = 429

/-- The value of a key in a query: that of its last occurrence. -/
def QueryValue (query : List (String × String)) (key v : String) : Prop :=
  ∃ pre post, query = pre ++ (key, v) :: post ∧ ∀ p ∈ post, p.1 ≠ key

end Abq.Hosted
