import Verif.Model.Lifecycle
/-!
# Schedules with and without the calls of `retire`
-/

namespace Abq.Lifecycle
variable {T R : Type}

/-- The second schedule is the first without the calls of `retire`. -/
inductive Unretired : List (Act T R) → List (Act T R) → Prop where
  | nil : Unretired [] []
  | skip {as bs : List (Act T R)} : Unretired as bs → Unretired (.retire :: as) bs
  | keep {as bs : List (Act T R)} {a : Act T R} : a ≠ .retire → Unretired as bs → Unretired (a :: as) (a :: bs)

end Abq.Lifecycle
