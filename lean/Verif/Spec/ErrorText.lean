import Verif.Model.ErrorText
import Verif.Spec.WorkerExit
/-!
# What a native runner says is wrong, and texts that say it
-/

namespace Abq.Spec.ErrorText
open Abq.Protocol (Location OutOfBandError)

/-- The parts of a text, one after the other, with anything before, between and after them. -/
inductive Mentions : List Char → List (List Char) → Prop where
  | nothing {t} : Mentions t []
  | part {before p t ps} : Mentions t ps → Mentions (before ++ p ++ t) (p :: ps)

/-- A place, as a user looks for it. -/
def placeParts (l : Location) : List (List Char) :=
  l.file.toList :: (l.line.toList ++ l.column.toList).map fun n => (toString n).toList

/-- All that a user is to see of an error: what happened, with which exception, where, and how it came to it. -/
def parts (e : OutOfBandError) : List (List Char) :=
  e.message.toList :: (e.exception.toList.map String.toList ++ e.location.toList.flatMap placeParts ++
    (e.backtrace.getD []).map String.toList)

end Abq.Spec.ErrorText
