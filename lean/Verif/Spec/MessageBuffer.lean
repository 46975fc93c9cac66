import Verif.Model.MessageBuffer

/-! # Vocabulary of C28 -/

namespace Abq.MsgBuf.Spec
open Abq.MsgBuf

variable {α : Type}

/-- What a consumer should see of a batch: its items, then the mark of its end. -/
def seen (xs : List α) : List (Recv α) :=
  match xs with
  | [] => []
  | _ => xs.map .item ++ [.flushProcessed]

/-- What a consumer should see of all batches. -/
def expected (batches : List (List α)) : List (Recv α) := batches.flatMap seen

def items (rs : List (Recv α)) : List α :=
  rs.filterMap (fun r => match r with | .item x => some x | .flushProcessed => none)

/-- Fetches return an empty batch only as the end. -/
def Proper (as : List (Act α)) : Prop := ∀ a ∈ as, ∀ c, a = .fetch (some ([], c)) → c = true

end Abq.MsgBuf.Spec
