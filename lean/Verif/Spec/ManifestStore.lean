import Verif.Model.ManifestStore

/-! # Vocabulary of C23 -/

namespace Abq.ManifestStore.Spec
open Abq.ManifestStore

variable {V : Type}

/-- All the dumps of the history are of `v`. -/
def Dumps (v : V) (acts : List (Act V)) : Prop := ∀ w o, Act.dump w o ∈ acts → w = v

/-- Nothing broke off in the middle. -/
def NoCut : Act V → Prop
  | .dump _ (.cut _) => False
  | .fetch _ (.cut _) => False
  | _ => True

/-- The operation is not an offload job. -/
def NotOffload : Act V → Prop
  | .offload .. => False
  | _ => True

/-- The operation is not a dump. -/
def NotDump : Act V → Prop
  | .dump .. => False
  | _ => True

/-- A document that is followed by the end of another, longer one is not a document, and this is noticed after its end. -/
def NoTrailing (c : Codec V) : Prop :=
  ∀ u v, (c.encode v).length < (c.encode u).length →
    ∃ e, (c.encode v).length ≤ e ∧ c.decode (c.encode v ++ (c.encode u).drop (c.encode v).length) = .error e

end Abq.ManifestStore.Spec
