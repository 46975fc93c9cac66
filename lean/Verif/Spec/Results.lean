import Verif.Model.Results

/-! # Vocabulary for the persistence of results -/

namespace Abq.Results.Spec
open Abq.Results

/-- The lines whose recording was begun, with their ids, in order. -/
def planned (evs : List Ev) : List (Nat × Bytes) :=
  evs.filterMap fun | .planned id line => some (id, line) | _ => none

/-- The batches that were acknowledged to their worker. -/
def acked (evs : List Ev) : List Nat :=
  evs.filterMap fun | .acked id => some id | _ => none

/-- The writes to the results file that were carried out, successful or not: id, what reached the
file, success. -/
def writes (evs : List Ev) : List (Nat × Bytes × Bool) :=
  evs.filterMap fun | .wrote id chunk ok => some (id, chunk, ok) | _ => none

/-- The ids of these writes. -/
def written (evs : List Ev) : List Nat := (writes evs).map (·.1)

/-- What the file held when it was first opened in this life of the queue. -/
def bases (evs : List Ev) : List Bytes :=
  evs.filterMap fun | .opened b => some b | _ => none

/-- Everything that was ever put in the file, in order, after what it held at first. -/
def content (base : Bytes) (evs : List Ev) : Bytes :=
  base ++ ((writes evs).map (·.2.1)).flatten

/-- Whether the plan that was accounted as done last was eligible for a dump to the remote. -/
def lastEligible (evs : List Ev) : Option Bool :=
  (evs.filterMap fun | .finished _ e => some e | _ => none).getLast?

/-- No write to the file failed. -/
def writesOk (evs : List Ev) : Prop := ∀ w ∈ writes evs, w.2.2 = true

/-- No dump to the remote failed. -/
def storesOk (evs : List Ev) : Prop := Ev.stored false ∉ evs

/-- The observation that the file was copied to the remote, by a dump or by an offload. -/
def Copied : Ev → Prop
  | .stored ok => ok = true
  | .offload done => done = true
  | _ => False

/-- A choice that is not an offload whose truncation of the file could not be synced to disk. -/
def Safe : Act → Prop
  | .offload _ _ _ .syncFails => False
  | _ => True

instance : DecidablePred Safe
  | .offload _ _ _ .syncFails => isFalse id
  | .offload _ _ _ .ok => isTrue trivial
  | .offload _ _ _ .storeFails => isTrue trivial
  | .offload _ _ _ .truncateFails => isTrue trivial
  | .results .. => isTrue trivial
  | .summary .. => isTrue trivial
  | .request => isTrue trivial
  | .resume .. => isTrue trivial

/-- An offload that empties the file and fails all the same: the file is open, not empty and due, it was stored and truncated, and
the truncation could not be synced to disk. -/
def halfDone (σ : Res) : Act → Bool
  | .offload (some threshold) now accessed .syncFails =>
    decide (σ.fd = some .opened ∧ σ.disk ≠ [] ∧ accessed ≤ now ∧ threshold ≤ now - accessed)
  | _ => false

/-- How many observations there were when an offload of a schedule last emptied the file and failed; `last` if none did. -/
def emptiedAt (σ : Res) (last : Option Nat) : List Act → Option Nat
  | [] => last
  | a :: as => emptiedAt (step σ a) (if halfDone σ a then some (σ.events.length + 1) else last) as

/-- `bytes` is all that was put in the file, or all that was since it was emptied. -/
def Holds (last : Option Nat) (evs : List Ev) (bytes : Bytes) : Prop :=
  match last with
  | none => ∃ base, bases evs = [base] ∧ bytes = content base evs
  | some k => bytes = content [] (evs.drop k)

/-- A step whose environment does what it is asked to. -/
def fine : Out := { load := .ok, openOk := true, io := .ok }

/-- The lines of a results file: the pieces that end in a newline. -/
def linesAux (cur : Bytes) : Bytes → List Bytes
  | [] => []
  | b :: bs => if b = 10 then cur :: linesAux [] bs else linesAux (cur ++ [b]) bs

def lines (bs : Bytes) : List Bytes := linesAux [] bs

end Abq.Results.Spec
