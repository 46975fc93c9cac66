import Verif.Model.RegistryLocks

/-! # Vocabulary of C131: who has a lock, who can go on, and fair schedules -/

namespace Abq.Spec.RegistryLocks
open Abq.RegistryLocks

/-- The call has returned. -/
def Returned (t : Thread) : Prop := t.todo = [] ∧ t.held = []

/-- It waits for the storage, and has no lock meanwhile. -/
def AtStorage (t : Thread) : Prop := (∃ rest, t.todo = .storage :: rest) ∧ t.held = []

/-- It has the lock, for reading or for writing. -/
def Has (t : Thread) (l : Lock) : Prop := (l, Mode.read) ∈ t.held ∨ (l, Mode.write) ∈ t.held

/-- It waits in line to write. -/
def InLine (t : Thread) (l : Lock) : Prop := t.queued = true ∧ ∃ rest, t.todo = .acquire l .write :: rest

/-- What it has to do next can be done at once: it gives a lock back, or was answered by the storage, or wants a lock that it can have;
to read it if nobody writes or is in line to, to write it if nobody has it. -/
def CanGo (ts : List Thread) (answered : Bool) (t : Thread) : Prop :=
  (∃ l rest, t.todo = .release l :: rest) ∨
  ((∃ rest, t.todo = .storage :: rest) ∧ answered = true) ∨
  (∃ l rest, t.todo = .acquire l .read :: rest ∧ ∀ u ∈ ts, (l, Mode.write) ∉ u.held ∧ ¬ InLine u l) ∨
  (∃ l rest, t.todo = .acquire l .write :: rest ∧ ∀ u ∈ ts, ¬ Has u l)

/-- In these turns each of `n` threads has one. -/
def Round (n : Nat) (turns : List (Nat × Bool)) : Prop := ∀ i, i < n → ∃ barge, (i, barge) ∈ turns

end Abq.Spec.RegistryLocks
