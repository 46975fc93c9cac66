import Verif.Model.Shutdown

/-! What C124 speaks about, read off what happened (`events`). -/

namespace Abq.Spec.Shutdown
open Abq.Shutdown

/-- The queue was told to shut down at a time when receiver `i` existed. The first receiver of a manager with a receiver of its own
(`own`) counts as existing from the start. -/
def Meant (own : Bool) (i : Nat) (evs : List Ev) : Prop :=
  ∃ pre n post, evs = pre ++ .shutDown (.ok n) :: post ∧ (.added i ∈ pre ∨ (own = true ∧ i = 0))

/-- Receiver `i` exists. -/
def Exists (i : Nat) (evs : List Ev) : Prop := .added i ∈ evs ∧ .dropped i ∉ evs

/-- How many receivers exist, with the manager's own, which is there until a receiver is asked for. -/
def existing (own : Bool) (evs : List Ev) : Nat :=
  let made := evs.countP (fun e => match e with | .added _ => true | _ => false)
  made - evs.countP (fun e => match e with | .dropped _ => true | _ => false) + (if own = true ∧ made = 0 then 1 else 0)

/-- A manager with a receiver of its own (`ShutdownManager::default`), or without (`ShutdownManager::new_pair`). -/
def start (own : Bool) : St := if own then Abq.Shutdown.default else newPair

end Abq.Spec.Shutdown
