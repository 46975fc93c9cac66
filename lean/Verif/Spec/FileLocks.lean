import Verif.Model.FileLocks
/-!
# Vocabulary for the use of results files

`t`, `u` number the calls in the order in which they were made.
-/

namespace Abq.Spec.FileLocks
open Abq.FileLocks

/-- Call `t` is for run `r`. -/
def ForRun (s : St) (t : Nat) (r : String) : Prop := ∃ st, s.tasks[t]? = some ⟨r, st⟩

/-- Call `t` is writing, reading, sending or offloading the results file of run `r`. -/
def Uses (s : St) (t : Nat) (r : String) : Prop :=
  s.tasks[t]? = some ⟨r, .busy⟩ ∨ s.tasks[t]? = some ⟨r, .moving⟩

/-- Call `t` is offloading the results file of run `r`. -/
def Moves (s : St) (t : Nat) (r : String) : Prop := s.tasks[t]? = some ⟨r, .moving⟩

/-- Call `t` is downloading and opening the results file of run `r`. -/
def Opens (s : St) (t : Nat) (r : String) : Prop := s.tasks[t]? = some ⟨r, .opening⟩

/-- Call `t` has returned. -/
def Returned (s : St) (t : Nat) : Prop := ∃ r, s.tasks[t]? = some ⟨r, .gone⟩

/-- Call `t` needs all files for itself, or has them: it is to open a file for the first time, or to offload one. -/
def NeedsAll (s : St) (t : Nat) : Prop :=
  ∃ r st, s.tasks[t]? = some ⟨r, st⟩ ∧ st ∈ [Stage.slow, .opening, .want, .latched, .moving]

/-- Call `t` waits to open the results file of run `r`, or opens it. -/
def ToOpen (s : St) (t : Nat) (r : String) : Prop :=
  s.tasks[t]? = some ⟨r, .slow⟩ ∨ s.tasks[t]? = some ⟨r, .opening⟩

/-- In the history `f` every call that satisfies `p` goes on, again and again. -/
def GoesOn (f : Nat → Act) (p : Nat → Prop) : Prop :=
  ∀ n t, t < (St.after f n).tasks.length → p t → ∃ m, n ≤ m ∧ ∃ ok, f m = .go t ok

/-- The full claim: a call that stops in the middle of its use of a file, because its client does not read, does not keep
the calls for other runs from returning. -/
def StalledHarmsOnlyItsRun : Prop :=
  ∀ (f : Nat → Act) (n stalled : Nat) (r : String), Uses (St.after f n) stalled r →
    GoesOn f (· ≠ stalled) →
    ∀ t r', ForRun (St.after f n) t r' → r' ≠ r → ∃ m, n ≤ m ∧ Returned (St.after f m) t

end Abq.Spec.FileLocks
