import Verif.Proof.RegistryLocks

/-!
# C131: calls to the registry of runs do not block one another

For any number of calls at a time, whatever each finds in the registry, every schedule, and every behaviour of the locks that is
compatible with `parking_lot`: readers may or may not be held up by writers in line.
-/

namespace Abq.Props
open Abq.RegistryLocks Abq.Spec.RegistryLocks Abq.RegistryLocksProof

/-- C131: each call returns once every thread has had 22 turns for each call, in any order; except that one whose question the storage
does not answer still waits for that, and has no lock. -/
theorem C131_returns (calls : List (Call × Eyes)) (answered : Nat → Bool) (rounds : List (List (Nat × Bool)))
    (hr : ∀ turns ∈ rounds, Round calls.length turns) (hn : 22 * calls.length ≤ rounds.length) (i : Nat) (t : Thread)
    (ht : (run answered (start calls) rounds.flatten)[i]? = some t) : Returned t ∨ (AtStorage t ∧ answered i = false) := by
  have hinv := inv_start calls
  have hlen : (start calls).length = calls.length := by simp [start]
  have hnb := rounds_end hinv answered rounds (by rw [hlen]; exact hr) (Nat.le_trans (efforts_start calls) hn) i t ht
  have hok := (hinv.run answered rounds.flatten).ok t (List.mem_of_getElem? ht)
  unfold Returned AtStorage
  cases htd : t.todo with
  | nil => rw [htd] at hok; exact .inl ⟨rfl, hok⟩
  | cons op rest =>
    rw [htd] at hok
    cases op with
    | acquire l m => exact absurd ⟨by simp [htd], by rintro ⟨⟨_, e⟩, -⟩; rw [htd] at e; cases e⟩ hnb
    | release l => exact absurd ⟨by simp [htd], by rintro ⟨⟨_, e⟩, -⟩; rw [htd] at e; cases e⟩ hnb
    | storage =>
      right
      refine ⟨⟨⟨rest, rfl⟩, hok.1⟩, ?_⟩
      cases ha : answered i with
      | false => rfl
      | true => exact absurd ⟨by simp [htd], by rintro ⟨-, e⟩; rw [ha] at e; cases e⟩ hnb

/-- C131: no schedule leads to a deadlock. At every moment at which some call has neither returned nor is waiting for the storage, some
thread can go on. -/
theorem C131_no_deadlock (calls : List (Call × Eyes)) (answered : Nat → Bool) (sched : List (Nat × Bool)) (i : Nat) (t : Thread)
    (ht : (run answered (start calls) sched)[i]? = some t) (h1 : ¬ Returned t) (h2 : ¬ (AtStorage t ∧ answered i = false)) :
    ∃ (j : Nat) (u : Thread), (run answered (start calls) sched)[j]? = some u ∧ CanGo (run answered (start calls) sched) (answered j) u := by
  have hinv := (inv_start calls).run answered sched
  have hok := hinv.ok t (List.mem_of_getElem? ht)
  refine progress hinv answered 3 i t ht ⟨?_, ?_⟩ (by omega)
  · intro e
    rw [e] at hok
    exact h1 ⟨e, hok⟩
  · rintro ⟨⟨rest, e⟩, ha⟩
    rw [e] at hok
    exact h2 ⟨⟨⟨rest, e⟩, hok.1⟩, ha⟩

/-- C131: at no moment do two calls have a lock that one of them writes. -/
theorem C131_exclusive (calls : List (Call × Eyes)) (answered : Nat → Bool) (sched : List (Nat × Bool)) (i j : Nat) (t u : Thread)
    (hi : (run answered (start calls) sched)[i]? = some t) (hj : (run answered (start calls) sched)[j]? = some u) (hne : i ≠ j) (l : Lock)
    (hw : (l, Mode.write) ∈ t.held) : ¬ Has u l :=
  ((inv_start calls).run answered sched).excl i j t u hi hj hne l hw

/-- C131: a call that waits for the storage has no lock, so nobody waits for it; and none asks for a lock it has already. -/
theorem C131_holds_nothing (calls : List (Call × Eyes)) (answered : Nat → Bool) (sched : List (Nat × Bool)) (t : Thread)
    (ht : t ∈ run answered (start calls) sched) :
    (∀ rest, t.todo = .storage :: rest → t.held = []) ∧ (∀ l m rest, t.todo = .acquire l m :: rest → ¬ Has t l) := by
  have hok := ((inv_start calls).run answered sched).ok t ht
  constructor
  · intro rest e
    rw [e] at hok
    exact hok.1
  · intro l m rest e hh
    rw [e] at hok
    rcases hh with hh | hh <;> exact Nat.lt_irrefl _ (hok.1 _ hh)

namespace SampleLocks

def eyes (look : Nat → Option Kind) : Eyes := ⟨look, .notFound, true, true, true, true⟩

/-- A worker that joins a run that is not there, one that gets the last tests of another run, and a timeout of that. -/
def calls : List (Call × Eyes) :=
  [(.findOrCreate "a", eyes fun n => if n = 0 then none else some .waiting),
   (.nextWork "b", eyes fun n => if n = 0 then some .hasWork else some .done),
   (.progressTimeout "b", eyes fun _ => some .hasWork)]

/-- The first is about to insert its run and is in line, the second and third hold it up. -/
def sched : List (Nat × Bool) := [(0, false), (0, false), (0, false), (1, false), (1, false), (2, true), (0, false)]

end SampleLocks
open SampleLocks

example : (run (fun _ => true) (start calls) sched).map (·.held) =
    [[], [(.run "b", .read), (.runs, .read)], [(.runs, .read)]] ∧
  InLine ((run (fun _ => true) (start calls) sched)[0]'(by decide)) .runs := by
  refine ⟨by decide, ?_⟩
  unfold InLine
  refine ⟨by decide, ?_⟩
  exact ⟨_, rfl⟩

/-- Others are held up, but not for good. -/
example : ∃ (j : Nat) (u : Thread), (run (fun _ => true) (start calls) sched)[j]? = some u ∧
    CanGo (run (fun _ => true) (start calls) sched) true u :=
  C131_no_deadlock calls (fun _ => true) sched 0 _ rfl (by unfold Returned; decide) (by rintro ⟨-, h⟩; cases h)

/-- All three have returned after 66 rounds, or two if the storage does not answer. -/
example (i : Nat) (t : Thread) (ht : (run (fun _ => true) (start calls) (List.replicate 66 [(0, false), (1, false), (2, false)]).flatten)[i]? =
    some t) : Returned t := by
  refine (C131_returns calls (fun _ => true) (List.replicate 66 [(0, false), (1, false), (2, false)]) ?_ (by simp [calls]) i t ht).resolve_right
    (by rintro ⟨-, h⟩; cases h)
  intro turns h
  rw [List.eq_of_mem_replicate h]
  intro i hi
  have : i = 0 ∨ i = 1 ∨ i = 2 := by simp [calls] at hi; omega
  rcases this with rfl | rfl | rfl <;> exact ⟨false, by simp⟩

namespace SampleLocks

/-- Two threads that the theorems are not about: one reads a lock again that it is reading, and the other one gets in line to write in
between. -/
def again : List Thread :=
  run (fun _ => true) [{ todo := [.acquire .runs .read, .acquire .runs .read, .release .runs, .release .runs] },
    { todo := [.acquire .runs .write, .release .runs] }] [(0, false), (1, false), (0, false), (1, false)]

theorem again_eq : again = [⟨[(.runs, .read)], [.acquire .runs .read, .release .runs, .release .runs], false⟩,
    ⟨[], [.acquire .runs .write, .release .runs], true⟩] := by decide

end SampleLocks

/-- Such threads are stuck for good: what is proved above is not true of any use of locks. -/
example (t : Thread) (ht : t ∈ again) : ¬ CanGo again true t := by
  rw [again_eq] at ht ⊢
  simp only [List.mem_cons, List.not_mem_nil, or_false] at ht
  rcases ht with rfl | rfl
  · rintro (⟨l, rest, h⟩ | ⟨⟨rest, h⟩, -⟩ | ⟨l, rest, h, hf⟩ | ⟨l, rest, h, -⟩)
    · cases h
    · cases h
    · cases h
      exact (hf ⟨[], [.acquire .runs .write, .release .runs], true⟩ (by simp)).2 ⟨rfl, _, rfl⟩
    · cases h
  · rintro (⟨l, rest, h⟩ | ⟨⟨rest, h⟩, -⟩ | ⟨l, rest, h, -⟩ | ⟨l, rest, h, hf⟩)
    · cases h
    · cases h
    · cases h
    · cases h
      exact hf ⟨[(.runs, .read)], [.acquire .runs .read, .release .runs, .release .runs], false⟩ (by simp) (.inl (by simp))

end Abq.Props
