import Verif.Proof.PeriodicJob

/-!
# A background job never overlaps itself (C49)

All theorems are about every number of triggers and every interleaving of their steps.
-/

namespace Abq.Props
open Abq.Job

/-- **C49.** The job is never run by two calls at the same time, even if a job panics. -/
theorem C49_never_overlaps (n : Nat) (as : List Abq.Job.Act) (i j : Nat)
    (hi : ((init n).run as).calls[i]? = some .active) (hj : ((init n).run as).calls[j]? = some .active) : i = j := by
  have inv := inv_run as _ (inv_init n)
  unfold Job.Inv held at inv
  rcases Nat.lt_trichotomy i j with h | h | h
  · have := countP_two Call.holds _ i j _ _ h hi hj rfl rfl
    split at inv <;> omega
  · exact h
  · have := countP_two Call.holds _ j i _ _ h hj hi rfl rfl
    split at inv <;> omega

/-- **C49.** A run requested while one is active is skipped at once. -/
theorem C49_skipped_while_active (n : Nat) (as : List Abq.Job.Act) (i j : Nat)
    (hi : ((init n).run as).calls[i]? = some .active) (hj : ((init n).run as).calls[j]? = some .notStarted) :
    (((init n).run as).step (.start j)).calls[j]? = some .skipped := by
  have inv := inv_run as _ (inv_init n)
  have hp := held_pos _ _ _ hi rfl
  unfold Job.Inv at inv
  have ha : ((init n).run as).isActive = true := by
    cases h : ((init n).run as).isActive
    · rw [h] at inv; simp at inv; omega
    · rfl
  have hl : j < ((init n).run as).calls.length := by
    apply Decidable.byContradiction; intro h
    rw [List.getElem?_eq_none (by omega)] at hj; cases hj
  simp only [St.step, hj, ha, if_true]
  simp [hl]

/-- **C49** (in part). A run requested when no earlier one is under way runs the job, if no job panicked before; and it is skipped in
all other cases.

Missing: runs requested after a job that panicked; see `C49_full_statement_fails`. -/
theorem C49_runs_again_partial (n : Nat) (as : List Abq.Job.Act) (j : Nat)
    (hj : ((init n).run as).calls[j]? = some .notStarted) :
    ((∀ (i : Nat) (c : Call), ((init n).run as).calls[i]? = some c → c ≠ .active ∧ c ≠ .jobDone ∧ c ≠ .died) →
      (((init n).run as).step (.start j)).calls[j]? = some .active) ∧
    (¬ (∀ (i : Nat) (c : Call), ((init n).run as).calls[i]? = some c → c ≠ .active ∧ c ≠ .jobDone ∧ c ≠ .died) →
      (((init n).run as).step (.start j)).calls[j]? = some .skipped) := by
  have inv := inv_run as _ (inv_init n)
  have hl : j < ((init n).run as).calls.length := by
    apply Decidable.byContradiction; intro h
    rw [List.getElem?_eq_none (by omega)] at hj; cases hj
  have key : ((init n).run as).isActive = false ↔
      (∀ (i : Nat) (c : Call), ((init n).run as).calls[i]? = some c → c ≠ .active ∧ c ≠ .jobDone ∧ c ≠ .died) := by
    have hz : held ((init n).run as).calls = 0 ↔
        (∀ (i : Nat) (c : Call), ((init n).run as).calls[i]? = some c → c ≠ .active ∧ c ≠ .jobDone ∧ c ≠ .died) := by
      unfold held
      rw [List.countP_eq_zero]
      constructor
      · intro h i c hi
        have := h c (List.mem_of_getElem? hi)
        cases c <;> simp_all [Call.holds]
      · intro h c hc
        obtain ⟨i, hi⟩ := List.getElem?_of_mem hc
        have := h i c hi
        cases c <;> simp_all [Call.holds]
    rw [← hz]
    unfold Job.Inv at inv
    cases h : ((init n).run as).isActive
    · rw [h] at inv; simp at inv; simp [inv]
    · rw [h] at inv; simp at inv; simp [inv]
  rw [← key]
  refine ⟨fun ha => ?_, fun ha => ?_⟩
  · simp only [St.step, hj, ha]
    simp [hl]
  · simp only [St.step, hj, Bool.not_eq_false] at ha ⊢
    simp [hl, ha]

/-- **C49 fails** as stated: after a job that panicked, no run ever executes the job again. -/
theorem C49_full_statement_fails (n : Nat) (as : List Abq.Job.Act) (i : Nat)
    (hi : ((init n).run as).calls[i]? = some .died) (bs : List Abq.Job.Act) (j : Nat) :
    ((init n).run (as ++ bs)).calls[j]? ≠ some .active := by
  intro hj
  have inv := inv_run (as ++ bs) _ (inv_init n)
  have hd : ∀ (bs : List Abq.Job.Act) (s : St), s.calls[i]? = some .died → (s.run bs).calls[i]? = some .died := by
    intro bs
    induction bs with
    | nil => intro s h; exact h
    | cons b bs ih =>
      intro s h
      refine ih (s.step b) ?_
      have key : ∀ k c d, s.calls[k]? = some c → c ≠ .died → (s.calls.set k d)[i]? = some .died := by
        intro k c d hk hc
        have : k ≠ i := by intro e; subst e; rw [h] at hk; cases hk; exact hc rfl
        rw [List.getElem?_set_ne this]; exact h
      cases b <;> simp only [St.step]
      · split
        · rename_i hk
          split
          · exact key _ _ _ hk (by simp)
          · exact key _ _ _ hk (by simp)
        · exact h
      · split
        · rename_i hk; exact key _ _ _ hk (by simp)
        · exact h
      · split
        · rename_i hk; exact key _ _ _ hk (by simp)
        · exact h
      · split
        · rename_i hk; exact key _ _ _ hk (by simp)
        · exact h
  have hrun : (init n).run (as ++ bs) = ((init n).run as).run bs := by simp [St.run]
  have h1 := hd bs _ hi
  rw [hrun] at hj inv
  unfold Job.Inv held at inv
  have hne : i ≠ j := by intro e; subst e; rw [h1] at hj; cases hj
  have : 2 ≤ (((init n).run as).run bs).calls.countP Call.holds := by
    rcases Nat.lt_or_gt_of_ne hne with h | h
    · exact countP_two Call.holds _ i j _ _ h h1 hj rfl rfl
    · exact countP_two Call.holds _ j i _ _ h hj h1 rfl rfl
  split at inv <;> omega

/-- Three triggers: the second comes while the first is active, the third afterwards. -/
example : ((init 3).run [.start 0, .start 1, .complete 0, .finish 0, .start 2]).calls = [.ran, .skipped, .active] := by
  decide

/-- A panic in the first disables the second for good. -/
example : ((init 2).run [.start 0, .die 0, .start 1]).calls = [.died, .skipped] := by decide

end Abq.Props
