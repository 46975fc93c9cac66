import Verif.Model.PeriodicJob

/-! Invariant of the background job. -/

namespace Abq.Job

/-- A call that holds the flag. -/
def Call.holds : Call → Bool
  | .active | .jobDone | .died => true
  | _ => false

/-- Number of calls holding the flag. -/
def held (l : List Call) : Nat := l.countP Call.holds

theorem held_set (l : List Call) (i : Nat) (c d : Call) (h : l[i]? = some c) :
    held (l.set i d) + (if c.holds then 1 else 0) = held l + (if d.holds then 1 else 0) := by
  induction l generalizing i with
  | nil => simp at h
  | cons a l ih =>
    cases i with
    | zero =>
      simp at h; subst h
      simp only [List.set_cons_zero, held, List.countP_cons]
      omega
    | succ i =>
      simp at h
      have := ih i h
      simp only [List.set_cons_succ, held, List.countP_cons] at this ⊢
      omega

/-- Exactly one call holds the flag when it is set, none when it is not. -/
def Inv (s : St) : Prop := held s.calls = if s.isActive then 1 else 0

theorem inv_init (n : Nat) : Inv (init n) := by
  show held (List.replicate n Call.notStarted) = 0
  simp [held, Call.holds]

theorem held_pos (l : List Call) (i : Nat) (c : Call) (h : l[i]? = some c) (hc : c.holds = true) : 0 < held l := by
  exact List.countP_pos_iff.mpr ⟨c, List.mem_of_getElem? h, hc⟩

theorem inv_step (s : St) (h : Inv s) (a : Act) : Inv (s.step a) := by
  have h' : held s.calls = if s.isActive then 1 else 0 := h
  cases a with
  | start i =>
    simp only [St.step]
    split
    · rename_i hc
      cases ha : s.isActive
      · have := held_set s.calls i _ .active hc
        simp [Call.holds] at this
        simp [ha] at h'
        simp [Inv]; omega
      · have := held_set s.calls i _ .skipped hc
        simp [Call.holds] at this
        simp [ha] at h'
        simp [Inv]; omega
    · exact h
  | complete i =>
    simp only [St.step]
    split
    · rename_i hc
      have := held_set s.calls i _ .jobDone hc
      simp [Call.holds] at this
      unfold Inv; dsimp only; omega
    · exact h
  | finish i =>
    simp only [St.step]
    split
    · rename_i hc
      have := held_set s.calls i _ .ran hc
      have hp := held_pos _ _ _ hc rfl
      simp [Call.holds] at this
      cases ha : s.isActive <;> simp [ha] at h' <;> simp [Inv] <;> omega
    · exact h
  | die i =>
    simp only [St.step]
    split
    · rename_i hc
      have := held_set s.calls i _ .died hc
      simp [Call.holds] at this
      unfold Inv; dsimp only; omega
    · exact h

theorem inv_run (as : List Act) : ∀ s, Inv s → Inv (s.run as) := by
  induction as with
  | nil => intro s h; exact h
  | cons a as ih => intro s h; exact ih _ (inv_step s h a)

theorem countP_two {α : Type} (p : α → Bool) (l : List α) (i j : Nat) (a b : α) (hij : i < j)
    (hi : l[i]? = some a) (hj : l[j]? = some b) (ha : p a = true) (hb : p b = true) : 2 ≤ l.countP p := by
  induction l generalizing i j with
  | nil => simp at hi
  | cons c l ih =>
    cases j with
    | zero => omega
    | succ j =>
      simp at hj
      cases i with
      | zero =>
        simp at hi; subst hi
        rw [List.countP_cons, if_pos ha]
        have : 0 < l.countP p := List.countP_pos_iff.mpr ⟨b, List.mem_of_getElem? hj, hb⟩
        omega
      | succ i =>
        simp at hi
        have := ih i j (by omega) hi hj
        rw [List.countP_cons]; omega

end Abq.Job
