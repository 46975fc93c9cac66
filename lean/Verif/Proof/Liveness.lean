import Verif.Model.Liveness

/-! Invariant of the live count. -/

namespace Abq.Live

/-- Number of runners that have signalled. -/
def sig (l : List RunnerSt) : Nat := l.countP (· = .signalled)

structure Inv (n : Nat) (s : St) : Prop where
  len : s.runners.length = n
  pos : 0 < n
  cap : s.cap = n
  counting : s.handler = .counting → 0 < s.count ∧ s.count ≤ n ∧ n - s.count + s.chan = sig s.runners
  done : s.handler = .announcing ∨ s.handler = .finished → s.count = 0 ∧ sig s.runners = n
  panic : s.handler = .panicked → ∃ i : Nat, s.runners[i]? = some .dropped
  quiet : s.waitPanicked = true → s.handler = .panicked
  rxused : s.rxAll = some .used → s.waitPanicked = true
  hused : s.handle = some .used → s.waitPanicked = true
  rxnone : s.rxAll = none → s.handler = .finished
  hnone : s.handle = none → s.rxAll = none
  ret : s.returned = true → s.handler = .finished

theorem sig_le (l : List RunnerSt) : sig l ≤ l.length := List.countP_le_length

theorem sig_set (l : List RunnerSt) (i : Nat) (v : RunnerSt) (h : l[i]? = some .running) :
    sig (l.set i v) = sig l + (if v = .signalled then 1 else 0) := by
  induction l generalizing i with
  | nil => simp at h
  | cons a l ih =>
    cases i with
    | zero =>
      simp at h; subst h
      simp only [List.set_cons_zero, sig, List.countP_cons]
      by_cases hv : v = .signalled <;> simp [hv]
    | succ i =>
      simp at h
      have := ih i h
      simp only [List.set_cons_succ, sig, List.countP_cons] at this ⊢
      omega

theorem sig_all (l : List RunnerSt) (h : sig l = l.length) : ∀ (i : Nat) (x : RunnerSt), l[i]? = some x → x = .signalled := by
  intro i x hx
  have := List.countP_eq_length.mp h x (List.mem_of_getElem? hx)
  simpa using this

theorem sig_running_lt (l : List RunnerSt) (i : Nat) (x : RunnerSt) (h : l[i]? = some x) (hx : x ≠ .signalled) : sig l < l.length := by
  have h1 := sig_le l
  rcases Nat.lt_or_ge (sig l) l.length with h2 | h2
  · exact h2
  · exact absurd (sig_all l (by omega) i x h) hx

theorem inv_new (n : Nat) (s : St) (h : new n = some s) : Inv n s := by
  unfold new at h
  split at h
  · cases h
  · cases h
    have : sig (List.replicate n RunnerSt.running) = 0 := by
      simp [sig]
    constructor <;> (try simp [this]) <;> omega

theorem inv_step (n : Nat) (s : St) (h : Inv n s) (a : Act) : Inv n (s.step a) := by
  obtain ⟨h1, h2, h3, h4, h5, h6, h7, h8, h9, h10, h11, h12⟩ := h
  cases a with
  | signal i =>
    simp only [St.step, St.signal]
    split
    · rename_i hr
      have hlt := sig_running_lt _ _ _ hr (by simp)
      have hset := sig_set s.runners i .signalled hr
      simp only [if_true] at hset
      split
      · rename_i hh
        split
        · have h4' := h4 hh
          refine ⟨by simpa using h1, h2, h3, ?_, ?_, ?_, h7, h8, h9, h10, h11, h12⟩
          · intro _; refine ⟨h4'.1, h4'.2.1, ?_⟩; simp only [hset]; omega
          · intro hd; rw [hh] at hd; simp at hd
          · intro hd; rw [hh] at hd; simp at hd
        · exact ⟨h1, h2, h3, h4, h5, h6, h7, h8, h9, h10, h11, h12⟩
      · rename_i hh
        refine ⟨by simpa using h1, h2, h3, fun hc => absurd hc hh, ?_, ?_, h7, h8, h9, h10, h11, h12⟩
        · intro hd; have := h5 hd; omega
        · intro hd
          obtain ⟨j, hj⟩ := h6 hd
          refine ⟨j, ?_⟩
          have hne : i ≠ j := by intro e; subst e; rw [hr] at hj; cases hj
          dsimp only
          rw [List.getElem?_set_ne hne]; exact hj
    · exact ⟨h1, h2, h3, h4, h5, h6, h7, h8, h9, h10, h11, h12⟩
  | drop i =>
    simp only [St.step, St.drop]
    split
    · rename_i hr
      have hlt := sig_running_lt _ _ _ hr (by simp)
      have hset := sig_set s.runners i .dropped hr
      simp at hset
      refine ⟨by simpa using h1, h2, h3, ?_, ?_, ?_, h7, h8, h9, h10, h11, h12⟩
      · intro hc; simp only [hset]; exact h4 hc
      · intro hd; have := h5 hd; omega
      · intro hd
        have hi : i < s.runners.length := by
          apply Decidable.byContradiction; intro hc
          rw [List.getElem?_eq_none (by omega)] at hr; cases hr
        exact ⟨i, by simp [hi]⟩
    · exact ⟨h1, h2, h3, h4, h5, h6, h7, h8, h9, h10, h11, h12⟩
  | handle =>
    simp only [St.step, St.handleStep]
    split
    · rename_i hh
      have h4' := h4 hh
      have hsl := sig_le s.runners
      split
      · split
        · rename_i hc
          refine ⟨h1, h2, h3, by simp, ?_, by simp, ?_, h8, h9, ?_, h11, ?_⟩
          · intro _; exact ⟨by simp; omega, by simp; omega⟩
          · intro hw; have := h7 hw; rw [hh] at this; cases this
          · intro hw; have := h10 hw; rw [hh] at this; cases this
          · intro hw; have := h12 hw; rw [hh] at this; cases this
        · refine ⟨h1, h2, h3, ?_, ?_, ?_, h7, h8, h9, h10, h11, h12⟩
          · intro _; simp; omega
          · intro hd; simp [hh] at hd
          · intro hd; simp [hh] at hd
      · split
        · rename_i hchan hall
          refine ⟨h1, h2, h3, by simp, by simp, ?_, ?_, h8, h9, ?_, h11, ?_⟩
          · intro _
            -- fewer than n signalled, none running
            refine Classical.byContradiction fun hno => ?_
            have : sig s.runners = s.runners.length := by
              rw [sig, List.countP_eq_length]
              intro x hx
              rw [List.all_eq_true] at hall
              have hx' := hall x hx
              cases x
              · simp at hx'
              · rfl
              · exfalso
                obtain ⟨i, hi⟩ := List.getElem?_of_mem hx
                exact hno ⟨i, hi⟩
            omega
          · intro _; rfl
          · intro hw; have := h10 hw; rw [hh] at this; cases this
          · intro hw; have := h12 hw; rw [hh] at this; cases this
        · exact ⟨h1, h2, h3, h4, h5, h6, h7, h8, h9, h10, h11, h12⟩
    · rename_i hh
      refine ⟨h1, h2, h3, by simp, ?_, by simp, ?_, h8, h9, fun _ => rfl, h11, fun _ => rfl⟩
      · intro _; exact h5 (.inl hh)
      · intro hw; have := h7 hw; rw [hh] at this; cases this
    · exact ⟨h1, h2, h3, h4, h5, h6, h7, h8, h9, h10, h11, h12⟩
  | wait =>
    have base : Inv n s := ⟨h1, h2, h3, h4, h5, h6, h7, h8, h9, h10, h11, h12⟩
    simp only [St.step, St.waitPoll]
    cases hw : s.waitPanicked
    · have hx : s.rxAll ≠ some .used := fun e => by rw [h8 e] at hw; cases hw
      have hy : s.handle ≠ some .used := fun e => by rw [h9 e] at hw; cases hw
      simp only [Bool.false_eq_true, if_false]
      rcases hrx : s.rxAll with _ | _ | _
      · have hf := h10 hrx
        rcases hha : s.handle with _ | _ | _
        · dsimp only
          constructor <;> simp_all
        · simp only [hf]
          constructor <;> simp_all
        · exact absurd hha hy
      · rcases hs : s.handler with _ | _ | _ | _
        · exact base
        · exact base
        · dsimp only
          rcases hha : s.handle with _ | _ | _
          · dsimp only; constructor <;> simp_all
          · dsimp only; constructor <;> simp_all
          · exact absurd hha hy
        · dsimp only; constructor <;> simp_all
      · exact absurd hrx hx
    · exact base

theorem inv_run (n : Nat) (as : List Act) : ∀ s, Inv n s → Inv n (s.run as) := by
  induction as with
  | nil => intro s h; exact h
  | cons a as ih => intro s h; exact ih _ (inv_step n s h a)

/-- Nothing but a drop drops a runner. -/
theorem no_drop (as : List Act) (hd : ∀ i, Act.drop i ∉ as) : ∀ s : St, (∀ i : Nat, s.runners[i]? ≠ some .dropped) →
    ∀ i : Nat, (s.run as).runners[i]? ≠ some .dropped := by
  induction as with
  | nil => intro s h; exact h
  | cons a as ih =>
    intro s h
    refine ih (fun i hi => hd i (List.mem_cons_of_mem _ hi)) (s.step a) ?_
    cases a with
    | drop i => exact absurd (List.mem_cons_self) (hd i)
    | signal j =>
      have key : ∀ i : Nat, (s.runners.set j .signalled)[i]? ≠ some .dropped := by
        intro i
        rw [List.getElem?_set]
        split
        · split <;> simp
        · exact h i
      intro i
      simp only [St.step, St.signal]
      split
      · split
        · split
          · exact key i
          · exact h i
        · exact key i
      · exact h i
    | handle =>
      intro i
      have : (s.step .handle).runners = s.runners := by
        simp only [St.step, St.handleStep]
        split <;> (try split) <;> (try split) <;> rfl
      rw [this]; exact h i
    | wait =>
      intro i
      have : (s.step .wait).runners = s.runners := by
        simp only [St.step, St.waitPoll]
        split
        · rfl
        · split <;> (try split) <;> (try split) <;> (try split) <;> rfl
      rw [this]; exact h i

/-- What the counting task still has to do. -/
def todo (s : St) : Nat :=
  match s.handler with
  | .counting => s.chan + 1
  | .announcing => 1
  | _ => 0

/-- Polling `wait` changes neither the runners nor the counting. -/
theorem wait_keeps (t : St) : (t.step .wait).runners = t.runners ∧ (t.step .wait).handler = t.handler ∧
    (t.step .wait).chan = t.chan := by
  simp only [St.step, St.waitPoll]
  split
  · exact ⟨rfl, rfl, rfl⟩
  · split <;> (try split) <;> (try split) <;> (try split) <;> exact ⟨rfl, rfl, rfl⟩

theorem handle_keeps (t : St) : (t.step .handle).runners = t.runners := by
  simp only [St.step, St.handleStep]
  split <;> (try split) <;> (try split) <;> rfl

/-- When no runner is running, signals and drops do nothing. -/
theorem ended_step (t : St) (h : ∀ i : Nat, t.runners[i]? ≠ some .running) (i : Nat) :
    t.step (.signal i) = t ∧ t.step (.drop i) = t := by
  have h := h i
  refine ⟨?_, ?_⟩
  · simp only [St.step, St.signal]
  · simp only [St.step, St.drop]

/-- When no runner is running, every step of the counting task brings it nearer to its end. -/
theorem ended_progress (n : Nat) (t : St) (inv : Inv n t) (h : ∀ i : Nat, t.runners[i]? ≠ some .running) :
    todo (t.step .handle) ≤ todo t - 1 := by
  have hall : t.runners.all (· ≠ .running) = true := by
    rw [List.all_eq_true]
    intro x hx
    obtain ⟨i, hi⟩ := List.getElem?_of_mem hx
    have := h i
    rw [hi] at this
    simpa using this
  simp only [St.step, St.handleStep]
  cases hh : t.handler with
  | counting =>
    have hc := inv.counting hh
    by_cases h0 : t.chan > 0
    · by_cases h1 : t.count = 1
      · simp [todo, hh, h0, h1]; omega
      · simp [todo, hh, h0, h1]; omega
    · simp only [h0, if_false, hall, if_true]
      simp [todo, hh]
  | announcing => simp [todo, hh]
  | finished => simp [todo, hh]
  | panicked => simp [todo, hh]

/-- When no runner is running, the counting task comes to its end, whatever else happens. -/
theorem ended_run (n : Nat) (bs : List Act) : ∀ t : St, Inv n t → (∀ i : Nat, t.runners[i]? ≠ some .running) →
    (t.run bs).runners = t.runners ∧ todo (t.run bs) ≤ todo t - bs.count .handle := by
  induction bs with
  | nil => intro t _ _; exact ⟨rfl, by simp [St.run]⟩
  | cons b bs ih =>
    intro t inv h
    have next := ih (t.step b) (inv_step n t inv b)
    cases b with
    | signal i =>
      rw [(ended_step t h i).1] at next
      have := next h
      show (((t.step (.signal i)).run bs).runners = _ ∧ todo ((t.step (.signal i)).run bs) ≤ _)
      rw [(ended_step t h i).1]
      simpa using this
    | drop i =>
      rw [(ended_step t h i).2] at next
      have := next h
      show (((t.step (.drop i)).run bs).runners = _ ∧ todo ((t.step (.drop i)).run bs) ≤ _)
      rw [(ended_step t h i).2]
      simpa using this
    | handle =>
      have hk := handle_keeps t
      have hp := ended_progress n t inv h
      obtain ⟨h1, h2⟩ := next (by rw [hk]; exact h)
      refine ⟨h1.trans hk, ?_⟩
      show todo ((t.step .handle).run bs) ≤ _
      rw [List.count_cons_self]
      omega
    | wait =>
      obtain ⟨k1, k2, k3⟩ := wait_keeps t
      obtain ⟨h1, h2⟩ := next (by rw [k1]; exact h)
      refine ⟨h1.trans k1, ?_⟩
      show todo ((t.step .wait).run bs) ≤ _
      have : todo (t.step .wait) = todo t := by unfold todo; rw [k2, k3]
      rw [List.count_cons_of_ne (by simp)]
      omega

end Abq.Live
