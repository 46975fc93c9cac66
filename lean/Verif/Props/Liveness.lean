import Verif.Proof.Liveness

/-!
# Pool completion is signalled exactly when all runners completed (C33)

All theorems are about every number of runners and every schedule: every order of signals, every interleaving with
the counting task, every time at which `wait` is polled, abandoned or started again.
-/

namespace Abq.Props
open Abq.Live

/-- **C33.** `wait` returns only after every runner has signalled, even if runners are dropped without a signal. -/
theorem C33_wait_only_after_all (n : Nat) (s : St) (hs : new n = some s) (as : List Abq.Live.Act)
    (h : (s.run as).returned = true) (i : Nat) (hi : i < n) : (s.run as).runners[i]? = some .signalled := by
  have inv := inv_run n as s (inv_new n s hs)
  have hd := inv.done (.inr (inv.ret h))
  have hl := inv.len
  have : ∃ x, (s.run as).runners[i]? = some x := ⟨_, List.getElem?_eq_getElem (by omega)⟩
  obtain ⟨x, hx⟩ := this
  rw [hx, sig_all _ (by omega) i x hx]

theorem todo_le (n : Nat) (t : St) (inv : Inv n t) : todo t ≤ n + 1 := by
  unfold todo
  split
  · rename_i hh
    have := inv.counting hh
    have := sig_le t.runners
    have := inv.len
    omega
  · omega
  · omega

/-- **C33.** Once every runner has signalled, `wait` returns: whatever happens next, when the counting task has made `n + 1`
more steps the next poll of `wait` returns. -/
theorem C33_wait_returns_after_all (n : Nat) (s : St) (hs : new n = some s) (as bs : List Abq.Live.Act)
    (h : ∀ i, i < n → (s.run as).runners[i]? = some .signalled) (hb : n + 1 ≤ bs.count .handle) :
    ((s.run (as ++ bs)).step .wait).returned = true := by
  have e : s.run (as ++ bs) = (s.run as).run bs := by simp [St.run, List.foldl_append]
  rw [e]
  have inv := inv_run n as s (inv_new n s hs)
  revert inv h
  generalize s.run as = u
  intro h inv
  have hall : ∀ (i : Nat) (x : RunnerSt), u.runners[i]? = some x → x = .signalled := by
    intro i x hi
    have hil : i < u.runners.length := by
      apply Decidable.byContradiction; intro hc
      rw [List.getElem?_eq_none (by omega)] at hi; cases hi
    have hl := inv.len
    rw [h i (by omega)] at hi
    cases hi; rfl
  obtain ⟨hr, ht⟩ := ended_run n bs u inv (fun i hi => by have := hall i _ hi; cases this)
  have h0 := todo_le n u inv
  replace ht : todo (u.run bs) = 0 := by omega
  have inv' := inv_run n bs u inv
  rw [← hr] at hall
  revert ht inv' hall
  generalize u.run bs = t
  intro hall ht inv
  have hf : t.handler = .finished := by
    cases hh : t.handler with
    | counting => unfold todo at ht; simp only [hh] at ht; omega
    | announcing => unfold todo at ht; simp only [hh] at ht; omega
    | finished => rfl
    | panicked =>
      obtain ⟨i, hi⟩ := inv.panic hh
      have := hall i _ hi
      cases this
  have hw : t.waitPanicked = false := by
    cases hw : t.waitPanicked
    · rfl
    · have := inv.quiet hw; rw [hf] at this; cases this
  have hx : t.rxAll ≠ some .used := fun e => by rw [inv.rxused e] at hw; cases hw
  have hy : t.handle ≠ some .used := fun e => by rw [inv.hused e] at hw; cases hw
  simp only [St.step, St.waitPoll, hw, Bool.false_eq_true, if_false]
  rcases hrx : t.rxAll with _ | _ | _
  · rcases hha : t.handle with _ | _ | _
    · rfl
    · simp [hf]
    · exact absurd hha hy
  · simp only [hf]
    rcases hha : t.handle with _ | _ | _
    · rfl
    · simp
    · exact absurd hha hy
  · exact absurd hrx hx

/-- **C33.** Polling `wait`, abandoning it and calling it again, also after it has returned, never panics as long
as no runner disappears without a signal. -/
theorem C33_wait_never_panics (n : Nat) (s : St) (hs : new n = some s) (as : List Abq.Live.Act)
    (hd : ∀ i, Act.drop i ∉ as) : (s.run as).waitPanicked = false := by
  have inv := inv_run n as s (inv_new n s hs)
  cases h : (s.run as).waitPanicked with
  | false => rfl
  | true =>
    obtain ⟨i, hi⟩ := inv.panic (inv.quiet h)
    refine absurd hi (no_drop as hd s ?_ i)
    intro j
    unfold new at hs
    split at hs
    · cases hs
    · cases hs
      intro hj
      have := List.mem_of_getElem? hj
      simp at this

/-- **C33.** The number of live runners read at any time is never less than the number that have not signalled;
in particular the pool is not reported dead while one is still running. -/
theorem C33_read (n : Nat) (s : St) (hs : new n = some s) (as : List Abq.Live.Act) :
    let t := s.run as
    t.handler ≠ .panicked → t.runners.countP (· ≠ .signalled) ≤ t.read ∧ t.read ≤ n ∧
      (t.workersAlive = false → ∀ i, i < n → t.runners[i]? = some .signalled) := by
  have inv := inv_run n as s (inv_new n s hs)
  revert inv
  generalize s.run as = t
  intro inv t' hp
  have hcount : t.runners.countP (· ≠ .signalled) + sig t.runners = n := by
    rw [← inv.len, List.length_eq_countP_add_countP (fun x => decide (x = RunnerSt.signalled)) (l := t.runners)]
    rw [sig, Nat.add_comm]
    congr 1
    apply List.countP_congr
    intro x _
    by_cases hx : x = .signalled <;> simp [hx]
  have hle : t.runners.countP (· ≠ .signalled) ≤ t.read ∧ t.read ≤ n := by
    show _ ≤ t.count ∧ t.count ≤ n
    cases hh : t.handler with
    | counting => have := inv.counting hh; omega
    | announcing => have := inv.done (.inl hh); omega
    | finished => have := inv.done (.inr hh); omega
    | panicked => exact absurd hh hp
  refine ⟨hle.1, hle.2, ?_⟩
  intro hal i hi
  have h0 : t.read = 0 := by simpa [St.workersAlive, t'] using hal
  have hl := inv.len
  have : ∃ x, t.runners[i]? = some x := ⟨_, List.getElem?_eq_getElem (by omega)⟩
  obtain ⟨x, hx⟩ := this
  show t.runners[i]? = _
  rw [hx, sig_all _ (by omega) i x hx]

/-- **C33.** When `wait` has returned, no runner is counted any more and the pool is reported dead, for good. -/
theorem C33_dead (n : Nat) (s : St) (hs : new n = some s) (as later : List Abq.Live.Act)
    (h : (s.run as).returned = true) :
    (s.run (as ++ later)).read = 0 ∧ (s.run (as ++ later)).workersAlive = false := by
  have still : ∀ (l : List Abq.Live.Act) (t : St), Inv n t → t.returned = true → (t.run l).returned = true := by
    intro l
    induction l with
    | nil => intro t _ h; exact h
    | cons a l ih =>
      intro t inv h
      refine ih (t.step a) (inv_run n [a] t inv) ?_
      cases a with
      | signal i => simp only [St.step, St.signal]; repeat' split
                    all_goals exact h
      | drop i => simp only [St.step, St.drop]; repeat' split
                  all_goals exact h
      | handle => simp only [St.step, St.handleStep]; repeat' split
                  all_goals exact h
      | wait => simp only [St.step, St.waitPoll]; repeat' split
                all_goals first | exact h | rfl
  have inv := inv_run n as s (inv_new n s hs)
  have e : s.run (as ++ later) = (s.run as).run later := by simp [St.run, List.foldl_append]
  have inv' := inv_run n later _ inv
  have r := still later _ inv h
  rw [e]
  have h0 : ((s.run as).run later).read = 0 := (inv'.done (.inr (inv'.ret r))).1
  exact ⟨h0, by simp only [St.workersAlive, h0]; rfl⟩

/-- **C33.** A runner never waits to signal: its signal is taken at once, whatever the others and the counting task do. -/
theorem C33_signal_never_waits (n : Nat) (s : St) (hs : new n = some s) (as : List Abq.Live.Act) (i : Nat)
    (h : (s.run as).runners[i]? = some .running) :
    ((s.run as).step (.signal i)).runners = (s.run as).runners.set i .signalled := by
  have inv := inv_run n as s (inv_new n s hs)
  have hlt := sig_running_lt _ i _ h (by simp)
  have hl := inv.len
  simp only [St.step, St.signal, h]
  cases hh : (s.run as).handler with
  | counting =>
    have hc := inv.counting hh
    have hcap := inv.cap
    simp only
    rw [if_pos (by omega)]
  | _ => rfl

/-- **C33.** If runners are lost without a signal, then once all have ended `wait` does not hang: whatever happens next, when the
counting task has made `n + 1` more steps the next poll of `wait` panics, if none did before. -/
theorem C33_lost_signal (n : Nat) (s : St) (hs : new n = some s) (as bs : List Abq.Live.Act)
    (hend : ∀ i : Nat, (s.run as).runners[i]? ≠ some .running) (hlost : ∃ i : Nat, (s.run as).runners[i]? = some .dropped)
    (hb : n + 1 ≤ bs.count .handle) :
    ((s.run (as ++ bs)).step .wait).waitPanicked = true := by
  have e : s.run (as ++ bs) = (s.run as).run bs := by simp [St.run, List.foldl_append]
  rw [e]
  have inv := inv_run n as s (inv_new n s hs)
  revert inv hend hlost
  generalize s.run as = u
  intro hend hlost inv
  obtain ⟨hr, ht⟩ := ended_run n bs u inv hend
  have h0 := todo_le n u inv
  replace ht : todo (u.run bs) = 0 := by omega
  have inv' := inv_run n bs u inv
  rw [← hr] at hlost
  revert ht inv' hlost
  generalize u.run bs = t
  intro hlost ht inv
  have hlt : sig t.runners < n := by
    obtain ⟨i, hi⟩ := hlost
    have := sig_running_lt _ i _ hi (by simp)
    have := inv.len
    omega
  have hp : t.handler = .panicked := by
    cases hh : t.handler with
    | counting => unfold todo at ht; simp only [hh] at ht; omega
    | announcing => unfold todo at ht; simp only [hh] at ht; omega
    | finished => have := inv.done (.inr hh); omega
    | panicked => rfl
  simp only [St.step, St.waitPoll]
  split
  · assumption
  · rename_i hw
    have hx : t.rxAll = some .open := by
      rcases hrx : t.rxAll with _ | _ | _
      · rw [inv.rxnone hrx] at hp; cases hp
      · rfl
      · exact absurd (inv.rxused hrx) hw
    simp only [hx, hp]

/-- Two runners, out of order, with `wait` polled and abandoned in between. -/
example : (new 2).map (fun s => ((s.run [.wait, .signal 1, .handle, .wait, .handle]).returned,
    (s.run [.wait, .signal 1, .handle, .wait, .signal 0, .wait, .handle, .wait, .handle, .wait, .wait]).returned)) =
    some (false, true) := by decide

example : (new 2).map (fun s => ((s.run [.signal 1, .handle]).read, (s.run [.signal 1, .handle]).workersAlive)) =
    some (1, true) := by decide

example : (new 2).map (fun s => let t := s.run [.signal 1, .handle, .signal 0, .handle, .handle, .wait]
    (t.returned, t.read, t.workersAlive)) = some (true, 0, false) := by decide

/-- One of two runners is lost: `wait` panics. -/
example : (new 2).map (fun s => (s.run [.drop 1, .signal 0, .wait, .handle, .handle, .wait]).waitPanicked) = some true := by decide

end Abq.Props
