import Verif.Proof.FileLocks

/-! A file is opened only until somebody used it. -/

namespace Abq.FileLocks
open Abq.Spec.FileLocks

/-- Nothing forgets a descriptor. -/
theorem known_step (s : St) (a : Act) (r : String) (h : s.known r = true) : (s.step a).known r = true := by
  cases a with
  | use x => exact h
  | offload x => exact h
  | go t ok =>
    simp only [St.step, St.go]
    split
    · exact h
    all_goals first
      | exact h
      | (repeat' split) <;> first | exact h | (simp [St.goto, St.ask, St.release, St.learn, h]; done)

/-- The stages in which a call has the descriptor. -/
def Stage.has : Stage → Bool
  | .queued => true
  | .busy => true
  | .latched => true
  | .moving => true
  | _ => false

/-- Who has a descriptor has one that is known. -/
def Sound (s : St) : Prop := ∀ (t : Nat) (r : String) (st : Stage), s.tasks[t]? = some ⟨r, st⟩ → st.has = true → s.known r = true

theorem sound_goto {s s' : St} {t : Nat} {r : String} {st : Stage} (h : Sound s) (hk : ∀ r, s.known r = true → s'.known r = true)
    (ht : s'.tasks = s.tasks) (hst : st.has = true → s'.known r = true) : Sound (s'.goto t r st) := by
  intro u q sq hu hh
  simp only [St.goto] at hu ⊢
  rw [ht, List.getElem?_set] at hu
  by_cases hut : t = u
  · subst hut
    rw [if_pos rfl] at hu
    by_cases hl : t < s.tasks.length
    · rw [if_pos hl] at hu
      cases hu
      exact hst hh
    · rw [if_neg hl] at hu
      cases hu
  · rw [if_neg hut] at hu
    exact hk q (h u q sq hu hh)

theorem sound_step {s : St} (h : Sound s) (a : Act) : Sound (s.step a) := by
  cases a with
  | use x =>
    intro u q sq hu hh
    simp only [St.step, List.getElem?_append, St.ask] at hu ⊢
    split at hu
    · exact h u q sq hu hh
    · cases hn : u - s.tasks.length with
      | zero => rw [hn] at hu; cases hu; cases hh
      | succ n => rw [hn] at hu; cases hu
  | offload x =>
    intro u q sq hu hh
    simp only [St.step, List.getElem?_append, St.ask] at hu ⊢
    split at hu
    · exact h u q sq hu hh
    · cases hn : u - s.tasks.length with
      | zero => rw [hn] at hu; cases hu; cases hh
      | succ n => rw [hn] at hu; cases hu
  | go t ok =>
    simp only [St.step, St.go]
    split
    · exact h
    all_goals rename_i r hk
    · split
      · split
        · rename_i hkn
          exact sound_goto h (fun _ x => x) rfl (fun _ => hkn)
        · exact sound_goto (s' := (s.release t).ask t true) h (fun _ x => x) rfl (fun e => by cases e)
      · exact h
    · split
      · exact sound_goto h (fun _ x => x) rfl (fun e => by cases e)
      · exact h
    · split
      · exact sound_goto (s' := ((s.learn r).release t).ask t false) h
          (fun q x => by simp [St.learn, St.release, St.ask, x]) rfl (fun e => by cases e)
      · exact sound_goto (s' := s.release t) h (fun _ x => x) rfl (fun e => by cases e)
    · split
      · split
        · rename_i hkn
          exact sound_goto (s' := s.latch t r) h (fun _ x => x) rfl (fun _ => hkn)
        · exact sound_goto (s' := s.release t) h (fun _ x => x) rfl (fun e => by cases e)
      · exact h
    · split
      · exact sound_goto h (fun _ x => x) rfl (fun _ => h t r _ hk rfl)
      · exact h
    · exact sound_goto (s' := (s.unlatch t r).release t) h (fun _ x => x) rfl (fun e => by cases e)
    · split
      · split
        · rename_i hkn
          exact sound_goto (s' := s.latch t r) h (fun _ x => x) rfl (fun _ => hkn)
        · exact sound_goto (s' := s.release t) h (fun _ x => x) rfl (fun e => by cases e)
      · exact h
    · split
      · exact sound_goto h (fun _ x => x) rfl (fun _ => h t r _ hk rfl)
      · exact h
    · exact sound_goto (s' := (s.unlatch t r).release t) h (fun _ x => x) rfl (fun e => by cases e)
    · exact h

theorem sound_run (acts : List Act) : Sound (init.run acts) := by
  suffices h : ∀ (acts : List Act) (s : St), Sound s → Sound (s.run acts) from
    h acts init (fun t r st h => by simp [init] at h)
  intro acts
  induction acts with
  | nil => exact fun s h => h
  | cons a acts ih => exact fun s h => ih _ (sound_step h a)

/-- A run's file is known, and none of the calls from number `n` on is to open it. -/
def Settled (n : Nat) (r : String) (s : St) : Prop := s.known r = true ∧ ∀ u, n ≤ u → ¬ ToOpen s u r

theorem settled_goto {s s' : St} {n t : Nat} {r q : String} {st : Stage} (h : Settled n r s)
    (hk : s'.known r = true) (ht : s'.tasks = s.tasks)
    (hst : q = r → st = .slow ∨ st = .opening → ToOpen s t r) : Settled n r (s'.goto t q st) := by
  refine ⟨hk, fun u hu ho => ?_⟩
  unfold ToOpen at ho
  simp only [St.goto] at ho
  rw [ht, List.getElem?_set] at ho
  by_cases hut : t = u
  · subst hut
    rw [if_pos rfl] at ho
    by_cases hl : t < s.tasks.length
    · simp only [if_pos hl, Option.some.injEq, Task.mk.injEq] at ho
      have hq : q = r := by rcases ho with ho | ho <;> exact ho.1
      have hs : st = .slow ∨ st = .opening := by rcases ho with ho | ho <;> simp [ho.2]
      exact h.2 t hu (hst hq hs)
    · simp [if_neg hl] at ho
  · rw [if_neg hut] at ho
    exact h.2 u hu ho

theorem settled_step {n : Nat} {r : String} {s : St} (h : Settled n r s) (a : Act) : Settled n r (s.step a) := by
  have fresh : ∀ x, ∀ st : Stage, st ≠ .slow → st ≠ .opening → ∀ u, n ≤ u →
      ¬ ((s.tasks ++ [⟨x, st⟩])[u]? = some ⟨r, .slow⟩ ∨ (s.tasks ++ [⟨x, st⟩])[u]? = some ⟨r, .opening⟩) := by
    intro x st h1 h2 u hu ho
    rw [List.getElem?_append] at ho
    split at ho
    · exact h.2 u hu ho
    · cases hn : u - s.tasks.length with
      | zero =>
        rw [hn] at ho
        rcases ho with ho | ho <;> cases ho <;> contradiction
      | succ n => rw [hn] at ho; rcases ho with ho | ho <;> cases ho
  cases a with
  | use x => exact ⟨h.1, fresh x .first (by decide) (by decide)⟩
  | offload x => exact ⟨h.1, fresh x .want (by decide) (by decide)⟩
  | go t ok =>
    simp only [St.step, St.go]
    split
    · exact h
    all_goals rename_i q hk
    · split
      · split
        · exact settled_goto (s' := s.latch t q) h h.1 rfl (fun _ e => by rcases e with e | e <;> cases e)
        · rename_i hkn
          exact settled_goto (s' := (s.release t).ask t true) h h.1 rfl (fun e => absurd (e ▸ h.1) hkn)
      · exact h
    · split
      · exact settled_goto h h.1 rfl (fun e _ => .inl (e ▸ hk))
      · exact h
    · split
      · exact settled_goto (s' := ((s.learn q).release t).ask t false) h
          (by simp [St.learn, St.release, St.ask, h.1]) rfl (fun _ e => by rcases e with e | e <;> cases e)
      · exact settled_goto (s' := s.release t) h h.1 rfl (fun _ e => by rcases e with e | e <;> cases e)
    · split
      · split
        · exact settled_goto (s' := s.latch t q) h h.1 rfl (fun _ e => by rcases e with e | e <;> cases e)
        · exact settled_goto (s' := s.release t) h h.1 rfl (fun _ e => by rcases e with e | e <;> cases e)
      · exact h
    · split
      · exact settled_goto h h.1 rfl (fun _ e => by rcases e with e | e <;> cases e)
      · exact h
    · exact settled_goto (s' := (s.unlatch t q).release t) h h.1 rfl (fun _ e => by rcases e with e | e <;> cases e)
    · split
      · split
        · exact settled_goto (s' := s.latch t q) h h.1 rfl (fun _ e => by rcases e with e | e <;> cases e)
        · exact settled_goto (s' := s.release t) h h.1 rfl (fun _ e => by rcases e with e | e <;> cases e)
      · exact h
    · split
      · exact settled_goto h h.1 rfl (fun _ e => by rcases e with e | e <;> cases e)
      · exact h
    · exact settled_goto (s' := (s.unlatch t q).release t) h h.1 rfl (fun _ e => by rcases e with e | e <;> cases e)
    · exact h

theorem settled_run {n : Nat} {r : String} (acts : List Act) (s : St) (h : Settled n r s) : Settled n r (s.run acts) := by
  induction acts generalizing s with
  | nil => exact h
  | cons a acts ih => exact ih _ (settled_step h a)

end Abq.FileLocks
