import Verif.Proof.EndToEnd

/-! # Tests are given again only after they failed (C59, C76) -/

namespace Abq.EndToEnd
open Abq.Retries Abq.Retries.Spec Abq.Fetch Abq.Fetch.Spec

/-- What was given for an attempt failed on all attempts before. -/
def OnlyAfterFailures (s : Fetch.Sys) : Prop :=
  ∀ w ∈ s.given, ∀ j, 1 ≤ j → j < w.runNumber → failedOn s.log w.spec.workId j = true

theorem failedOn_append {log : List Retries.Results} {id : WorkId} {j : Nat} (h : failedOn log id j = true)
    (rs : List Retries.Results) : failedOn (log ++ rs) id j = true := by
  simp only [failedOn, List.any_append, Bool.or_eq_true]
  exact .inl h

theorem only_step {mx : Nat} {src : List (List Fetch.Resp)} (wf : WellFormed src) {s : Fetch.Sys} {h : Hist}
    {f r : List Retries.WorkerTest} (i : Inv mx src s h f r) (ho : OnlyAfterFailures s) (a : Fetch.Act) :
    OnlyAfterFailures (Fetch.step s a) := by
  cases a with
  | account rs =>
    simp only [Fetch.step]
    split
    · split
      · exact fun w hw j h1 h2 => failedOn_append (ho w hw j h1 h2) rs
      · exact ho
    · exact ho
  | fetch =>
    simp only [Fetch.step]
    by_cases hst : (s.stopped || s.panicked) = true
    · rw [if_pos hst]; exact ho
    · rw [if_neg hst]
      simp only [Bool.or_eq_true, not_or, Bool.not_eq_true] at hst
      have hready := inv_ready wf i hst.1
      have hfine := fine_fetch s.fetcher.sources h s.fetcher.tracker hready
      unfold Fetcher.fetch
      generalize fetchFrom s.fetcher.sources s.fetcher.tracker = q at hfine
      obtain ⟨f', o⟩ := q
      obtain ⟨h', -, -, g⟩ := hfine
      dsimp only at g
      cases g with
      | first ws hne hs hh =>
        intro w hw j h1 h2
        have hw : w ∈ s.given ∨ w ∈ ws := by simpa [Fetch.Sys.given] using hw
        rcases hw with hw | hw
        · exact ho w hw j h1 h2
        · have := (hready.first w (by rw [hs]; simp [hw])).1
          omega
      | retry ws hne hs hl ht hr hh =>
        intro w hw j h1 h2
        have hw : w ∈ s.given ∨ w ∈ ws := by simpa [Fetch.Sys.given] using hw
        rcases hw with hw | hw
        · exact ho w hw j h1 h2
        · have hm : (w.spec.workId, w.runNumber) ∈ ws.map (fun w => (w.spec.workId, w.runNumber)) :=
            List.mem_map.mpr ⟨w, hw, rfl⟩
          rw [hr, List.mem_map] at hm
          obtain ⟨sp, hsp, e⟩ := hm
          obtain ⟨e1, e2⟩ := Prod.mk.inj e
          have hf : alwaysFailed h.log sp.workId h.attempt = true := (List.mem_filter.mp hsp).2
          simp only [alwaysFailed, List.all_eq_true, List.mem_range] at hf
          have := hf (j - 1) (by omega)
          rw [show j - 1 + 1 = j by omega, e1, i.log] at this
          exact this
      | done hs hl hh hw =>
        intro w hw j h1 h2
        have hw : w ∈ s.given := by simpa [Fetch.Sys.given] using hw
        exact ho w hw j h1 h2
      | wait => exact ho
      | error => exact ho

theorem only_after_failures {mx : Nat} (hmx : 1 ≤ mx) {src : List (List Fetch.Resp)} (wf : WellFormed src) (as : List Fetch.Act) :
    OnlyAfterFailures (Fetch.run (Fetch.init src mx) as) := by
  have go : ∀ (as : List Fetch.Act) (s : Fetch.Sys) (h : Hist) (f r : List Retries.WorkerTest), Inv mx src s h f r →
      OnlyAfterFailures s → OnlyAfterFailures (Fetch.run s as) := by
    intro as
    induction as with
    | nil => intro s h f r _ hn; exact hn
    | cons a as ih =>
      intro s h f r i hn
      have i' : ∃ h' f' r', Inv mx src (Fetch.step s a) h' f' r' := by
        cases a with
        | fetch => exact inv_fetch wf i
        | account rs => obtain ⟨h', i'⟩ := inv_account i rs; exact ⟨h', f, r, i'⟩
      obtain ⟨h', f', r', i'⟩ := i'
      exact ih _ _ _ _ i' (only_step wf i hn a)
  exact go as _ _ _ _ (inv_init mx hmx src wf) (by intro w hw; simp [Fetch.init, Sys.given] at hw)

/-! ## Attempts are given in their order -/

theorem given_le {mx : Nat} {src : List (List Fetch.Resp)} {s : Fetch.Sys} {h : Hist} {f r : List Retries.WorkerTest}
    (i : Inv mx src s h f r) : ∀ w ∈ s.given, w.runNumber ≤ h.attempt := by
  intro w hw
  have hk : Fetch.key w ∈ s.given.map Fetch.key := List.mem_map_of_mem hw
  rw [i.todo, List.mem_append] at hk
  rcases hk with hk | hk
  · obtain ⟨q, hq, e⟩ := List.mem_map.mp hk
    have := i.sim.logRun q (i.log ▸ hq)
    rw [show q.runNumber = w.runNumber from (Prod.mk.inj e).2] at this
    exact this
  · obtain ⟨id, -, e⟩ := List.mem_map.mp hk
    exact Nat.le_of_eq (Prod.mk.inj e).2.symm

theorem sorted_step {mx : Nat} {src : List (List Fetch.Resp)} (wf : WellFormed src) {s : Fetch.Sys} {h : Hist}
    {f r : List Retries.WorkerTest} (i : Inv mx src s h f r) (hs : s.given.Pairwise fun w w' => w.runNumber ≤ w'.runNumber)
    (a : Fetch.Act) : (Fetch.step s a).given.Pairwise fun w w' => w.runNumber ≤ w'.runNumber := by
  cases a with
  | account rs =>
    simp only [Fetch.step]
    repeat' split
    all_goals exact hs
  | fetch =>
    simp only [Fetch.step]
    by_cases hst : (s.stopped || s.panicked) = true
    · rw [if_pos hst]; exact hs
    · rw [if_neg hst]
      simp only [Bool.or_eq_true, not_or, Bool.not_eq_true] at hst
      have hready := inv_ready wf i hst.1
      obtain ⟨hlive1, -, -, -⟩ := i.live hst.1
      have hle := given_le i
      have hfine := fine_fetch s.fetcher.sources h s.fetcher.tracker hready
      have hlive : supplied s.fetcher.sources ≠ [] → h.attempt = 1 := by
        intro hne
        refine i.sim.first ?_
        rw [hlive1]
        cases hq : s.fetcher.sources with
        | nil => rw [hq] at hne; exact absurd rfl hne
        | cons _ _ => rfl
      unfold Fetcher.fetch
      generalize fetchFrom s.fetcher.sources s.fetcher.tracker = q at hfine
      obtain ⟨f', o⟩ := q
      obtain ⟨h', -, -, g⟩ := hfine
      dsimp only at g
      have grow : ∀ (b : Fetch.Sys) (ws : List Retries.WorkerTest) (k : Nat), b.given = s.given ++ ws →
          (∀ w ∈ ws, w.runNumber = k) → h.attempt ≤ k → b.given.Pairwise fun w w' => w.runNumber ≤ w'.runNumber := by
        intro b ws k hg hk hak
        rw [hg, List.pairwise_append]
        refine ⟨hs, ?_, ?_⟩
        · refine List.Pairwise.imp_of_mem (R := fun _ _ => True) ?_ (List.pairwise_of_forall fun _ _ => trivial)
          intro w w' hw hw' _
          rw [hk w hw, hk w' hw']
          exact Nat.le_refl _
        · intro w hw w' hw'
          rw [hk w' hw']
          exact Nat.le_trans (hle w hw) hak
      cases g with
      | first ws hne hs' hh =>
        refine grow _ ws 1 (by simp [Fetch.Sys.given]) ?_ ?_
        · intro w hw
          exact (hready.first w (by rw [hs']; simp [hw])).1
        · exact Nat.le_of_eq (hlive (by rw [hs']; simp [hne]))
      | retry ws hne hs' hl ht hr hh =>
        refine grow _ ws (h.attempt + 1) (by simp [Fetch.Sys.given]) ?_ (Nat.le_succ _)
        intro w hw
        have hm : (w.spec.workId, w.runNumber) ∈ ws.map (fun w => (w.spec.workId, w.runNumber)) := List.mem_map.mpr ⟨w, hw, rfl⟩
        rw [hr, List.mem_map] at hm
        obtain ⟨sp, -, e⟩ := hm
        exact (Prod.mk.inj e).2.symm
      | done hs' hl hh hw => exact grow _ [] h.attempt (by simp [Fetch.Sys.given]) (by simp) (Nat.le_refl _)
      | wait => exact hs
      | error => exact hs

theorem given_sorted {mx : Nat} (hmx : 1 ≤ mx) {src : List (List Fetch.Resp)} (wf : WellFormed src) (as : List Fetch.Act) :
    (Fetch.run (Fetch.init src mx) as).given.Pairwise fun w w' => w.runNumber ≤ w'.runNumber := by
  have go : ∀ (as : List Fetch.Act) (s : Fetch.Sys) (h : Hist) (f r : List Retries.WorkerTest), Inv mx src s h f r →
      (s.given.Pairwise fun w w' => w.runNumber ≤ w'.runNumber) →
      (Fetch.run s as).given.Pairwise fun w w' => w.runNumber ≤ w'.runNumber := by
    intro as
    induction as with
    | nil => intro s h f r _ hn; exact hn
    | cons a as ih =>
      intro s h f r i hn
      have i' : ∃ h' f' r', Inv mx src (Fetch.step s a) h' f' r' := by
        cases a with
        | fetch => exact inv_fetch wf i
        | account rs => obtain ⟨h', i'⟩ := inv_account i rs; exact ⟨h', f, r, i'⟩
      obtain ⟨h', f', r', i'⟩ := i'
      exact ih _ _ _ _ i' (sorted_step wf i hn a)
  exact go as _ _ _ _ (inv_init mx hmx src wf) (by simp [Fetch.init, Sys.given])

theorem sys_run (p : Pipe.Pipe) (as : List Pipe.Act) : ∃ bs, (Pipe.run p as).sys = Fetch.run p.sys bs := by
  induction as generalizing p with
  | nil => exact ⟨[], rfl⟩
  | cons a as ih =>
    obtain ⟨b1, h1⟩ := sys_step p a
    obtain ⟨b2, h2⟩ := ih (Pipe.step p a)
    exact ⟨b1 ++ b2, by rw [show Pipe.run p (a :: as) = Pipe.run (Pipe.step p a) as from rfl, h2, h1, fetch_run_append]⟩

end Abq.EndToEnd
