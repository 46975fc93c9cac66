import Verif.Proof.FetcherSys

/-!
# A runner gets every test of its sources, then its retries (C27, C59)

All theorems are about every script of the sources (`WellFormed`), every bound on attempts and every
interleaving of calls for tests with batches of results.
-/

namespace Abq.Props
open Abq.Retries Abq.Retries.Spec Abq.Fetch Abq.Fetch.Spec

/-- **C27.** The tests given are a beginning of what the sources supply, in order and each once, followed by
retries; retries come only after everything the sources supply. Nothing panics. -/
theorem C27_sources_in_order_then_retries (mx : Nat) (hmx : 1 ≤ mx) (sources : List (List Resp))
    (wf : WellFormed sources) (as : List Fetch.Act) :
    (run (init sources mx) as).panicked = false ∧
    ∃ firsts retries, (run (init sources mx) as).given = firsts ++ retries ∧
      firsts <+: supplied sources ∧ (retries ≠ [] → firsts = supplied sources) ∧
      ∀ w ∈ retries, 2 ≤ w.runNumber ∧ w.runNumber ≤ mx := by
  obtain ⟨h, f, r, i⟩ := inv_of_run hmx wf as
  exact ⟨i.fine, f, r, i.given, i.pre, i.later, i.numbers⟩

/-- **C27.** The end of work is signalled once, last, and after everything the sources supply. -/
theorem C27_end_of_work_is_last (mx : Nat) (hmx : 1 ≤ mx) (sources : List (List Resp))
    (wf : WellFormed sources) (as : List Fetch.Act) (b : Bundle)
    (hb : b ∈ (run (init sources mx) as).delivered) (he : b.eow = true) :
    (run (init sources mx) as).delivered.getLast? = some b ∧
    (∀ c ∈ (run (init sources mx) as).delivered.dropLast, c.eow = false) ∧
    supplied sources <+: (run (init sources mx) as).given := by
  obtain ⟨h, f, r, i⟩ := inv_of_run hmx wf as
  obtain ⟨-, h2, h3, h4, -⟩ := i.eows b hb he
  refine ⟨h4, ?_, ?_⟩
  · -- were there an earlier one, it would have been the last when it came
    clear i h h4 h3 h2 he hb b f r
    have key : ∀ (as : List Fetch.Act), ∀ c ∈ (run (init sources mx) as).delivered.dropLast,
        c.eow = false := by
      intro as
      have hstep : ∀ (s : Sys) (a : Fetch.Act), (∃ h f r, Inv mx sources s h f r) →
          (∀ c ∈ s.delivered.dropLast, c.eow = false) →
          ∀ c ∈ (step s a).delivered.dropLast, c.eow = false := by
        rintro s a ⟨h, f, r, i⟩ hd c hc
        have hlive : s.stopped = false → ∀ d ∈ s.delivered, d.eow = false := by
          intro hs d hdm
          cases hde : d.eow with
          | false => rfl
          | true => rw [(i.eows d hdm hde).1] at hs; cases hs
        cases a with
        | fetch =>
          simp only [step] at hc
          split at hc
          · exact hd c hc
          · rename_i hst
            simp only [Bool.or_eq_true, not_or, Bool.not_eq_true] at hst
            split at hc
            · simp only [List.dropLast_concat] at hc
              exact hlive hst.1 c hc
            · exact hd c hc
            · exact hd c hc
            · exact hd c hc
        | account rs =>
          simp only [step] at hc
          split at hc
          · split at hc
            · exact hd c hc
            · exact hd c hc
          · exact hd c hc
      have hall : ∀ (as : List Fetch.Act) (s : Sys), (∃ h f r, Inv mx sources s h f r) →
          (∀ c ∈ s.delivered.dropLast, c.eow = false) →
          ∀ c ∈ (run s as).delivered.dropLast, c.eow = false := by
        intro as
        induction as with
        | nil => intro s _ hd; exact hd
        | cons a as ih =>
          intro s hi hd
          refine ih (step s a) ?_ (hstep s a hi hd)
          obtain ⟨h, f, r, i⟩ := hi
          exact inv_run wf [a] i
      exact hall as _ ⟨_, _, _, inv_init mx hmx sources wf⟩ (by simp [init])
    exact key as
  · have := i.rest h2
    rw [h3] at this
    simp only [supplied, List.flatMap_nil, List.append_nil] at this
    rw [i.given]
    exact ⟨r, by rw [← this]; rfl⟩

/-- **C27.** The bundles without tests are exactly the end of work. -/
theorem C27_no_empty_bundle (mx : Nat) (hmx : 1 ≤ mx) (sources : List (List Resp))
    (wf : WellFormed sources) (as : List Fetch.Act) :
    ∀ b ∈ (run (init sources mx) as).delivered, (b.work = [] ↔ b.eow = true) := by
  obtain ⟨h, f, r, i⟩ := inv_of_run hmx wf as
  exact i.empties

/-- **C27.** A call for tests waits only for results: everything the sources supply was given, and there is
a test given of which no result was reported. -/
theorem C27_waits_only_for_results (mx : Nat) (hmx : 1 ≤ mx) (sources : List (List Resp))
    (wf : WellFormed sources) (as : List Fetch.Act)
    (hs : (run (init sources mx) as).stopped = false)
    (hw : (run (init sources mx) as).fetcher.fetch.2 = .waiting) :
    1 < mx ∧ supplied sources <+: (run (init sources mx) as).given ∧
    (run (init sources mx) as).log.length < (run (init sources mx) as).given.length := by
  obtain ⟨h, f, r, i⟩ := inv_of_run hmx wf as
  exact inv_waiting wf i hs hw

/-- **C59.** When the end of work is signalled, each test of the sources has been given for the last
attempt allowed, or an attempt without failures of it was reported. -/
theorem C59_attempts_until_success (mx : Nat) (hmx : 1 ≤ mx) (sources : List (List Resp))
    (wf : WellFormed sources) (as : List Fetch.Act) (b : Bundle)
    (hb : b ∈ (run (init sources mx) as).delivered) (he : b.eow = true) (w : WorkerTest)
    (hw : w ∈ supplied sources) :
    (∃ w' ∈ (run (init sources mx) as).given, w'.spec.workId = w.spec.workId ∧ w'.runNumber = mx) ∨
    ∃ j, (∃ r ∈ (run (init sources mx) as).log, r.workId = w.spec.workId ∧ r.runNumber = j) ∧
      failedOn (run (init sources mx) as).log w.spec.workId j = false := by
  obtain ⟨h, f, r, i⟩ := inv_of_run hmx wf as
  obtain ⟨-, h2, h3, -, h5⟩ := i.eows b hb he
  generalize hs : run (init sources mx) as = s at *
  have hfs : supplied sources = f := by
    have := i.rest h2
    rw [h3] at this
    simpa [supplied] using this
  have hman : w.spec ∈ h.manifest := by
    rw [← i.firsts, ← hfs]
    exact List.mem_map.mpr ⟨w, hw, rfl⟩
  have hrun1 := (wf.first w hw).1
  have hgw : w ∈ s.given := by rw [i.given, ← hfs]; simp [hw]
  -- an attempt that did not fail, given and reported
  have hfind : ∀ k, alwaysFailed h.log w.spec.workId k = false → k ≤ h.attempt →
      (k = h.attempt → h.todo = []) →
      ∃ j, (∃ r ∈ s.log, r.workId = w.spec.workId ∧ r.runNumber = j) ∧
        failedOn s.log w.spec.workId j = false := by
    intro k
    induction k with
    | zero => intro hk; simp [alwaysFailed] at hk
    | succ k ih =>
      intro hk hka htodo
      cases hprev : alwaysFailed h.log w.spec.workId k with
      | false => exact ih hprev (by omega) (by omega)
      | true =>
        have hlast : failedOn h.log w.spec.workId (k + 1) = false := by
          simp only [alwaysFailed, List.range_succ, List.all_append, Bool.and_eq_false_iff] at hk hprev
          rcases hk with hk | hk
          · rw [hprev] at hk; cases hk
          · simpa using hk
        have hgiven : (w.spec.workId, k + 1) ∈ s.given.map key := by
          cases k with
          | zero => exact List.mem_map.mpr ⟨w, hgw, by simp [key, hrun1]⟩
          | succ k =>
            rcases i.again w.spec hman (k + 2) (by omega) hka with h6 | h6
            · exact h6
            · simp only [Nat.add_succ_sub_one] at h6
              rw [hprev] at h6; cases h6
        rw [i.todo, List.mem_append] at hgiven
        rcases hgiven with hg | hg
        · obtain ⟨q, hq, hqk⟩ := List.mem_map.mp hg
          simp only [rkey, Prod.mk.injEq] at hqk
          exact ⟨k + 1, ⟨q, hq, hqk.1, hqk.2⟩, by rw [← i.log]; exact hlast⟩
        · simp only [List.mem_map, Prod.mk.injEq] at hg
          obtain ⟨x, hx, -, hxa⟩ := hg
          rw [htodo hxa.symm] at hx
          simp at hx
  rcases h5 with h5 | h5 | ⟨h5, h6⟩
  · rw [h5] at hman; simp at hman
  · by_cases hmx1 : mx = 1
    · exact .inl ⟨w, hgw, rfl, by rw [hrun1, hmx1]⟩
    · rcases i.again w.spec hman mx (by omega) (by omega) with h7 | h7
      · left
        obtain ⟨w', hw', hk⟩ := List.mem_map.mp h7
        simp only [key, Prod.mk.injEq] at hk
        exact ⟨w', hw', hk.1, hk.2⟩
      · exact .inr (hfind (mx - 1) h7 (by omega) (by omega))
  · right
    refine hfind h.attempt ?_ (Nat.le_refl _) (fun _ => h5)
    have := List.filter_eq_nil_iff.mp h6 w.spec hman
    simpa using this

/-! ## A worker with a retry manifest and a queue -/

def twoSources : List (List Resp) :=
  [[.bundle ⟨[⟨⟨1, 1, none⟩, 1⟩], true⟩],
   [.bundle ⟨[⟨⟨2, 2, none⟩, 1⟩, ⟨⟨3, 3, none⟩, 1⟩], false⟩, .bundle ⟨[], false⟩, .bundle ⟨[], true⟩]]

theorem twoSources_wellFormed : WellFormed twoSources where
  some := by decide
  ends := by simp [twoSources, Ends]
  once := by decide
  first := by decide

def twoSourcesRun : List Fetch.Act :=
  [.fetch, .fetch, .account [⟨1, 1, [⟨10, false⟩]⟩, ⟨2, 1, [⟨20, true⟩]⟩], .fetch,
    .account [⟨3, 1, [⟨30, true⟩]⟩], .fetch, .account [⟨2, 2, [⟨20, false⟩]⟩, ⟨3, 2, [⟨30, true⟩]⟩], .fetch]

example : (run (init twoSources 2) twoSourcesRun).delivered =
    [⟨[⟨⟨1, 1, none⟩, 1⟩], false⟩, ⟨[⟨⟨2, 2, none⟩, 1⟩, ⟨⟨3, 3, none⟩, 1⟩], false⟩,
     ⟨[⟨⟨2, 2, some [20]⟩, 2⟩, ⟨⟨3, 3, some [30]⟩, 2⟩], false⟩, ⟨[], true⟩] := by decide

/-- The third call of that run waits: a result is outstanding. -/
example : (run (init twoSources 2) (twoSourcesRun.take 3)).stopped = false ∧
    (run (init twoSources 2) (twoSourcesRun.take 3)).fetcher.fetch.2 = .waiting := by decide

end Abq.Props
