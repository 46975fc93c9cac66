import Verif.Proof.FileLocksOpen

/-!
# Who may use the results files at the same time, and who waits for whom (C125)

The calls are those that use the results file of a run (a write, a read, a query of a client that is sent the results) and
those that offload it. `init.run acts` is the state after any history of calls; `St.after f n` is the state after the first
`n` steps of an endless history.
-/

namespace Abq.Props
open Abq.FileLocks Abq.Spec.FileLocks

/-- **C125.** At most one call uses the results file of a run at any time. -/
theorem C125_one_at_a_time (acts : List FileLocks.Act) (t u : Nat) (r : String) (ht : Uses (FileLocks.init.run acts) t r)
    (hu : Uses (FileLocks.init.run acts) u r) : t = u := by
  have h := inv_run inv_init acts
  have top : ∀ t, Uses (FileLocks.init.run acts) t r → ((FileLocks.init.run acts).mutex r).head? = some t := by
    rintro t (hk | hk)
    · exact h.top t r _ hk rfl
    · exact h.top t r _ hk rfl
  have := (top t ht).symm.trans (top u hu)
  cases this
  rfl

/-- Two calls with access to the cache, one of them for itself. -/
theorem same_if_exclusive {s : FileLocks.St} (h : FileLocks.Inv s) {t u : Nat} {k k' : FileLocks.Task} (hk : s.tasks[t]? = some k)
    (hk' : s.tasks[u]? = some k') (h1 : k.stage.holds = true) (h2 : k'.stage.holds = true)
    (hm : k.stage.mode = some true) : u = t :=
  Granted.alone h.cNodup (h.hold t k hk h1) ((h.cMem t true).mpr ⟨k, hk, hm⟩) (h.hold u k' hk' h2)

/-- **C125.** While a results file is opened for the first time, and while one is offloaded, no other call uses, opens or
offloads a results file of any run. -/
theorem C125_alone (acts : List FileLocks.Act) (t u : Nat) (r r' : String)
    (ht : Opens (FileLocks.init.run acts) t r ∨ Moves (FileLocks.init.run acts) t r)
    (hu : Opens (FileLocks.init.run acts) u r' ∨ Uses (FileLocks.init.run acts) u r') : u = t := by
  have h := inv_run inv_init acts
  rcases ht with hk | hk <;> rcases hu with hk' | hk' | hk' <;> exact same_if_exclusive h hk hk' rfl rfl rfl

/-- **C125.** If every call goes on whenever it can, every call returns. -/
theorem C125_served (f : Nat → FileLocks.Act) (hf : GoesOn f (fun _ => True)) (n t : Nat)
    (ht : t < (St.after f n).tasks.length) : ∃ m, n ≤ m ∧ Returned (St.after f m) t := by
  refine returns f ht ?_
  intro m hm hr
  have htm : t < (St.after f m).tasks.length := by
    have := length_after f n (m - n)
    rw [show n + (m - n) = m from by omega] at this
    omega
  obtain ⟨⟨r, st⟩, hk⟩ : ∃ k, (St.after f m).tasks[t]? = some k := ⟨_, List.getElem?_eq_getElem htm⟩
  have hi := inv_after f m
  obtain ⟨b, hb⟩ := blocked hi hk (fun e => hr ⟨r, by rw [hk, e]⟩)
  have hlt : b < (St.after f m).tasks.length := by
    rcases hb.1 with e | e
    · omega
    · exact ahead_lt hi e
  obtain ⟨m', hm', ok, e⟩ := hf m b hlt trivial
  exact ⟨b, m', hb, hm', ok, e⟩

/-- **C125.** If a call never goes on from some time on, while it uses a file, and another call needs all files for itself at
that time, then neither that call nor any call made afterwards, of any run, ever returns. -/
theorem C125_stall (f : Nat → FileLocks.Act) (n stalled u : Nat) (r : String) (hs : Uses (St.after f n) stalled r)
    (hstop : ∀ m, n ≤ m → ∀ ok, f m ≠ .go stalled ok) (hu : NeedsAll (St.after f n) u) (hne : u ≠ stalled) :
    (∀ m, n ≤ m → ¬ Returned (St.after f m) u) ∧
    ∀ t, (St.after f n).tasks.length ≤ t → ∀ m, ¬ Returned (St.after f m) t := by
  have hi := inv_after f n
  obtain ⟨ru, su, hku, hsu⟩ := hu
  obtain ⟨ks, hks, hhs⟩ : ∃ ks : FileLocks.Task, (St.after f n).tasks[stalled]? = some ks ∧ ks.stage.holds = true := by
    rcases hs with h | h
    · exact ⟨_, h, rfl⟩
    · exact ⟨_, h, rfl⟩
  have hmode : su.mode = some true := by
    simp at hsu
    rcases hsu with rfl | rfl | rfl | rfl | rfl <;> rfl
  have hnh : su.holds = false := by
    cases hh : su.holds with
    | false => rfl
    | true => exact absurd (same_if_exclusive hi hku hks hh hhs hmode).symm hne
  have hst : su = .slow ∨ su = .want := by
    simp at hsu
    rcases hsu with rfl | rfl | rfl | rfl | rfl <;> first | exact .inl rfl | exact .inr rfl | cases hnh
  have hw : Waiting su := by
    rcases hst with rfl | rfl <;> simp [Waiting]
  have hng : ¬ Granted (St.after f n).cache u := fun hg =>
    hne (Granted.alone hi.cNodup hg ((hi.cMem u true).mpr ⟨_, hku, hmode⟩) (hi.hold _ _ hks hhs)).symm
  have hlt : u < (St.after f n).tasks.length := (List.getElem?_eq_some_iff.mp hku).1
  have base : Frozen (St.after f n) stalled u (St.after f n).tasks.length ks ⟨ru, su⟩ :=
    ⟨hks, hku, by rw [ahead_waiting hku hw]; exact granted_before (hi.hold _ _ hks hhs) hng, fun t h1 h2 => by omega⟩
  have all : ∀ m, n ≤ m → Frozen (St.after f m) stalled u (St.after f n).tasks.length ks ⟨ru, su⟩ := by
    intro m hm
    induction hm with
    | refl => exact base
    | step hm ih => exact ih.step (inv_after f _) hst hlt (hstop _ hm)
  constructor
  · rintro m hm ⟨r', hr⟩
    rw [(all m hm).wait] at hr
    cases hr
    rcases hst with e | e <;> cases e
  · rintro t ht m ⟨r', hr⟩
    have htm := (List.getElem?_eq_some_iff.mp hr).1
    by_cases hnm : n ≤ m
    · obtain ⟨r1, st1, hk, hw1, _⟩ := (all m hnm).late t ht htm
      rw [hr] at hk
      cases hk
      rcases hw1 with e | e | e | e <;> cases e
    · have := length_after f m (n - m)
      rw [show m + (n - m) = n from by omega] at this
      omega

/-- A client of run `a` stops while it is sent the results; run `c` is new; then comes a result of run `b`, the file of which
is open already. -/
def stalledReport (k : Nat) : FileLocks.Act :=
  ([.use "b", .go 0 true, .go 0 true, .go 0 true, .go 0 true, .go 0 true, .go 0 true, .use "a", .go 1 true, .go 1 true,
    .go 1 true, .go 1 true, .go 1 true, .use "c", .go 2 true, .use "b"][k]?).getD
    (.go (([0, 2, 3][k % 3]?).getD 0) true)

theorem stalledReport_late (k : Nat) (h : 16 ≤ k) : stalledReport k = .go (([0, 2, 3][k % 3]?).getD 0) true := by
  unfold stalledReport
  rw [List.getElem?_eq_none (by simpa using h)]
  rfl

theorem stalledReport_calls (n : Nat) : (St.after stalledReport n).tasks.length ≤ 4 := by
  have h16 : (St.after stalledReport 16).tasks.length = 4 := by decide
  by_cases h : n ≤ 16
  · have := length_after stalledReport n (16 - n)
    rw [show n + (16 - n) = 16 from by omega] at this
    omega
  · have : ∀ d, (St.after stalledReport (16 + d)).tasks.length = 4 := by
      intro d
      induction d with
      | zero => exact h16
      | succ d ih =>
        show ((St.after stalledReport (16 + d)).step (stalledReport (16 + d))).tasks.length = 4
        rw [stalledReport_late _ (by omega)]
        exact (length_go _ _ _).trans ih
    have := this (n - 16)
    rw [show 16 + (n - 16) = n from by omega] at this
    omega

theorem stalledReport_goesOn : GoesOn stalledReport (· ≠ 1) := by
  intro n t ht hne
  have h4 := stalledReport_calls n
  have key : ∀ m, n ≤ m → 16 ≤ m → ([0, 2, 3][m % 3]?).getD 0 = t →
      ∃ m, n ≤ m ∧ ∃ ok, stalledReport m = .go t ok := by
    intro m hm h16 e
    refine ⟨m, hm, true, ?_⟩
    rw [stalledReport_late m h16, e]
  have hcase : t = 0 ∨ t = 2 ∨ t = 3 := by omega
  rcases hcase with rfl | rfl | rfl
  · exact key (3 * (n + 16)) (by omega) (by omega) (by rw [show 3 * (n + 16) % 3 = 0 from by omega]; rfl)
  · exact key (3 * (n + 16) + 1) (by omega) (by omega) (by rw [show (3 * (n + 16) + 1) % 3 = 1 from by omega]; rfl)
  · exact key (3 * (n + 16) + 2) (by omega) (by omega) (by rw [show (3 * (n + 16) + 2) % 3 = 2 from by omega]; rfl)

theorem stalledReport_stops (m : Nat) (hm : 15 ≤ m) (ok : Bool) : stalledReport m ≠ .go 1 ok := by
  by_cases h : m = 15
  · subst h
    intro e
    cases e
  · rw [stalledReport_late m (by omega)]
    intro e
    injection e with e _
    have : m % 3 = 0 ∨ m % 3 = 1 ∨ m % 3 = 2 := by omega
    rcases this with h | h | h <;> rw [h] at e <;> cases e

/-- **C125, what fails.** A client that does not read its results keeps the results of other runs from being written. -/
theorem C125_full_statement_fails : ¬ StalledHarmsOnlyItsRun := by
  intro h
  obtain ⟨m, _, hr⟩ := h stalledReport 16 1 "a" (.inl (by decide)) stalledReport_goesOn 3 "b" ⟨.first, by decide⟩ (by decide)
  exact (C125_stall stalledReport 15 1 2 "a" (.inl (by decide)) stalledReport_stops
    ⟨"c", .slow, by decide, by decide⟩ (by decide)).2 3 (by decide) m hr

/-- **C125.** Only the calls made before a run's file was used for the first time are to open it: a run that has recorded results
does not make others wait, except for its offload. -/
theorem C125_opened_once (acts acts' : List FileLocks.Act) (t u : Nat) (r : String) (ht : Uses (FileLocks.init.run acts) t r)
    (hu : (FileLocks.init.run acts).tasks.length ≤ u) : ¬ ToOpen (FileLocks.init.run (acts ++ acts')) u r := by
  have hrun : FileLocks.init.run (acts ++ acts') = (FileLocks.init.run acts).run acts' := by
    simp [St.run, List.foldl_append]
  rw [hrun]
  refine (settled_run acts' _ ⟨?_, fun v hv ho => ?_⟩).2 u hu
  · rcases ht with h | h <;> exact sound_run acts t r _ h rfl
  · have : (FileLocks.init.run acts).tasks[v]? = none := List.getElem?_eq_none hv
    rcases ho with ho | ho <;> rw [this] at ho <;> cases ho

/-- The first call for a run opens the file and uses it; a second one does not open it, though it was made before the first
returned. -/
example :
    let acts := FileLocks.Act.use "a" :: List.replicate 5 (.go 0 true)
    Uses (FileLocks.init.run acts) 0 "a" ∧
    (FileLocks.init.run (acts ++ [.use "a", .go 1 true])).tasks = [⟨"a", .busy⟩, ⟨"a", .queued⟩] := by
  exact ⟨.inl (by decide), by decide⟩

/-- **C125, partial.** A call that stops in the middle of its use of a file does not keep the calls for other runs from
returning as long as no call needs all files for itself. -/
theorem C125_independent_partial (f : Nat → FileLocks.Act) (n stalled : Nat) (r : String)
    (hs : Uses (St.after f n) stalled r) (hf : GoesOn f (· ≠ stalled))
    (hno : ∀ m, n ≤ m → ∀ u, ¬ NeedsAll (St.after f m) u) (t : Nat) (r' : String) (ht : ForRun (St.after f n) t r')
    (hr : r' ≠ r) : ∃ m, n ≤ m ∧ Returned (St.after f m) t := by
  have hlt : t < (St.after f n).tasks.length := by
    obtain ⟨st, hk⟩ := ht
    exact (List.getElem?_eq_some_iff.mp hk).1
  have hsr : ForRun (St.after f n) stalled r := by
    rcases hs with h | h
    · exact ⟨_, h⟩
    · exact ⟨_, h⟩
  refine returns f hlt ?_
  intro m hm hret
  have hi := inv_after f m
  obtain ⟨st, hk⟩ := forRun_after f hm ht
  obtain ⟨ss, hks⟩ := forRun_after f hm hsr
  have hne : st ≠ .gone := fun e => hret ⟨r', by rw [hk, e]⟩
  have htm : t < (St.after f m).tasks.length := (List.getElem?_eq_some_iff.mp hk).1
  have hts : t ≠ stalled := by
    rintro rfl
    rw [hk] at hks
    cases hks
    exact hr rfl
  have hreads : ∀ p ∈ (St.after f m).cache, p.2 = false := by
    intro p hp
    cases hp2 : p.2 with
    | false => rfl
    | true =>
      obtain ⟨k, hk', hm'⟩ := (hi.cMem p.1 p.2).mp hp
      rw [hp2] at hm'
      refine absurd ?_ (hno m hm p.1)
      refine ⟨k.run, k.stage, hk', ?_⟩
      cases hst : k.stage <;> rw [hst] at hm' <;> first | (simp; done) | cases hm'
  have hpick : ∀ b, Blocks (St.after f m) b t → b ≠ stalled →
      ∃ b m', Blocks (St.after f m) b t ∧ m ≤ m' ∧ ∃ ok, f m' = .go b ok := by
    intro b hb hbs
    have hblt : b < (St.after f m).tasks.length := by
      rcases hb.1 with e | e
      · omega
      · exact ahead_lt hi e
    obtain ⟨m', hm', ok, e⟩ := hf m b hblt hbs
    exact ⟨b, m', hb, hm', ok, e⟩
  by_cases hin : st.inMutex = true
  · obtain ⟨b, hb⟩ := blocked hi hk hne
    refine hpick b hb ?_
    rintro rfl
    rcases hb.1 with e | e
    · exact hts e.symm
    · have hmem : b ∈ (St.after f m).mutex r' := by
        unfold ahead at e
        rw [hk] at e
        cases st <;> first | exact (List.takeWhile_sublist _).subset e | cases e | cases hin
      obtain ⟨st', hk', _⟩ := (hi.mMem r' b).mp hmem
      rw [hks] at hk'
      cases hk'
      exact hr rfl
  · refine hpick t ⟨.inl rfl, r', st, hk, hne, fun hh => ?_, fun e => absurd e hin⟩ hts
    obtain ⟨w, hw⟩ : ∃ w, st.mode = some w := by
      cases st <;> first | exact ⟨_, rfl⟩ | exact absurd rfl hne
    have hmem : (t, w) ∈ (St.after f m).cache := (hi.cMem t w).mpr ⟨_, hk, hw⟩
    obtain ⟨pre, post, hq⟩ := List.append_of_mem hmem
    refine ⟨pre, w, post, hq, fun p hp => hreads p (by rw [hq]; simp [hp]), fun e => ?_⟩
    have := hreads _ hmem
    rw [e] at this
    cases this

/-! ## Cases -/

/-- `C125_one_at_a_time`: a call uses the file of `a` while another call for `a` waits, and one uses the file of `b`. -/
example : Uses (FileLocks.init.run ((List.range 15).map stalledReport ++ [.use "a", .go 2 true])) 1 "a" := by
  left; decide

/-- Two calls for two runs use their files at the same time. -/
def twoUsers : List FileLocks.Act :=
  [.use "a", .go 0 true, .go 0 true, .go 0 true, .use "b", .go 0 true, .go 1 true, .go 0 true, .go 1 true, .go 1 true,
    .go 1 true, .use "a", .go 2 true, .go 2 true]

example : Uses (FileLocks.init.run (twoUsers.take 8)) 0 "a" := by left; decide

/-- Only after the first has returned may the second open its file. -/
example : (FileLocks.init.run twoUsers).tasks = [⟨"a", .busy⟩, ⟨"b", .slow⟩, ⟨"a", .first⟩] := by decide

/-- `C125_alone`: a file is opened; a file is offloaded. -/
example : Opens (FileLocks.init.run [.use "a", .use "b", .go 0 true, .go 1 true, .go 0 true]) 0 "a" := by
  unfold Opens; decide

example : Moves (FileLocks.init.run ([.use "a"] ++ List.replicate 6 (.go 0 true) ++ [.offload "a", .use "a"] ++
    List.replicate 2 (.go 1 true) ++ [.go 2 true])) 1 "a" := by
  unfold Moves; decide

/-- `C125_served`: two calls for the same new run and an offload, in turns for ever. -/
def inTurns (k : Nat) : FileLocks.Act :=
  ([.use "a", .use "a", .offload "a"][k]?).getD (.go (k % 3) true)

example : (St.after inTurns 40).tasks = [⟨"a", .gone⟩, ⟨"a", .gone⟩, ⟨"a", .gone⟩] := by decide

example : GoesOn inTurns (fun _ => True) := by
  have hlate : ∀ k, 3 ≤ k → inTurns k = .go (k % 3) true := by
    intro k hk
    unfold inTurns
    rw [List.getElem?_eq_none (by simpa using hk)]
    rfl
  intro n t ht _
  have h3 : ∀ d, (St.after inTurns (3 + d)).tasks.length = 3 := by
    intro d
    induction d with
    | zero => decide
    | succ d ih =>
      show ((St.after inTurns (3 + d)).step (inTurns (3 + d))).tasks.length = 3
      rw [hlate _ (by omega)]
      exact (length_go _ _ _).trans ih
  have hlen := length_after inTurns n 3
  have := h3 n
  rw [show 3 + n = n + 3 from by omega] at this
  refine ⟨3 * (n + 3) + t, by omega, true, ?_⟩
  rw [hlate _ (by omega)]
  congr 1
  omega

/-- `C125_stall`: the history of `C125_full_statement_fails`. -/
example : NeedsAll (St.after stalledReport 15) 2 := ⟨"c", .slow, by decide, by decide⟩

/-- `C125_independent_partial`: a client of run `a` stops; from then on there are only results of run `b`, which is known. -/
def onlyKnown (k : Nat) : FileLocks.Act :=
  ([.use "b", .go 0 true, .go 0 true, .go 0 true, .go 0 true, .go 0 true, .go 0 true, .use "a", .go 1 true, .go 1 true,
    .go 1 true, .go 1 true, .go 1 true, .use "b"][k]?).getD (.go (if k % 2 = 0 then 0 else 2) true)

example : Uses (St.after onlyKnown 14) 1 "a" ∧ ForRun (St.after onlyKnown 14) 2 "b" ∧ Returned (St.after onlyKnown 20) 2 :=
  ⟨.inl (by decide), ⟨.first, by decide⟩, ⟨"b", by decide⟩⟩

example : ∀ m, 14 ≤ m → ∀ u, ¬ NeedsAll (St.after onlyKnown m) u := by
  have hend : ∀ d, (St.after onlyKnown (20 + d)).tasks = [⟨"b", .gone⟩, ⟨"a", .busy⟩, ⟨"b", .gone⟩] := by
    intro d
    induction d with
    | zero => decide
    | succ d ih =>
      show ((St.after onlyKnown (20 + d)).step (onlyKnown (20 + d))).tasks = _
      have hl : onlyKnown (20 + d) = .go (if (20 + d) % 2 = 0 then 0 else 2) true := by
        unfold onlyKnown
        rw [List.getElem?_eq_none (by simp; omega)]
        rfl
      rw [hl]
      split
      · show ((St.after onlyKnown (20 + d)).go 0 true).tasks = _
        unfold St.go
        rw [ih]
        exact ih
      · show ((St.after onlyKnown (20 + d)).go 2 true).tasks = _
        unfold St.go
        rw [ih]
        exact ih
  have none : ∀ s : FileLocks.St, (s.tasks.all fun k =>
      !decide (k.stage ∈ [FileLocks.Stage.slow, .opening, .want, .latched, .moving])) = true → ∀ u, ¬ NeedsAll s u := by
    rintro s h u ⟨r, st, hk, hst⟩
    have := List.all_eq_true.mp h _ (List.mem_of_getElem? hk)
    simp at this hst
    grind
  intro m hm
  by_cases h : 20 ≤ m
  · have := hend (m - 20)
    rw [show 20 + (m - 20) = m from by omega] at this
    exact none _ (by rw [this]; decide)
  · have hc : m = 14 ∨ m = 15 ∨ m = 16 ∨ m = 17 ∨ m = 18 ∨ m = 19 := by omega
    rcases hc with rfl | rfl | rfl | rfl | rfl | rfl <;> exact none _ (by decide)

end Abq.Props
