import Verif.Spec.Workers
import Verif.Props.WorkerReport
import Verif.Props.Whole
/-!
# C146: a run's workers and its report agree on whether the suite passed
-/

namespace Abq.Props
open Abq.Whole
open Abq.Retries (TestSpec)
open Abq.Summary (resultsOf unresolved failedTest)
open Abq.WorkerReport (sentFrom sentBy)

theorem mem_unresolved {a later : List Summary.Result} {c : Summary.Result} (hc : c.material = false)
    (hl : ∀ r ∈ later, r.material = true → r.workId ≠ c.workId) : c ∈ unresolved (a ++ c :: later) := by
  induction a with
  | nil =>
    have : later.any (fun r' => r'.material && r'.workId == c.workId) = false := by
      rw [List.any_eq_false]
      intro r hr
      simp only [Bool.and_eq_true, beq_iff_eq, not_and]
      exact hl r hr
    simp [unresolved, hc, this]
  | cons x a ih =>
    rw [List.cons_append, unresolved]
    split
    · exact List.mem_cons_of_mem _ ih
    · exact ih

theorem unresolved_sub {h : List Summary.Result} : ∀ r ∈ unresolved h, r ∈ h ∧ r.material = false := by
  induction h with
  | nil => intro r hr; cases hr
  | cons x h ih =>
    intro r hr
    rw [unresolved] at hr
    split at hr
    · rename_i hx
      rcases List.mem_cons.1 hr with rfl | hr
      · exact ⟨List.mem_cons_self, by simpa using (Bool.and_eq_true_iff.1 hx).1⟩
      · exact ⟨List.mem_cons_of_mem _ (ih r hr).1, (ih r hr).2⟩
    · exact ⟨List.mem_cons_of_mem _ (ih r hr).1, (ih r hr).2⟩

/-- Attempts in the order in which they were made: no test is left as failed or crashed iff each passed in one of its attempts. -/
theorem all_passed_iff {h : List Summary.Result} {name : Nat → String}
    (order : h.Pairwise fun r r' => r.workId = r'.workId → r.runNumber < r'.runNumber)
    (pos : ∀ r ∈ h, 1 ≤ r.runNumber)
    (first : ∀ r ∈ h, ∃ r' ∈ h, r'.workId = r.workId ∧ r'.runNumber = 1)
    (named : ∀ r ∈ h, r.material = true → r.id = name r.workId)
    (inj : ∀ r ∈ h, ∀ r' ∈ h, name r.workId = name r'.workId → r.workId = r'.workId)
    (last : ∀ r ∈ h, r.status.isFailLike = false ∨ r.material = false → ∀ r' ∈ h, r'.workId = r.workId → r'.runNumber ≤ r.runNumber)
    (crash : ∀ r ∈ h, r.material = false → r.status.isFailLike = true) :
    (unresolved h = [] ∧ ∀ id, failedTest (resultsOf h id) = false) ↔
      ∀ r ∈ h, ∃ r' ∈ h, r'.workId = r.workId ∧ r'.status.isFailLike = false := by
  have asc : ∀ id, (resultsOf h id).Pairwise fun a b => a.runNumber < b.runNumber := by
    intro id
    refine (order.filter _).imp_of_mem ?_
    intro a b ha hb hab
    simp only [List.mem_filter, Bool.and_eq_true, beq_iff_eq] at ha hb
    exact hab (inj a ha.1 b hb.1 (by rw [← named a ha.1 ha.2.1, ← named b hb.1 hb.2.1, ha.2.2, hb.2.2]))
  have failed : ∀ id, failedTest (resultsOf h id) = true ↔
      (∃ r ∈ resultsOf h id, r.runNumber = 1) ∧ ∀ r ∈ resultsOf h id, r.status.isFailLike = true := fun id =>
    Summary.failed_ascending _ (asc id) fun r hr => pos r (List.mem_filter.1 hr).1
  have same : ∀ r ∈ h, ∀ r' ∈ h, r.workId = r'.workId → r.runNumber = r'.runNumber → r = r' := by
    intro r hr r' hr' hw hn
    clear pos first named inj last crash asc failed
    induction h with
    | nil => cases hr
    | cons x h ih =>
      rw [List.pairwise_cons] at order
      rcases List.mem_cons.1 hr with rfl | hr1 <;> rcases List.mem_cons.1 hr' with rfl | hr2
      · rfl
      · have := order.1 r' hr2 hw; omega
      · have := order.1 r hr1 hw.symm; omega
      · exact ih order.2 hr1 hr2
  constructor
  · rintro ⟨hu, hf⟩ r hr
    apply Classical.byContradiction
    intro hno
    have hall : ∀ r' ∈ h, r'.workId = r.workId → r'.status.isFailLike = true := by
      intro r' hr' hw
      cases hs : r'.status.isFailLike with
      | true => rfl
      | false => exact absurd ⟨r', hr', hw, hs⟩ hno
    by_cases hc : ∃ c ∈ h, c.workId = r.workId ∧ c.material = false
    · obtain ⟨c, hc, hw, hm⟩ := hc
      obtain ⟨a, later, e⟩ := List.append_of_mem hc
      have : c ∈ unresolved h := by
        rw [e] at order ⊢
        refine mem_unresolved hm fun x hx _ hxw => ?_
        have h1 := (List.pairwise_cons.1 (List.pairwise_append.1 order).2.1).1 x hx hxw.symm
        have h2 := last c hc (.inr hm) x (by rw [e]; simp [hx]) hxw
        omega
      rw [hu] at this
      cases this
    · have hmat : ∀ c ∈ h, c.workId = r.workId → c.material = true := by
        intro c hc' hw
        cases hm : c.material with
        | true => rfl
        | false => exact absurd ⟨c, hc', hw, hm⟩ hc
      obtain ⟨r1, hr1, hw1, hn1⟩ := first r hr
      have hid := named r1 hr1 (hmat r1 hr1 hw1)
      have := (failed (name r.workId)).2 ⟨⟨r1, List.mem_filter.2 ⟨hr1, by simp [hmat r1 hr1 hw1, hid, hw1]⟩, hn1⟩, ?_⟩
      · rw [hf] at this; cases this
      · intro x hx
        obtain ⟨hx, hp⟩ := List.mem_filter.1 hx
        simp only [Bool.and_eq_true, beq_iff_eq] at hp
        exact hall x hx (inj x hx r hr (by rw [← named x hx hp.1, hp.2]))
  · intro hall
    constructor
    · apply List.eq_nil_iff_forall_not_mem.2
      intro c hc
      obtain ⟨hc, hm⟩ := unresolved_sub c hc
      obtain ⟨p, hp, hw, hs⟩ := hall c hc
      have h1 := last c hc (.inr hm) p hp hw
      have h2 := last p hp (.inl hs) c hc hw.symm
      have e := same p hp c hc hw (by omega)
      subst e
      rw [crash p hp hm] at hs
      cases hs
    · intro id
      cases hf : failedTest (resultsOf h id) with
      | false => rfl
      | true =>
        obtain ⟨⟨r, hr, -⟩, hfail⟩ := (failed id).1 hf
        obtain ⟨hr, hp⟩ := List.mem_filter.1 hr
        simp only [Bool.and_eq_true, beq_iff_eq] at hp
        obtain ⟨p, hp', hw, hs⟩ := hall r hr
        have hm : p.material = true := by
          cases hm : p.material with
          | true => rfl
          | false => rw [crash p hp' hm] at hs; cases hs
        have := hfail p (List.mem_filter.2 ⟨hp', by
          simp only [Bool.and_eq_true, beq_iff_eq]
          exact ⟨hm, by rw [named p hp' hm, hw, ← named r hr hp.1, hp.2]⟩⟩)
        rw [hs] at this
        cases this

/-! ## What a worker's reporting task is sent -/

/-- What is sent, with the runner that sends it. -/
def taggedFrom (n : Nat) (quit : List Nat) : List WorkerReport.Act → List (Nat × Report.Group)
  | [] => []
  | .send r gs :: rest => (if 1 ≤ r ∧ r ≤ n ∧ r ∉ quit then gs.map fun g => (r, g) else []) ++ taggedFrom n quit rest
  | .quit r :: rest => taggedFrom n (r :: quit) rest
  | .task :: rest => taggedFrom n quit rest

theorem tagged_sent (n : Nat) (quit : List Nat) (acts : List WorkerReport.Act) :
    (taggedFrom n quit acts).map (·.2) = sentFrom n quit acts := by
  induction acts generalizing quit with
  | nil => rfl
  | cons a acts ih =>
    cases a with
    | send r gs =>
      rw [taggedFrom, sentFrom, List.map_append, ih]
      congr 1
      split
      · simp [Function.comp_def]
      · rfl
    | quit r => exact ih _
    | task => exact ih _

theorem tagged_only (n k : Nat) (quit : List Nat) (acts : List WorkerReport.Act) :
    ((taggedFrom n quit acts).filter fun p => p.1 == k).map (·.2) = sentFrom n quit (onlyFrom k acts) := by
  induction acts generalizing quit with
  | nil => rfl
  | cons a acts ih =>
    cases a with
    | send r gs =>
      rw [taggedFrom, List.filter_append, List.map_append, ih]
      by_cases hr : r = k
      · subst hr
        rw [show onlyFrom r (.send r gs :: acts) = .send r gs :: onlyFrom r acts by simp [onlyFrom], sentFrom]
        congr 1
        split
        · rw [List.filter_eq_self.2 (by simp)]; simp [Function.comp_def]
        · rfl
      · rw [show onlyFrom k (.send r gs :: acts) = onlyFrom k acts by simp [onlyFrom, hr]]
        have : (if 1 ≤ r ∧ r ≤ n ∧ r ∉ quit then gs.map fun g => (r, g) else []).filter (fun p => p.1 == k) = [] := by
          split
          · simp [List.filter_eq_nil_iff, hr]
          · rfl
        rw [this]
        rfl
    | quit r => exact ih _
    | task => exact ih _

theorem tagged_range (n : Nat) (quit : List Nat) (acts : List WorkerReport.Act) : ∀ p ∈ taggedFrom n quit acts, 1 ≤ p.1 ∧ p.1 ≤ n := by
  induction acts generalizing quit with
  | nil => intro p hp; cases hp
  | cons a acts ih =>
    cases a with
    | send r gs =>
      intro p hp
      rw [taggedFrom, List.mem_append] at hp
      rcases hp with hp | hp
      · split at hp
        · rename_i h
          obtain ⟨g, -, rfl⟩ := List.mem_map.1 hp
          exact ⟨h.1, h.2.1⟩
        · cases hp
      · exact ih _ p hp
    | quit r => exact ih _
    | task => exact ih _

theorem pairwise_by_tag {β : Type} {R : Nat × β → Nat × β → Prop} {l : List (Nat × β)}
    (h1 : ∀ k, (l.filter fun p => p.1 == k).Pairwise R) (h2 : ∀ a ∈ l, ∀ b ∈ l, a.1 ≠ b.1 → R a b) : l.Pairwise R := by
  induction l with
  | nil => exact .nil
  | cons x l ih =>
    refine List.pairwise_cons.2 ⟨?_, ih ?_ fun a ha b hb => h2 a (List.mem_cons_of_mem _ ha) b (List.mem_cons_of_mem _ hb)⟩
    · intro b hb
      by_cases e : x.1 = b.1
      · have := h1 x.1
        rw [List.filter_cons_of_pos (by simp)] at this
        exact (List.pairwise_cons.1 this).1 b (List.mem_filter.2 ⟨hb, by simp [e]⟩)
      · exact h2 x List.mem_cons_self b (List.mem_cons_of_mem _ hb) e
    · intro k
      have := h1 k
      rw [List.filter_cons] at this
      split at this
      · exact (List.pairwise_cons.1 this).2
      · exact this

/-- A runner reports the attempts at a test in the order in which they are made. -/
theorem runner_order {acts : List (RunsAct TestSpec)} {rid : RunId} {flat : List (TestSpec × Nat)} {mx : Nat}
    (hmx : 1 ≤ mx) {runners : List EndToEnd.Runner} (w : EndToEnd.WholeRun acts rid flat mx runners) {r : EndToEnd.Runner}
    (hr : r ∈ runners) :
    (r.reported mx rid ((Runs.init : Runs TestSpec).run acts).events).Pairwise fun x y => x.runNumber ≤ y.runNumber := by
  have wf := whole_wf w r hr
  have he := w.ended r hr
  have hpi : Pipe.PI mx [EndToEnd.script rid r.entity ((Runs.init : Runs TestSpec).run acts).events]
      (r.life mx rid ((Runs.init : Runs TestSpec).run acts).events).pipe := RunnerEnd.pi_life hmx wf r.batchSize r.schedule he.restarts
  have hfin := he.finished
  simp only [RunnerEnd.Life.finished, Bool.and_eq_true] at hfin
  have hkeys : (r.reported mx rid ((Runs.init : Runs TestSpec).run acts).events).map Pipe.keyOf =
      (r.life mx rid ((Runs.init : Runs TestSpec).run acts).events).pipe.sys.given.map Fetch.key := Pipe.finished_flow hpi hfin.1
  obtain ⟨bs, hbs⟩ := EndToEnd.sys_life_run
    (RunnerEnd.init [EndToEnd.script rid r.entity ((Runs.init : Runs TestSpec).run acts).events] mx r.batchSize) r.schedule
  have hbs : (r.life mx rid ((Runs.init : Runs TestSpec).run acts).events).pipe.sys =
    Fetch.run (Fetch.init [EndToEnd.script rid r.entity ((Runs.init : Runs TestSpec).run acts).events] mx) bs := hbs
  have hsort := EndToEnd.given_sorted hmx wf bs
  rw [← hbs] at hsort
  have h2 : ((r.reported mx rid ((Runs.init : Runs TestSpec).run acts).events).map Pipe.keyOf).Pairwise fun k k' => k.2 ≤ k'.2 := by
    rw [hkeys, List.pairwise_map]
    exact hsort
  rwa [List.pairwise_map] at h2

/-- A worker's reporting task counts no failure iff each test of its runners passed in one of its attempts. -/
theorem worker_passed {acts : List (RunsAct TestSpec)} {rid : RunId} {flat : List (TestSpec × Nat)} {mx : Nat} (hmx : 1 ≤ mx)
    {runners : List EndToEnd.Runner} {ds : EndToEnd.Runner → List (Delivery.Act Retries.Results)}
    {detail : Retries.Results → Report.Group} {name : Nat → String} (a : Arrived acts rid flat mx runners ds detail name)
    {w : Worker} (hsub : ∀ r ∈ w.runners, r ∈ runners) (hnd : w.runners.Nodup) (hs : w.Sent ds detail) :
    (unresolved (Report.history (sentBy w.runners.length w.schedule)) = [] ∧
      ∀ id, failedTest (resultsOf (Report.history (sentBy w.runners.length w.schedule)) id) = false) ↔
    ∀ x ∈ reported acts rid mx w.runners, ∃ y ∈ reported acts rid mx w.runners, y.workId = x.workId ∧ Passed y := by
  obtain ⟨-, c2, c3⟩ := C76_every_test_reported_once acts rid flat mx hmx runners a.whole
  have c2 : ((reported acts rid mx runners).map Pipe.keyOf).Nodup := c2
  have c3 : ∀ x ∈ reported acts rid mx runners, x.workId ∈ flat.map (·.1.workId) ∧ 1 ≤ x.runNumber ∧ x.runNumber ≤ mx := c3
  have up : ∀ x ∈ reported acts rid mx w.runners, x ∈ reported acts rid mx runners := by
    intro x hx
    obtain ⟨r, hr, hx⟩ := List.mem_flatMap.1 hx
    exact List.mem_flatMap.2 ⟨r, hsub r hr, hx⟩
  have told : ∀ i r, w.runners[i]? = some r → sentBy w.runners.length (onlyFrom (i + 1) w.schedule) =
      (r.reported mx rid ((Runs.init : Runs TestSpec).run acts).events).map detail := by
    intro i r hi
    have hr := hsub r (List.mem_of_getElem? hi)
    obtain ⟨d1, d2, -⟩ := C114_all_delivered r.batchSize (ds r) (a.ended r hr)
    rw [a.sent r hr] at d1
    rw [hs i r hi, ← d1, ← d2]
    rfl
  -- the groups, with the runner they are of
  have tag : ∀ p ∈ taggedFrom w.runners.length [] w.schedule, ∃ r, w.runners[p.1 - 1]? = some r ∧ 1 ≤ p.1 ∧
      ∃ x ∈ r.reported mx rid ((Runs.init : Runs TestSpec).run acts).events, p.2 = detail x := by
    intro p hp
    obtain ⟨h1, h2⟩ := tagged_range _ _ _ p hp
    have hi : p.1 - 1 < w.runners.length := by omega
    refine ⟨w.runners[p.1 - 1], List.getElem?_eq_getElem hi, h1, ?_⟩
    have h3 := told (p.1 - 1) _ (List.getElem?_eq_getElem hi)
    rw [show p.1 - 1 + 1 = p.1 by omega, sentBy, ← tagged_only] at h3
    have : p.2 ∈ ((taggedFrom w.runners.length [] w.schedule).filter fun q => q.1 == p.1).map (·.2) :=
      List.mem_map_of_mem (List.mem_filter.2 ⟨hp, by simp⟩)
    rw [h3] at this
    obtain ⟨x, hx, e⟩ := List.mem_map.1 this
    exact ⟨x, hx, e.symm⟩
  have gto : ∀ x ∈ reported acts rid mx w.runners, detail x ∈ sentBy w.runners.length w.schedule := by
    intro x hx
    obtain ⟨r, hr, hx⟩ := List.mem_flatMap.1 hx
    obtain ⟨i, hi⟩ := List.getElem?_of_mem hr
    have : detail x ∈ sentBy w.runners.length (onlyFrom (i + 1) w.schedule) := by
      rw [told i r hi]; exact List.mem_map_of_mem hx
    rw [sentBy, ← tagged_only] at this
    rw [sentBy, ← tagged_sent]
    obtain ⟨p, hp, e⟩ := List.mem_map.1 this
    exact List.mem_map.2 ⟨p, (List.mem_filter.1 hp).1, e⟩
  have gfrom : ∀ g ∈ sentBy w.runners.length w.schedule, ∃ x ∈ reported acts rid mx w.runners, g = detail x := by
    intro g hg
    rw [sentBy, ← tagged_sent] at hg
    obtain ⟨p, hp, rfl⟩ := List.mem_map.1 hg
    obtain ⟨r, hr, -, x, hx, e⟩ := tag p hp
    exact ⟨x, List.mem_flatMap.2 ⟨r, List.mem_of_getElem? hr, hx⟩, e⟩
  have gorder : (sentBy w.runners.length w.schedule).Pairwise fun g g' => g.workId = g'.workId → g.runNumber < g'.runNumber := by
    rw [sentBy, ← tagged_sent, List.pairwise_map]
    refine pairwise_by_tag ?_ ?_
    · intro k
      rw [← List.pairwise_map (f := fun p : Nat × Report.Group => p.2)
        (R := fun g g' : Report.Group => g.workId = g'.workId → g.runNumber < g'.runNumber), tagged_only]
      by_cases hk : 1 ≤ k ∧ k ≤ w.runners.length
      · have hi : k - 1 < w.runners.length := by omega
        have h3 := told (k - 1) _ (List.getElem?_eq_getElem hi)
        rw [show k - 1 + 1 = k by omega, sentBy] at h3
        rw [h3, List.pairwise_map]
        have hr : w.runners[k - 1] ∈ runners := hsub _ (List.getElem_mem hi)
        have hsubl : ((w.runners[k - 1].reported mx rid ((Runs.init : Runs TestSpec).run acts).events).map Pipe.keyOf).Nodup := by
          refine List.Nodup.sublist ?_ c2
          refine List.Sublist.map _ ?_
          obtain ⟨l1, l2, e⟩ := List.append_of_mem hr
          rw [reported, e, List.flatMap_append, List.flatMap_cons]
          exact (List.sublist_append_left _ _).trans (List.sublist_append_right _ _)
        rw [List.Nodup, List.pairwise_map] at hsubl
        refine ((runner_order hmx a.whole hr).and hsubl).imp_of_mem ?_
        rintro x y hx hy ⟨hle, hne⟩ hw
        obtain ⟨e1, e2⟩ := a.work x (List.mem_flatMap.2 ⟨_, hr, hx⟩)
        obtain ⟨e3, e4⟩ := a.work y (List.mem_flatMap.2 ⟨_, hr, hy⟩)
        rw [e1, e3] at hw
        rw [e2, e4]
        rcases Nat.lt_or_eq_of_le hle with h | h
        · exact h
        · exact absurd (by simp [Pipe.keyOf, hw, h]) hne
      · have : ((taggedFrom w.runners.length [] w.schedule).filter fun p => p.1 == k) = [] := by
          rw [List.filter_eq_nil_iff]
          intro p hp e
          have := tagged_range _ _ _ p hp
          simp at e
          omega
        rw [← tagged_only, this]
        exact .nil
    · intro p hp q hq hne hw
      exfalso
      obtain ⟨r, hr, h1, x, hx, e⟩ := tag p hp
      obtain ⟨r', hr', h1', x', hx', e'⟩ := tag q hq
      rw [e, e'] at hw
      have m := hsub r (List.mem_of_getElem? hr)
      have m' := hsub r' (List.mem_of_getElem? hr')
      rw [(a.work x (List.mem_flatMap.2 ⟨_, m, hx⟩)).1, (a.work x' (List.mem_flatMap.2 ⟨_, m', hx'⟩)).1] at hw
      have := C76_one_runner acts rid flat mx hmx runners a.whole r r' m m' x x' hx hx' hw
      subst this
      obtain ⟨l1, k1⟩ := List.getElem?_eq_some_iff.1 hr
      obtain ⟨l2, k2⟩ := List.getElem?_eq_some_iff.1 hr'
      have hne' := List.pairwise_iff_getElem.1 hnd
      rcases Nat.lt_or_gt_of_ne (show p.1 - 1 ≠ q.1 - 1 by omega) with hlt | hlt
      · exact hne' _ _ l1 l2 hlt (k1.trans k2.symm)
      · exact hne' _ _ l2 l1 hlt (k2.trans k1.symm)
  -- the results
  have same : ∀ x ∈ reported acts rid mx w.runners, ∀ t, (detail x).results = [t] →
      (Report.toResult (detail x) t).workId = x.workId ∧ (Report.toResult (detail x) t).runNumber = x.runNumber ∧
      (Passed x ↔ (Report.toResult (detail x) t).status.isFailLike = false) ∧
      (Crashed x ↔ (Report.toResult (detail x) t).material = false) := by
    intro x hx t ht
    have hx := up x hx
    refine ⟨(a.work x hx).1, (a.work x hx).2, ?_, ?_⟩
    · have ho := a.outcome x hx
      rw [ht] at ho
      have h1 : x.results.map (·.failed) = [t.status.isFailLike] := ho.symm
      show (∀ y ∈ x.results, y.failed = false) ↔ t.status.isFailLike = false
      constructor
      · intro hp
        have : t.status.isFailLike ∈ x.results.map (·.failed) := by rw [h1]; simp
        obtain ⟨y, hy, e⟩ := List.mem_map.mp this
        rw [← e, hp y hy]
      · intro hf y hy
        have : y.failed ∈ x.results.map (·.failed) := List.mem_map_of_mem hy
        rw [h1, List.mem_singleton] at this
        rw [this, hf]
    · show Crashed x ↔ decide (t.status ≠ .nativeRunnerError) = false
      rw [← a.crashes x hx t (by rw [ht]; simp)]
      simp
  have to : ∀ x ∈ reported acts rid mx w.runners, ∃ t, (detail x).results = [t] ∧
      Report.toResult (detail x) t ∈ Report.history (sentBy w.runners.length w.schedule) := by
    intro x hx
    obtain ⟨t, ht⟩ := single_result (a.single x (up x hx))
    refine ⟨t, ht, List.mem_flatMap.mpr ⟨detail x, gto x hx, ?_⟩⟩
    rw [ht]; simp
  have from' : ∀ r ∈ Report.history (sentBy w.runners.length w.schedule), ∃ x ∈ reported acts rid mx w.runners, ∃ t,
      (detail x).results = [t] ∧ r = Report.toResult (detail x) t := by
    intro r hr
    obtain ⟨g, hg, hr⟩ := List.mem_flatMap.mp hr
    obtain ⟨x, hx, rfl⟩ := gfrom g hg
    obtain ⟨t, ht⟩ := single_result (a.single x (up x hx))
    rw [ht] at hr
    exact ⟨x, hx, t, ht, by simpa using hr⟩
  rw [all_passed_iff (name := name)]
  · constructor
    · intro hall x hx
      obtain ⟨t, ht, hm⟩ := to x hx
      obtain ⟨r', hr', hw, hp⟩ := hall _ hm
      obtain ⟨y, hy, u, hu, rfl⟩ := from' r' hr'
      obtain ⟨e1, -, e3, -⟩ := same y hy u hu
      exact ⟨y, hy, by rw [← e1, hw, (same x hx t ht).1], e3.2 hp⟩
    · intro hall r hr
      obtain ⟨x, hx, t, ht, rfl⟩ := from' r hr
      obtain ⟨y, hy, hw, hp⟩ := hall x hx
      obtain ⟨u, hu, hm⟩ := to y hy
      obtain ⟨e1, -, e3, -⟩ := same y hy u hu
      exact ⟨_, hm, by rw [e1, hw, (same x hx t ht).1], e3.1 hp⟩
  · rw [Report.history, List.pairwise_flatMap]
    constructor
    · intro g hg
      obtain ⟨x, hx, rfl⟩ := gfrom g hg
      obtain ⟨t, ht⟩ := single_result (a.single x (up x hx))
      rw [ht]; simp
    · refine gorder.imp ?_
      intro g g' h r hr r' hr' hw
      obtain ⟨t, -, rfl⟩ := List.mem_map.1 hr
      obtain ⟨t', -, rfl⟩ := List.mem_map.1 hr'
      exact h hw
  · intro r hr
    obtain ⟨x, hx, t, ht, rfl⟩ := from' r hr
    rw [(same x hx t ht).2.1]
    exact (c3 x (up x hx)).2.1
  · intro r hr
    obtain ⟨x, hx, t, ht, rfl⟩ := from' r hr
    have hn := (c3 x (up x hx)).2.1
    obtain ⟨q, hq, hxq⟩ := List.mem_flatMap.1 hx
    have : ∃ y ∈ reported acts rid mx w.runners, y.workId = x.workId ∧ y.runNumber = 1 := by
      rcases Nat.lt_or_eq_of_le hn with hlt | heq
      · obtain ⟨y, hy, e1, e2, -⟩ := runner_earlier hmx a.whole (hsub q hq) hxq (Nat.le_refl 1) hlt
        exact ⟨y, List.mem_flatMap.2 ⟨q, hq, hy⟩, e1, e2⟩
      · exact ⟨x, hx, rfl, heq.symm⟩
    obtain ⟨y, hy, k1, k2⟩ := this
    obtain ⟨u, hu, hm⟩ := to y hy
    obtain ⟨e1, e2, -⟩ := same y hy u hu
    exact ⟨_, hm, by rw [e1, k1, (same x hx t ht).1], by rw [e2, k2]⟩
  · intro r hr hm
    obtain ⟨x, hx, t, ht, rfl⟩ := from' r hr
    have hnc : ¬ Crashed x := fun hc => by rw [(same x hx t ht).2.2.2.mp hc] at hm; cases hm
    have := a.named x (up x hx) hnc t (by rw [ht]; simp)
    rw [(same x hx t ht).1]
    exact this
  · intro r hr r' hr' e
    obtain ⟨x, hx, t, ht, rfl⟩ := from' r hr
    obtain ⟨y, hy, u, hu, rfl⟩ := from' r' hr'
    rw [(same x hx t ht).1, (same y hy u hu).1] at e ⊢
    obtain ⟨v, hv, ev⟩ := List.mem_map.1 (c3 x (up x hx)).1
    obtain ⟨v', hv', ev'⟩ := List.mem_map.1 (c3 y (up y hy)).1
    rw [← ev, ← ev'] at e ⊢
    exact a.distinct v hv v' hv' e
  · intro r hr hp r' hr' hw
    obtain ⟨x, hx, t, ht, rfl⟩ := from' r hr
    obtain ⟨x', hx', t', ht', rfl⟩ := from' r' hr'
    obtain ⟨e1, e2, e3, e4⟩ := same x hx t ht
    obtain ⟨k1, k2, -, -⟩ := same x' hx' t' ht'
    rw [k1, e1] at hw
    rw [k2, e2]
    rcases hp with hp | hp
    · rcases Nat.lt_or_ge x.runNumber x'.runNumber with hlt | hge
      · obtain ⟨y, hy, j1, j2, j3⟩ := C76_not_after_success acts rid flat mx hmx runners a.whole x' (up x' hx') x.runNumber
          (c3 x (up x hx)).2.1 hlt
        have : y = x := eq_of_nodup_map c2 hy (up x hx) (by simp [Pipe.keyOf, j1, j2, hw])
        subst this
        exact absurd (e3.mpr hp) j3
      · exact hge
    · exact C76_crash_is_last acts rid flat mx hmx runners a.whole a.ids x (up x hx) (e4.mpr hp) x' (up x' hx') hw
  · intro r _ hm
    have : r.status = .nativeRunnerError := by simpa [Summary.Result.material] using hm
    rw [this]; rfl

/-- **C146.** Let the runners of some workers (calls of `abq test`) run a suite to its end, and their results all come to the queue, which
records them, and to the worker's own reporting, which comes to its end. Then a report has exit code 0 iff no worker counts a
failure. So all workers exit with 0 iff the report does, and no pool of runners ended with an error or a positive exit code. -/
theorem C146_agree (acts : List (RunsAct TestSpec)) (rid : RunId) (flat : List (TestSpec × Nat)) (mx : Nat) (hmx : 1 ≤ mx)
    (runners : List EndToEnd.Runner) (ds : EndToEnd.Runner → List (Delivery.Act Retries.Results))
    (detail : Retries.Results → Report.Group) (name : Nat → String) (a : Arrived acts rid flat mx runners ds detail name)
    (workers : List Worker) (hw : runners.Perm (workers.flatMap (·.runners))) (hsent : ∀ w ∈ workers, w.Sent ds detail)
    (hend : ∀ w ∈ workers, w.Reported)
    (lines : List Report.Line) (hl : lines.Perm (toRecord flat runners ds detail))
    (sort : List Report.Group → List Report.Group) (hs : Report.IsSort sort) (rs : List Report.Reporter) (hf : ∀ r ∈ rs, r.Fine) :
    ∃ code, (Report.process sort rs lines).result = .ok code ∧
      ((∀ w ∈ workers, w.exitCode = some 0) ↔ code = 0 ∧ ∀ w ∈ workers, ∃ c, w.pool = .completed c ∧ c ≤ 0) := by
  obtain ⟨code, -, h1, -, -, h2⟩ := C115_exit_code acts rid flat mx hmx runners ds detail name a lines hl sort hs rs hf
  refine ⟨code, h1, ?_⟩
  have hnd : (workers.flatMap (·.runners)).Nodup := by
    rw [← hw.nodup_iff]
    exact List.Pairwise.of_map _ (fun _ _ hne e => hne (congrArg _ e)) a.whole.distinct
  have hnd' : ∀ w ∈ workers, w.runners.Nodup := by
    intro w hw'
    obtain ⟨l1, l2, e⟩ := List.append_of_mem hw'
    rw [e, List.flatMap_append, List.flatMap_cons] at hnd
    exact (List.nodup_append.1 (List.nodup_append.1 hnd).2.1).1
  have hsub : ∀ w ∈ workers, ∀ r ∈ w.runners, r ∈ runners := fun w hw' r hr => hw.mem_iff.2 (List.mem_flatMap.2 ⟨w, hw', hr⟩)
  have hone : ∀ w ∈ workers, (w.exitCode = some 0 ↔ (∃ c, w.pool = .completed c ∧ c ≤ 0) ∧
      ∀ x ∈ reported acts rid mx w.runners, ∃ y ∈ reported acts rid mx w.runners, y.workId = x.workId ∧ Passed y) := by
    intro w hw'
    rw [← worker_passed hmx a (hsub w hw') (hnd' w hw') (hsent w hw')]
    have := C81_exit_zero w.reporters w.runners.length w.schedule w.pool
    exact this.trans ⟨fun h => ⟨h.2.1, h.2.2⟩, fun h => ⟨hend w hw', h.1, h.2⟩⟩
  have hall : (∀ w ∈ workers, ∀ x ∈ reported acts rid mx w.runners, ∃ y ∈ reported acts rid mx w.runners,
      y.workId = x.workId ∧ Passed y) ↔ code = 0 := by
    obtain ⟨c1, -, c3⟩ := C76_every_test_reported_once acts rid flat mx hmx runners a.whole
    rw [h2]
    constructor
    · intro h t ht
      have hm : t.1.workId ∈ flat.map (·.1.workId) := List.mem_map_of_mem (f := fun t : TestSpec × Nat => t.1.workId) ht
      obtain ⟨x, hx, e⟩ := List.mem_map.1 (c1.mem_iff.2 hm)
      obtain ⟨r, hr, hx⟩ := List.mem_flatMap.1 (List.mem_filter.1 hx).1
      obtain ⟨w, hw', hr'⟩ := List.mem_flatMap.1 (hw.mem_iff.1 hr)
      obtain ⟨y, hy, e', hp⟩ := h w hw' x (List.mem_flatMap.2 ⟨r, hr', hx⟩)
      obtain ⟨r', hr'', hy⟩ := List.mem_flatMap.1 hy
      exact ⟨y, List.mem_flatMap.2 ⟨r', hsub w hw' r' hr'', hy⟩, e'.trans e, hp⟩
    · intro h w hw' x hx
      obtain ⟨r, hr, hx⟩ := List.mem_flatMap.1 hx
      have hxr : x ∈ reported acts rid mx runners := List.mem_flatMap.2 ⟨r, hsub w hw' r hr, hx⟩
      obtain ⟨t, ht, e⟩ := List.mem_map.1 (c3 x hxr).1
      obtain ⟨y, hy, e', hp⟩ := h t ht
      obtain ⟨r', hr', hy⟩ := List.mem_flatMap.1 hy
      have := C76_one_runner acts rid flat mx hmx runners a.whole r r' (hsub w hw' r hr) hr' x y hx hy (by rw [← e, e'])
      subst this
      exact ⟨y, List.mem_flatMap.2 ⟨r, hr, hy⟩, e'.trans e, hp⟩
  constructor
  · intro h
    exact ⟨hall.1 fun w hw' => ((hone w hw').1 (h w hw')).2, fun w hw' => ((hone w hw').1 (h w hw')).1⟩
  · rintro ⟨h0, hc⟩ w hw'
    exact (hone w hw').2 ⟨hc w hw', hall.2 h0 w hw'⟩

/-! ## A case -/

/-- One worker has both runners, which send their results one after the other. -/
def wholeWorker (second : WholeEnd) : Worker where
  runners := wholeRunners second
  reporters := [quiet]
  schedule :=
    [.send 1 ((e2eReported second 0).map wholeDetail), .task, .send 2 ((e2eReported second 1).map wholeDetail), .quit 2, .task, .quit 1, .task]
  pool := .completed 0
where
  e2eReported (second : WholeEnd) (i : Nat) : List Retries.Results :=
    match (wholeRunners second)[i]? with
    | some r => r.reported 2 "run" e2eEvents
    | none => []

set_option maxRecDepth 20000 in
theorem wholeWorker_sent (second : WholeEnd) : (wholeWorker second).Sent wholeSends wholeDetail := by
  intro i r hi
  have hi' : i < 2 := (List.getElem?_eq_some_iff.1 hi).1
  match i, hi' with
  | 0, _ =>
    have : (wholeRunners second)[0]? = some r := hi
    cases second <;> (cases this; decide)
  | 1, _ =>
    have : (wholeRunners second)[1]? = some r := hi
    cases second <;> (cases this; decide)

set_option maxRecDepth 20000 in
theorem wholeWorker_reported (second : WholeEnd) : (wholeWorker second).Reported := by
  cases second <;> exact ⟨_, _, rfl⟩

/-- The worker and the report agree. -/
example (second : WholeEnd) (sort : List Report.Group → List Report.Group) (hs : Report.IsSort sort) :
    ∃ code, (Report.process sort [quiet] (toRecord e2eTests (wholeRunners second) wholeSends wholeDetail)).result = .ok code ∧
      ((wholeWorker second).exitCode = some 0 ↔ code = 0) := by
  obtain ⟨code, h1, h2⟩ := C146_agree _ _ _ _ (by decide) _ _ _ _ (whole_arrived second) [wholeWorker second]
    (by simp [wholeWorker]) (by simpa using wholeWorker_sent second) (by simpa using wholeWorker_reported second) _
    (List.Perm.refl _) sort hs [quiet] whole_fine
  refine ⟨code, h1, ?_⟩
  simp only [List.mem_singleton, forall_eq] at h2
  exact h2.trans ⟨fun h => h.1, fun h => ⟨h, 0, rfl, by decide⟩⟩

set_option maxRecDepth 20000 in
/-- The codes themselves may differ if they are not 0: when the native runner crashed on another attempt at a test that had failed, the
worker exits with 101 and the report with 1. -/
theorem C146_codes_differ :
    (wholeWorker .crashes).exitCode = some 101 ∧ ∀ (sort : List Report.Group → List Report.Group), Report.IsSort sort →
      (Report.process sort [] (toRecord e2eTests (wholeRunners .crashes) wholeSends wholeDetail)).result = .ok 1 := by
  refine ⟨by decide, ?_⟩
  intro sort hs
  obtain ⟨code, h1, -, h2⟩ := C116_exit_code_partial _ _ _ _ (by decide) _ _ _ _ (whole_arrived .crashes) _
    (List.Perm.refl _) sort hs [] (by simp)
  rw [h1]
  refine congrArg Except.ok (h2.mpr ?_)
  rw [whole_reported]
  simp [e2eTests, Passed, wholeResult, Crashed]

end Abq.Props
