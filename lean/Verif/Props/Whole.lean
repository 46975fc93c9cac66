import Verif.Spec.Whole
import Verif.Proof.Whole
import Verif.Props.Delivery
import Verif.Props.EndToEnd
import Verif.Props.Pipeline
import Verif.Proof.Attempts
import Verif.Proof.Crashes
import Verif.Proof.Green
import Verif.Props.Recorded

/-!
# C115: a run, from its manifest to the report

The queue and its runners (C76), the sending of results (C114), their recording and fetching (C98) and the report (C48) put
together.
-/

namespace Abq.Props
open Abq.Whole
open Abq.Retries (TestSpec)

/-- **C59.** What is given for an attempt failed in each attempt before. -/
theorem C59_not_after_success (mx : Nat) (hmx : 1 ≤ mx) (sources : List (List Fetch.Resp)) (wf : Fetch.Spec.WellFormed sources)
    (as : List Fetch.Act) (w : Retries.WorkerTest) (hw : w ∈ (Fetch.run (Fetch.init sources mx) as).given) (j : Nat) (h1 : 1 ≤ j)
    (h2 : j < w.runNumber) :
    ∃ x ∈ (Fetch.run (Fetch.init sources mx) as).log, x.workId = w.spec.workId ∧ x.runNumber = j ∧ ∃ y ∈ x.results, y.failed = true := by
  have := EndToEnd.only_after_failures hmx wf as w hw j h1 h2
  simp only [Retries.Spec.failedOn, List.any_eq_true, Bool.and_eq_true, beq_iff_eq] at this
  obtain ⟨x, hx, ⟨e1, e2⟩, y, hy, hf⟩ := this
  exact ⟨x, hx, e1, e2, y, hy, hf⟩

/-- **C45.** If the native runner fails on a test, the failures reported for that are the last attempts at their tests. -/
theorem C45_crash_is_last (mx : Nat) (hmx : 1 ≤ mx) (sources : List (List Fetch.Resp)) (wf : Fetch.Spec.WellFormed sources)
    (batchSize : Nat) (as bs : List Pipe.Act) (w : Retries.WorkerTest) :
    let p := Pipe.run (Pipe.init sources mx batchSize) as
    let q := Pipe.run p (.crash :: bs)
    p.runner = .running w → q.finished = true →
    ∃ failures, q.reported = p.reported ++ p.underway ++ failures ∧ w.spec.workId ∈ failures.map (·.workId) ∧
      ∀ x ∈ failures, ∀ y ∈ q.reported, y.runNumber ≤ x.runNumber := by
  intro p q hr hf
  obtain ⟨failures, rest, h1, h2, h3, h4⟩ := C45_failures_of_a_crash mx hmx sources wf batchSize as bs w hr hf
  refine ⟨failures, h1, ?_, ?_⟩
  · have : Pipe.keyOfTest w ∈ failures.map Pipe.keyOf := by rw [h2]; simp
    obtain ⟨x, hx, e⟩ := List.mem_map.mp this
    exact List.mem_map.mpr ⟨x, hx, (Prod.mk.inj e).1⟩
  · obtain ⟨cs, hcs⟩ := EndToEnd.sys_run (Pipe.init sources mx batchSize) (as ++ .crash :: bs)
    have hq : q.sys = Fetch.run (Fetch.init sources mx) cs := by
      have e : Pipe.run (Pipe.init sources mx batchSize) (as ++ .crash :: bs) = q := by rw [Pipe.run, List.foldl_append]; rfl
      rw [e] at hcs
      exact hcs
    have hsort : q.given.Pairwise fun w w' => w.runNumber ≤ w'.runNumber := by
      show q.sys.given.Pairwise _
      rw [hq]
      exact EndToEnd.given_sorted hmx wf cs
    have hend : q.reported.map Pipe.keyOf = q.given.map Pipe.keyOfTest := by
      have e := congrArg (List.map Pipe.keyOf) h1
      rw [List.map_append, h2, h3] at e
      exact e
    have hs2 : (q.reported.map Pipe.keyOf).Pairwise fun k k' => k.2 ≤ k'.2 := by
      rw [hend, List.pairwise_map]
      exact hsort
    rw [List.pairwise_map, h1, List.pairwise_append] at hs2
    intro x hx y hy
    rw [h1, List.mem_append] at hy
    rcases hy with hy | hy
    · exact hs2.2.2 y hy x hx
    · rw [(h4 x hx).1, (h4 y hy).1]
      exact Nat.le_refl _

/-- What a runner reports for an attempt it reports failures for in each attempt before. -/
theorem runner_earlier {acts : List (RunsAct TestSpec)} {rid : RunId} {flat : List (TestSpec × Nat)} {mx : Nat}
    (hmx : 1 ≤ mx) {runners : List EndToEnd.Runner} (w : EndToEnd.WholeRun acts rid flat mx runners) {r : EndToEnd.Runner}
    (hr : r ∈ runners) {x : Retries.Results} (hx : x ∈ r.reported mx rid ((Runs.init : Runs TestSpec).run acts).events) {j : Nat}
    (h1 : 1 ≤ j) (h2 : j < x.runNumber) :
    ∃ y ∈ r.reported mx rid ((Runs.init : Runs TestSpec).run acts).events, y.workId = x.workId ∧ y.runNumber = j ∧ ¬ Passed y := by
  have wf := whole_wf w r hr
  have he := w.ended r hr
  have hpi : Pipe.PI mx [EndToEnd.script rid r.entity ((Runs.init : Runs TestSpec).run acts).events]
      (r.life mx rid ((Runs.init : Runs TestSpec).run acts).events).pipe := RunnerEnd.pi_life hmx wf r.batchSize r.schedule he.restarts
  have hfin := he.finished
  simp only [RunnerEnd.Life.finished, Bool.and_eq_true] at hfin
  have hkeys : (r.reported mx rid ((Runs.init : Runs TestSpec).run acts).events).map Pipe.keyOf =
      (r.life mx rid ((Runs.init : Runs TestSpec).run acts).events).pipe.sys.given.map Fetch.key := Pipe.finished_flow hpi hfin.1
  have hlog : (r.life mx rid ((Runs.init : Runs TestSpec).run acts).events).pipe.sys.log =
      r.reported mx rid ((Runs.init : Runs TestSpec).run acts).events := hpi.log
  obtain ⟨bs, hbs⟩ := EndToEnd.sys_life_run
    (RunnerEnd.init [EndToEnd.script rid r.entity ((Runs.init : Runs TestSpec).run acts).events] mx r.batchSize) r.schedule
  have hbs : (r.life mx rid ((Runs.init : Runs TestSpec).run acts).events).pipe.sys =
    Fetch.run (Fetch.init [EndToEnd.script rid r.entity ((Runs.init : Runs TestSpec).run acts).events] mx) bs := hbs
  have hk : Pipe.keyOf x ∈ (r.life mx rid ((Runs.init : Runs TestSpec).run acts).events).pipe.sys.given.map Fetch.key :=
    hkeys ▸ List.mem_map_of_mem hx
  obtain ⟨v, hv, e⟩ := List.mem_map.mp hk
  obtain ⟨e1, e2⟩ := Prod.mk.inj e
  rw [hbs] at hv hlog
  obtain ⟨y, hy, k1, k2, z, hz, hf⟩ := C59_not_after_success mx hmx _ wf bs v hv j h1 (by rw [e2]; exact h2)
  rw [hlog] at hy
  refine ⟨y, hy, k1.trans e1, k2, ?_⟩
  intro hp
  rw [hp z hz] at hf
  cases hf

/-- **C76.** No attempt is made at a test after one that passed. -/
theorem C76_not_after_success (acts : List (RunsAct TestSpec)) (rid : RunId) (flat : List (TestSpec × Nat)) (mx : Nat)
    (hmx : 1 ≤ mx) (runners : List EndToEnd.Runner) (w : EndToEnd.WholeRun acts rid flat mx runners) (x : Retries.Results)
    (hx : x ∈ reported acts rid mx runners) (j : Nat) (h1 : 1 ≤ j) (h2 : j < x.runNumber) :
    ∃ y ∈ reported acts rid mx runners, y.workId = x.workId ∧ y.runNumber = j ∧ ¬ Passed y := by
  obtain ⟨r, hr, hx⟩ := List.mem_flatMap.mp hx
  obtain ⟨y, hy, h⟩ := runner_earlier hmx w hr hx h1 h2
  exact ⟨y, List.mem_flatMap.mpr ⟨r, hr, hy⟩, h⟩

/-- **C76.** All attempts at a test are made by one runner. -/
theorem C76_one_runner (acts : List (RunsAct TestSpec)) (rid : RunId) (flat : List (TestSpec × Nat)) (mx : Nat)
    (hmx : 1 ≤ mx) (runners : List EndToEnd.Runner) (w : EndToEnd.WholeRun acts rid flat mx runners) (r r' : EndToEnd.Runner)
    (hr : r ∈ runners) (hr' : r' ∈ runners) (x x' : Retries.Results)
    (hx : x ∈ r.reported mx rid ((Runs.init : Runs TestSpec).run acts).events)
    (hx' : x' ∈ r'.reported mx rid ((Runs.init : Runs TestSpec).run acts).events) (hw : x.workId = x'.workId) : r = r' := by
  obtain ⟨-, c2, c3⟩ := C76_every_test_reported_once acts rid flat mx hmx runners w
  have c2 : ((reported acts rid mx runners).map Pipe.keyOf).Nodup := c2
  have first : ∀ r ∈ runners, ∀ x ∈ r.reported mx rid ((Runs.init : Runs TestSpec).run acts).events,
      (x.workId, 1) ∈ (r.reported mx rid ((Runs.init : Runs TestSpec).run acts).events).map Pipe.keyOf := by
    intro r hr x hx
    have hn := (c3 x (List.mem_flatMap.mpr ⟨r, hr, hx⟩)).2.1
    rcases Nat.lt_or_eq_of_le hn with hlt | heq
    · obtain ⟨y, hy, e1, e2, -⟩ := runner_earlier hmx w hr hx (Nat.le_refl 1) hlt
      exact List.mem_map.mpr ⟨y, hy, by rw [← e1, ← e2]; rfl⟩
    · exact List.mem_map.mpr ⟨x, hx, by rw [heq]; rfl⟩
  have hm := first r hr x hx
  have hm' := first r' hr' x' hx'
  rw [← hw] at hm'
  apply Classical.byContradiction
  intro hne
  have hd : ∀ rs : List EndToEnd.Runner, r ∈ rs → r' ∈ rs → ((reported acts rid mx rs).map Pipe.keyOf).Nodup → False := by
    intro rs
    induction rs with
    | nil => intro h; cases h
    | cons q rs ih =>
      intro h h' hnd
      rw [show reported acts rid mx (q :: rs) = q.reported mx rid ((Runs.init : Runs TestSpec).run acts).events ++
        reported acts rid mx rs from rfl, List.map_append, List.nodup_append] at hnd
      have inRest : ∀ p ∈ rs, ∀ k ∈ (p.reported mx rid ((Runs.init : Runs TestSpec).run acts).events).map Pipe.keyOf,
          k ∈ (reported acts rid mx rs).map Pipe.keyOf := by
        intro p hp k hk
        obtain ⟨y, hy, rfl⟩ := List.mem_map.mp hk
        exact List.mem_map_of_mem (List.mem_flatMap.mpr ⟨p, hp, hy⟩)
      rcases List.mem_cons.mp h with e | h
      · rcases List.mem_cons.mp h' with e' | h'
        · exact hne (e.trans e'.symm)
        · exact hnd.2.2 _ (e ▸ hm) _ (inRest r' h' _ hm') rfl
      · rcases List.mem_cons.mp h' with e' | h'
        · exact hnd.2.2 _ (e' ▸ hm') _ (inRest r h _ hm) rfl
        · exact ih h h' hnd.2.1
  exact hd runners hr hr' c2

/-- **C76.** If the native runner crashed on an attempt at a test, then that is the last attempt at the test. -/
theorem C76_crash_is_last (acts : List (RunsAct TestSpec)) (rid : RunId) (flat : List (TestSpec × Nat)) (mx : Nat)
    (hmx : 1 ≤ mx) (runners : List EndToEnd.Runner) (w : EndToEnd.WholeRun acts rid flat mx runners)
    (ids : ∀ r ∈ runners, ∀ rs, .pipe (.result rs) ∈ r.schedule → ∀ y ∈ rs, y.id ≠ 0) (x : Retries.Results)
    (hx : x ∈ reported acts rid mx runners) (hc : Crashed x) :
    ∀ y ∈ reported acts rid mx runners, y.workId = x.workId → y.runNumber ≤ x.runNumber := by
  obtain ⟨r, hr, hx⟩ := List.mem_flatMap.mp hx
  intro y hy hyw
  obtain ⟨r', hr', hy⟩ := List.mem_flatMap.mp hy
  have e := C76_one_runner acts rid flat mx hmx runners w r r' hr hr' x y hx hy hyw.symm
  subst e
  have he := w.ended r hr
  exact RunnerEnd.placeholder_last hmx (whole_wf w r hr) r.batchSize r.schedule (ids r hr) he.restarts he.finished x hx hc y hy

theorem received_toRecord {acts : List (RunsAct TestSpec)} {rid : RunId} {flat : List (TestSpec × Nat)} {mx : Nat}
    {runners : List EndToEnd.Runner} {ds : EndToEnd.Runner → List (Delivery.Act Retries.Results)}
    {detail : Retries.Results → Report.Group} {name : Nat → String} (a : Arrived acts rid flat mx runners ds detail name) :
    Report.received (toRecord flat runners ds detail) = (reported acts rid mx runners).map detail ∧
    Report.summaries (toRecord flat runners ds detail) = [flat.length] := by
  have hb : ∀ bs : List (List Retries.Results), Report.received (bs.map fun b => .results (b.map detail)) = bs.flatten.map detail ∧
      Report.summaries (bs.map fun b => .results (b.map detail)) = [] := by
    intro bs
    induction bs with
    | nil => exact ⟨rfl, rfl⟩
    | cons b bs ih =>
      constructor
      · rw [List.flatten_cons, List.map_append, ← ih.1]; rfl
      · exact ih.2
  have hg : ∀ rs : List EndToEnd.Runner, (∀ r ∈ rs, r ∈ runners) →
      Report.received (rs.flatMap fun r => (sender ds r).received.map fun batch => .results (batch.map detail)) =
        (reported acts rid mx rs).map detail ∧
      Report.summaries (rs.flatMap fun r => (sender ds r).received.map fun batch => .results (batch.map detail)) = [] := by
    intro rs
    induction rs with
    | nil => exact fun _ => ⟨rfl, rfl⟩
    | cons r rs ih =>
      intro hin
      obtain ⟨i1, i2⟩ := ih fun x hx => hin x (List.mem_cons_of_mem _ hx)
      have hr := hin r List.mem_cons_self
      obtain ⟨d1, -, -⟩ := C114_all_delivered r.batchSize (ds r) (a.ended r hr)
      rw [a.sent r hr] at d1
      constructor
      · rw [List.flatMap_cons, Report.received, List.flatMap_append]
        change Report.received _ ++ Report.received _ = _
        rw [(hb _).1, i1, show reported acts rid mx (r :: rs) = r.reported mx rid ((Runs.init : Runs TestSpec).run acts).events ++
          reported acts rid mx rs from rfl, List.map_append]
        exact congrArg (fun l => l.map detail ++ _) d1
      · rw [List.flatMap_cons, Report.summaries, List.filterMap_append]
        change Report.summaries _ ++ Report.summaries _ = _
        rw [(hb _).2, i2]
        rfl
  obtain ⟨g1, g2⟩ := hg runners fun _ h => h
  exact ⟨g1, congrArg (flat.length :: ·) g2⟩

theorem single_result {g : Report.Group} (h : g.results.length = 1) : ∃ t, g.results = [t] := by
  match hg : g.results, h with
  | [t], _ => exact ⟨t, rfl⟩

/-- The results in the order of the report, and the attempts they are of. -/
theorem report_attempts {acts : List (RunsAct TestSpec)} {rid : RunId} {flat : List (TestSpec × Nat)} {mx : Nat} (hmx : 1 ≤ mx)
    {runners : List EndToEnd.Runner} {ds : EndToEnd.Runner → List (Delivery.Act Retries.Results)}
    {detail : Retries.Results → Report.Group} {name : Nat → String} (a : Arrived acts rid flat mx runners ds detail name)
    (gs : List Report.Group) (hperm : gs.Perm ((reported acts rid mx runners).map detail))
    (hs : gs.Pairwise fun g g' => Report.cmp g g' ≠ .gt) :
    (∀ x ∈ reported acts rid mx runners, ∃ r ∈ Report.history gs, r.workId = x.workId ∧ r.runNumber = x.runNumber ∧
      (Passed x ↔ r.status.isFailLike = false) ∧ (Crashed x ↔ r.material = false)) ∧
    (∀ r ∈ Report.history gs, ∃ x ∈ reported acts rid mx runners, r.workId = x.workId ∧ r.runNumber = x.runNumber ∧
      (Passed x ↔ r.status.isFailLike = false) ∧ (Crashed x ↔ r.material = false)) ∧
    Attempted (flat.map (·.1.workId)) name (Report.history gs) := by
  obtain ⟨c1, c2, c3⟩ := C76_every_test_reported_once acts rid flat mx hmx runners a.whole
  have c1 : (((reported acts rid mx runners).filter (·.runNumber == 1)).map (·.workId)).Perm (flat.map (·.1.workId)) := c1
  have c2 : ((reported acts rid mx runners).map Pipe.keyOf).Nodup := c2
  have c3 : ∀ x ∈ reported acts rid mx runners, x.workId ∈ flat.map (·.1.workId) ∧ 1 ≤ x.runNumber ∧ x.runNumber ≤ mx := c3
  have same : ∀ x ∈ reported acts rid mx runners, ∀ t, (detail x).results = [t] →
      (Report.toResult (detail x) t).workId = x.workId ∧ (Report.toResult (detail x) t).runNumber = x.runNumber ∧
      (Passed x ↔ (Report.toResult (detail x) t).status.isFailLike = false) ∧
      (Crashed x ↔ (Report.toResult (detail x) t).material = false) := by
    intro x hx t ht
    refine ⟨(a.work x hx).1, (a.work x hx).2, ?_, ?_⟩
    · have ho := a.outcome x hx
      rw [ht] at ho
      have h1 : x.results.map (·.failed) = [t.status.isFailLike] := ho.symm
      show (∀ y ∈ x.results, y.failed = false) ↔ t.status.isFailLike = false
      constructor
      · intro hp
        have : t.status.isFailLike ∈ x.results.map (·.failed) := by rw [h1]; simp
        obtain ⟨y, hy, e⟩ := List.mem_map.mp this
        rw [← e, hp y hy]
      · intro hf y hy
        have : y.failed ∈ x.results.map (·.failed) := List.mem_map_of_mem hy
        rw [h1, List.mem_singleton] at this
        rw [this, hf]
    · show Crashed x ↔ decide (t.status ≠ .nativeRunnerError) = false
      rw [← a.crashes x hx t (by rw [ht]; simp)]
      simp
  have to : ∀ x ∈ reported acts rid mx runners, ∃ t, (detail x).results = [t] ∧ Report.toResult (detail x) t ∈ Report.history gs := by
    intro x hx
    obtain ⟨t, ht⟩ := single_result (a.single x hx)
    refine ⟨t, ht, List.mem_flatMap.mpr ⟨detail x, hperm.mem_iff.mpr (List.mem_map_of_mem hx), ?_⟩⟩
    rw [ht]; simp
  have from' : ∀ r ∈ Report.history gs, ∃ x ∈ reported acts rid mx runners, ∃ t, (detail x).results = [t] ∧
      r = Report.toResult (detail x) t := by
    intro r hr
    obtain ⟨g, hg, hr⟩ := List.mem_flatMap.mp hr
    obtain ⟨x, hx, rfl⟩ := List.mem_map.mp (hperm.mem_iff.mp hg)
    obtain ⟨t, ht⟩ := single_result (a.single x hx)
    rw [ht] at hr
    exact ⟨x, hx, t, ht, by simpa using hr⟩
  have h1 : ∀ x ∈ reported acts rid mx runners, ∃ r ∈ Report.history gs, r.workId = x.workId ∧ r.runNumber = x.runNumber ∧
      (Passed x ↔ r.status.isFailLike = false) ∧ (Crashed x ↔ r.material = false) := by
    intro x hx
    obtain ⟨t, ht, hm⟩ := to x hx
    exact ⟨_, hm, same x hx t ht⟩
  have h2 : ∀ r ∈ Report.history gs, ∃ x ∈ reported acts rid mx runners, r.workId = x.workId ∧ r.runNumber = x.runNumber ∧
      (Passed x ↔ r.status.isFailLike = false) ∧ (Crashed x ↔ r.material = false) := by
    intro r hr
    obtain ⟨x, hx, t, ht, rfl⟩ := from' r hr
    exact ⟨x, hx, same x hx t ht⟩
  refine ⟨h1, h2, ?_⟩
  have hkey : ∀ x ∈ reported acts rid mx runners, ∀ y ∈ reported acts rid mx runners, x.workId = y.workId →
      x.runNumber = y.runNumber → x = y := by
    intro x hx y hy e1 e2
    exact eq_of_nodup_map c2 hx hy (by simp [Pipe.keyOf, e1, e2])
  have hmat : ∀ x ∈ reported acts rid mx runners, ∀ r ∈ (detail x).results.map (Report.toResult (detail x)),
      (Crashed x ↔ r.material = false) := by
    intro x hx r hr
    obtain ⟨t, ht⟩ := single_result (a.single x hx)
    rw [ht] at hr
    have hr : r = Report.toResult (detail x) t := by simpa using hr
    rw [hr]
    exact (same x hx t ht).2.2.2
  have hkeys : gs.Pairwise fun g g' => ¬ (g.workId = g'.workId ∧ g.runNumber = g'.runNumber) := by
    have hk : ((reported acts rid mx runners).map fun x => ((detail x).workId, (detail x).runNumber)).Nodup := by
      have : (reported acts rid mx runners).map (fun x => ((detail x).workId, (detail x).runNumber)) =
          (reported acts rid mx runners).map Pipe.keyOf := by
        apply List.map_congr_left
        intro x hx
        obtain ⟨e1, e2⟩ := a.work x hx
        simp only [Pipe.keyOf, e1, e2]
      rw [this]; exact c2
    have hk2 : (gs.map fun g => (g.workId, g.runNumber)).Nodup := by
      rw [(hperm.map _).nodup_iff, List.map_map]
      exact hk
    rw [List.Nodup, List.pairwise_map] at hk2
    exact hk2.imp fun hne e => hne (by rw [e.1, e.2])
  have hboth := List.pairwise_and_iff.mpr ⟨hs, hkeys⟩
  have hord : gs.Pairwise fun g g' => ∀ r ∈ g.results.map (Report.toResult g), ∀ r' ∈ g'.results.map (Report.toResult g'),
      r.material = true → r'.material = true → r.workId = r'.workId → r.runNumber < r'.runNumber := by
    refine hboth.imp_of_mem ?_
    rintro g g' hg hg' ⟨hle, hne⟩ r hr r' hr' hm hm' hw
    obtain ⟨x, hx, rfl⟩ := List.mem_map.mp (hperm.mem_iff.mp hg)
    obtain ⟨y, hy, rfl⟩ := List.mem_map.mp (hperm.mem_iff.mp hg')
    have hcx : ¬ Crashed x := fun hc => by rw [(hmat x hx r hr).mp hc] at hm; cases hm
    have hcy : ¬ Crashed y := fun hc => by rw [(hmat y hy r' hr').mp hc] at hm'; cases hm'
    obtain ⟨t, -, rfl⟩ := List.mem_map.mp hr
    obtain ⟨t', -, rfl⟩ := List.mem_map.mp hr'
    have hw : (detail x).workId = (detail y).workId := hw
    show (detail x).runNumber < (detail y).runNumber
    obtain ⟨e1, e2⟩ := a.work x hx
    obtain ⟨e3, e4⟩ := a.work y hy
    have hne' : (detail x).runNumber ≠ (detail y).runNumber := fun e => hne ⟨hw, e⟩
    rcases Nat.lt_or_ge (detail x).runNumber (detail y).runNumber with hlt | hge
    · exact hlt
    · have hcl := a.clock y hy x hx hcy hcx (by rw [← e3, ← e1, hw]) (by omega)
      rcases (Report.cmp_ne_gt _ _).mp hle with h | ⟨-, ⟨h, hnt⟩ | ⟨-, h⟩⟩
      · omega
      · exact absurd (Report.notLater_antisymm h hcl) hnt
      · omega
  have hcf : gs.Pairwise fun g g' => ∀ r ∈ g.results.map (Report.toResult g), ∀ r' ∈ g'.results.map (Report.toResult g'),
      r.workId = r'.workId → r.material = true → r'.material = true := by
    refine hboth.imp_of_mem ?_
    rintro g g' hg hg' ⟨hle, hne⟩ r hr r' hr' hw hm
    obtain ⟨x, hx, rfl⟩ := List.mem_map.mp (hperm.mem_iff.mp hg)
    obtain ⟨y, hy, rfl⟩ := List.mem_map.mp (hperm.mem_iff.mp hg')
    have hcx : ¬ Crashed x := fun hc => by rw [(hmat x hx r hr).mp hc] at hm; cases hm
    cases hm' : r'.material with
    | true => rfl
    | false =>
      exfalso
      have hcy := (hmat y hy r' hr').mpr hm'
      obtain ⟨u, -, rfl⟩ := List.mem_map.mp hr
      obtain ⟨u', -, rfl⟩ := List.mem_map.mp hr'
      have hw : (detail x).workId = (detail y).workId := hw
      obtain ⟨t, ht⟩ := single_result (a.single x hx)
      obtain ⟨t', ht'⟩ := single_result (a.single y hy)
      have h0 : t'.timestamp = 0 := (a.stamped y hy t' (by rw [ht']; simp)).mpr hcy
      have h1 : t.timestamp ≠ 0 := fun e => hcx ((a.stamped x hx t (by rw [ht]; simp)).mp e)
      rcases (Report.cmp_ne_gt _ _).mp hle with h | ⟨-, ⟨h, hnt⟩ | ⟨h, -⟩⟩
      · omega
      · simp only [Report.Group.notLater, ht, ht', List.head?_cons] at h
        omega
      · simp only [Report.Group.sameTime, ht, ht', List.head?_cons, Option.map_some, Option.some.injEq] at h
        omega
  constructor
  · intro w hw w' hw' e
    obtain ⟨t, ht, rfl⟩ := List.mem_map.mp hw
    obtain ⟨t', ht', rfl⟩ := List.mem_map.mp hw'
    exact a.distinct t ht t' ht' e
  · rw [Report.history, List.pairwise_flatMap]
    refine ⟨?_, hord⟩
    intro g hg
    obtain ⟨x, hx, rfl⟩ := List.mem_map.mp (hperm.mem_iff.mp hg)
    obtain ⟨t, ht⟩ := single_result (a.single x hx)
    rw [ht]; simp
  · rw [Report.history, List.pairwise_flatMap]
    refine ⟨?_, hcf⟩
    intro g hg
    obtain ⟨x, hx, rfl⟩ := List.mem_map.mp (hperm.mem_iff.mp hg)
    obtain ⟨t, ht⟩ := single_result (a.single x hx)
    rw [ht]; simp
  · intro r hr r' hr' hw hn
    obtain ⟨x, hx, t, ht, rfl⟩ := from' r hr
    obtain ⟨y, hy, t', ht', rfl⟩ := from' r' hr'
    obtain ⟨e1, e2, -⟩ := same x hx t ht
    obtain ⟨e3, e4, -⟩ := same y hy t' ht'
    have : x = y := hkey x hx y hy (by rw [← e1, ← e3, hw]) (by rw [← e2, ← e4, hn])
    subst this
    rw [ht] at ht'
    cases ht'
    rfl
  · intro r hr
    obtain ⟨x, hx, e1, -⟩ := h2 r hr
    rw [e1]; exact (c3 x hx).1
  · intro r hr
    obtain ⟨x, hx, -, e2, -⟩ := h2 r hr
    rw [e2]; exact (c3 x hx).2.1
  · intro r hr hm
    obtain ⟨x, hx, t, ht, rfl⟩ := from' r hr
    have hnc : ¬ Crashed x := fun hc => by rw [(same x hx t ht).2.2.2.mp hc] at hm; cases hm
    have := a.named x hx hnc t (by rw [ht]; simp)
    rw [show (Report.toResult (detail x) t).workId = x.workId from (a.work x hx).1]
    exact this
  · intro w hw
    obtain ⟨x, hx, rfl⟩ := List.mem_map.mp (c1.mem_iff.mpr hw)
    rw [List.mem_filter] at hx
    obtain ⟨r, hr, e1, e2, -⟩ := h1 x hx.1
    exact ⟨r, hr, e1, by rw [e2]; simpa using hx.2⟩
  · intro r hr hp r' hr' hw
    obtain ⟨x, hx, e1, e2, e3, e4⟩ := h2 r hr
    obtain ⟨x', hx', k1, k2, -, -⟩ := h2 r' hr'
    rcases hp with hp | hp
    · rcases Nat.lt_or_ge r.runNumber r'.runNumber with hlt | hge
      · obtain ⟨y, hy, j1, j2, j3⟩ := C76_not_after_success acts rid flat mx hmx runners a.whole x' hx' r.runNumber
          (by rw [e2]; exact (c3 x hx).2.1) (by rw [← k2]; exact hlt)
        have : y = x := hkey y hy x hx (by rw [j1, ← k1, hw, e1]) (by rw [j2, e2])
        subst this
        exact absurd (e3.mpr hp) j3
      · exact hge
    · have := C76_crash_is_last acts rid flat mx hmx runners a.whole a.ids x hx (e4.mpr hp) x' hx' (by rw [← k1, hw, e1])
      omega

/-- The report of a run, with its exit code. -/
theorem report_codes (acts : List (RunsAct TestSpec)) (rid : RunId) (flat : List (TestSpec × Nat)) (mx : Nat) (hmx : 1 ≤ mx)
    (runners : List EndToEnd.Runner) (ds : EndToEnd.Runner → List (Delivery.Act Retries.Results))
    (detail : Retries.Results → Report.Group) (name : Nat → String) (a : Arrived acts rid flat mx runners ds detail name)
    (lines : List Report.Line) (hl : lines.Perm (toRecord flat runners ds detail))
    (sort : List Report.Group → List Report.Group) (hs : Report.IsSort sort) (rs : List Report.Reporter) (hf : ∀ r ∈ rs, r.Fine) :
    ∃ code gs, (Report.process sort rs lines).result = .ok code ∧
      gs.Perm ((reported acts rid mx runners).map detail) ∧
      (Report.process sort rs lines).reporters.map (·.log) = rs.map (fun r => r.log ++ Report.pushes gs ++ [.afterAll, .finish]) ∧
      (code = 0 ↔ ∀ t ∈ flat, ∃ x ∈ reported acts rid mx runners, x.workId = t.1.workId ∧ Passed x) ∧
      (code = 101 ↔ ∃ x ∈ reported acts rid mx runners, x.runNumber = 1 ∧ Crashed x) ∧
      (code = 0 ∨ code = 1 ∨ code = 101) := by
  obtain ⟨t1, t2⟩ := received_toRecord a
  have hrp : (Report.received lines).Perm ((reported acts rid mx runners).map detail) := by
    rw [← t1]; exact hl.flatMap_right _
  have hsp : Report.summaries lines = [flat.length] := by
    have : (Report.summaries lines).Perm (Report.summaries (toRecord flat runners ds detail)) := hl.filterMap _
    rw [t2] at this
    exact List.perm_singleton.1 this
  have hgs := (hs.perm (Report.received lines)).trans hrp
  obtain ⟨h1, h2, at'⟩ := report_attempts hmx a _ hgs (hs.ascending _)
  have hworks : ∀ w, w ∈ flat.map (·.1.workId) ↔ ∃ g ∈ Report.received lines, g.workId = w := by
    intro w
    constructor
    · intro hw
      obtain ⟨r, hr, e, -⟩ := at'.first w hw
      obtain ⟨x, hx, e1, -⟩ := h2 r hr
      exact ⟨detail x, hrp.mem_iff.mpr (List.mem_map_of_mem hx), by rw [(a.work x hx).1, ← e1, e]⟩
    · rintro ⟨g, hg, rfl⟩
      obtain ⟨x, hx, rfl⟩ := List.mem_map.mp (hrp.mem_iff.mp hg)
      obtain ⟨r, hr, e1, -⟩ := h1 x hx
      rw [(a.work x hx).1, ← e1]
      exact at'.work r hr
  obtain ⟨code, hcode⟩ := (C48_succeeds_iff sort hs rs hf lines _ a.whole.unique hworks).2 (by rw [hsp]; simp)
  refine ⟨code, sort (Report.received lines), hcode, hgs, C48_each_reporter sort rs lines code hcode, ?_⟩
  rw [C48_exit_code sort rs lines code hcode]
  refine ⟨(exit_zero at').trans ⟨?_, ?_⟩, (exit_crash at').trans ⟨?_, ?_⟩, exit_cases _⟩
  · intro hall t ht
    obtain ⟨r, hr, e, hp⟩ := hall t.1.workId (List.mem_map_of_mem (f := fun t : TestSpec × Nat => t.1.workId) ht)
    obtain ⟨x, hx, e1, -, e3, -⟩ := h2 r hr
    exact ⟨x, hx, e1.symm.trans e, e3.mpr hp⟩
  · intro hall w hw
    obtain ⟨t, ht, rfl⟩ := List.mem_map.mp hw
    obtain ⟨x, hx, e, hp⟩ := hall t ht
    obtain ⟨r, hr, e1, -, e3, -⟩ := h1 x hx
    exact ⟨r, hr, e1.trans e, e3.mp hp⟩
  · rintro ⟨r, hr, hn, hm⟩
    obtain ⟨x, hx, -, e2, -, e4⟩ := h2 r hr
    exact ⟨x, hx, e2 ▸ hn, e4.mpr hm⟩
  · rintro ⟨x, hx, hn, hc⟩
    obtain ⟨r, hr, -, e2, -, e4⟩ := h1 x hx
    exact ⟨r, hr, e2.trans hn, e4.mp hc⟩

/-- **C115.** If all results of a run have come to the queue, then a report made from what the queue recorded is complete, its
reporters are told each attempt at each test once, and its exit code is 0 iff each test of the manifest passed in one of its
attempts. -/
theorem C115_exit_code (acts : List (RunsAct TestSpec)) (rid : RunId) (flat : List (TestSpec × Nat)) (mx : Nat) (hmx : 1 ≤ mx)
    (runners : List EndToEnd.Runner) (ds : EndToEnd.Runner → List (Delivery.Act Retries.Results))
    (detail : Retries.Results → Report.Group) (name : Nat → String) (a : Arrived acts rid flat mx runners ds detail name)
    (lines : List Report.Line) (hl : lines.Perm (toRecord flat runners ds detail))
    (sort : List Report.Group → List Report.Group) (hs : Report.IsSort sort) (rs : List Report.Reporter) (hf : ∀ r ∈ rs, r.Fine) :
    ∃ code gs, (Report.process sort rs lines).result = .ok code ∧
      gs.Perm ((reported acts rid mx runners).map detail) ∧
      (Report.process sort rs lines).reporters.map (·.log) = rs.map (fun r => r.log ++ Report.pushes gs ++ [.afterAll, .finish]) ∧
      (code = 0 ↔ ∀ t ∈ flat, ∃ x ∈ reported acts rid mx runners, x.workId = t.1.workId ∧ Passed x) := by
  obtain ⟨code, gs, h1, h2, h3, h4, -⟩ := report_codes acts rid flat mx hmx runners ds detail name a lines hl sort hs rs hf
  exact ⟨code, gs, h1, h2, h3, h4⟩

/-- **C116**, part. The exit code of that report is 101 iff the native runner crashed on the first attempt at a test; it is 1 iff it did
not, and some test did not pass. -/
theorem C116_exit_code_partial (acts : List (RunsAct TestSpec)) (rid : RunId) (flat : List (TestSpec × Nat)) (mx : Nat) (hmx : 1 ≤ mx)
    (runners : List EndToEnd.Runner) (ds : EndToEnd.Runner → List (Delivery.Act Retries.Results))
    (detail : Retries.Results → Report.Group) (name : Nat → String) (a : Arrived acts rid flat mx runners ds detail name)
    (lines : List Report.Line) (hl : lines.Perm (toRecord flat runners ds detail))
    (sort : List Report.Group → List Report.Group) (hs : Report.IsSort sort) (rs : List Report.Reporter) (hf : ∀ r ∈ rs, r.Fine) :
    ∃ code, (Report.process sort rs lines).result = .ok code ∧
      (code = 101 ↔ ∃ x ∈ reported acts rid mx runners, x.runNumber = 1 ∧ Crashed x) ∧
      (code = 1 ↔ (∀ x ∈ reported acts rid mx runners, x.runNumber = 1 → ¬ Crashed x) ∧
        ∃ t ∈ flat, ∀ x ∈ reported acts rid mx runners, x.workId = t.1.workId → ¬ Passed x) := by
  obtain ⟨code, gs, h1, -, -, h4, h5, h6⟩ := report_codes acts rid flat mx hmx runners ds detail name a lines hl sort hs rs hf
  refine ⟨code, h1, h5, ?_⟩
  constructor
  · rintro rfl
    refine ⟨fun x hx hn hc => absurd (h5.mpr ⟨x, hx, hn, hc⟩) (by decide), ?_⟩
    apply Classical.byContradiction
    intro hno
    refine absurd (h4.mpr fun t ht => ?_) (by decide)
    apply Classical.byContradiction
    intro hno'
    exact hno ⟨t, ht, fun x hx hw hp => hno' ⟨x, hx, hw, hp⟩⟩
  · rintro ⟨hc, t, ht, hp⟩
    rcases h6 with rfl | rfl | rfl
    · obtain ⟨x, hx, hw, hpx⟩ := h4.mp rfl t ht
      exact absurd hpx (hp x hx hw)
    · rfl
    · obtain ⟨x, hx, hn, hcx⟩ := h5.mp rfl
      exact absurd hcx (hc x hx hn)

open Abq.Fetch (Codec Attempt onWire report) in
open Abq.Results (Ev) in
open Abq.Results.Spec (planned writesOk Safe) in
/-- **C115.** From the queue and the runners to the exit code of `abq report`: if the queue recorded what it received from the
runners of a run, in any order, and a client asked then, until it was answered with a stream (as in C98), its report is complete, and
its exit code is 0 iff each test of the manifest passed in one of its attempts. -/
theorem C115_report (acts : List (RunsAct TestSpec)) (rid : RunId) (flat : List (TestSpec × Nat)) (mx : Nat) (hmx : 1 ≤ mx)
    (runners : List EndToEnd.Runner) (ds : EndToEnd.Runner → List (Delivery.Act Retries.Results))
    (detail : Retries.Results → Report.Group) (name : Nat → String) (w : Arrived acts rid flat mx runners ds detail name)
    (c : Codec Report.Line) (lineOf : Nat → Report.Line) (noop : Bool) (ras : List Results.Act)
    (hsafe : ∀ a ∈ ras, Safe a) (a b d : List Ev) (r : Nat) (bytes : Results.Bytes)
    (h : (Results.run (Results.init noop [] none) ras).events = a ++ .asked r :: b ++ .stream r bytes :: d)
    (hok : writesOk (a ++ b)) (hb : planned b = [])
    (hrec : ((planned a).map fun p => lineOf p.1).Perm (toRecord flat runners ds detail))
    (henc : ∀ p ∈ planned a, c.Lawful (lineOf p.1) ∧ onWire p.2 = c.encode (lineOf p.1))
    (hsz : bytes.length < 2 ^ 32)
    (pre : List Attempt) (t : Attempt) (post : List Attempt) (broken : Bool)
    (hpre : ∀ q ∈ pre ++ [t], (∃ k, 1 ≤ k ∧ k ≤ 5 ∧ q.connects k = true) ∧ q.sent = true)
    (hp : ∀ q ∈ pre, q.reply = some .pending)
    (ht : t.reply = some (.streaming ⟨Wire.streamBytes bytes.length (onWire bytes), broken⟩))
    (sort : List Report.Group → List Report.Group) (hs : Report.IsSort sort) (rs : List Report.Reporter) (hf : ∀ r ∈ rs, r.Fine) :
    ∃ o code gs, report c sort rs (pre ++ t :: post) = .ended o ∧ o.result = .ok code ∧
      gs.Perm ((reported acts rid mx runners).map detail) ∧
      o.reporters.map (·.log) = rs.map (fun r => r.log ++ Report.pushes gs ++ [.afterAll, .finish]) ∧
      (code = 0 ↔ ∀ t ∈ flat, ∃ x ∈ reported acts rid mx runners, x.workId = t.1.workId ∧ Passed x) := by
  obtain ⟨lines, hfetch, hl⟩ := C98_fetched_all_partial c lineOf noop ras hsafe a b d r bytes h hok hb henc hsz pre t post broken
    hpre hp ht
  obtain ⟨code, gs, h1, h2, h3, h4⟩ := C115_exit_code acts rid flat mx hmx runners ds detail name w lines (hl.trans hrec) sort
    hs rs hf
  exact ⟨Report.process sort rs lines, code, gs, by rw [report, hfetch], h1, h2, h3, h4⟩

set_option maxRecDepth 20000 in
/-- The native runner fails on the second attempt at the test; C45_crash_is_last applies. -/
example :
    let p := Pipe.run (Pipe.init pipeOne 2 4) ((List.replicate 5 (pipeRound [⟨1, true⟩])).flatten.take 37)
    p.runner = .running ⟨⟨1, 1, some [1]⟩, 2⟩ ∧
    let q := Pipe.run p (.crash :: (List.replicate 20 (pipeRound [])).flatten)
    q.finished = true ∧ q.reported = [⟨1, 1, [⟨1, true⟩]⟩, ⟨1, 2, [⟨0, true⟩]⟩] := by decide

/-! ## A case -/

/-- How an attempt at test "a" ends. -/
inductive WholeEnd where
  | passes
  | fails
  | crashes
deriving DecidableEq

/-- One round of the tasks of a runner. -/
def wholeRound : WholeEnd → List RunnerEnd.Act
  | .passes => e2eRound [⟨1, false⟩]
  | .fails => e2eRound [⟨1, true⟩]
  | .crashes => e2eCrash

/-- What is reported for it. -/
def wholeResult : WholeEnd → Retries.Result
  | .passes => ⟨1, false⟩
  | .fails => ⟨1, true⟩
  | .crashes => ⟨0, true⟩

/-- The tests "a" and "b" fail, and are tried again: "b" passes then. -/
def wholeRunners (second : WholeEnd) : List EndToEnd.Runner :=
  [⟨e2eWorker 1, 4, (List.replicate 3 (wholeRound .fails)).flatten ++ (List.replicate 12 (wholeRound second)).flatten ++ [.notify]⟩,
   ⟨e2eWorker 2, 4, e2eRound [⟨1, true⟩] ++ e2eRound [⟨1, true⟩] ++ (List.replicate 10 (e2eRound [⟨1, false⟩])).flatten ++ [.notify]⟩]

set_option maxRecDepth 20000 in
theorem whole_reported (second : WholeEnd) : reported e2eQueue "run" 2 (wholeRunners second) =
    [⟨10, 1, [⟨1, true⟩]⟩, ⟨10, 2, [wholeResult second]⟩, ⟨11, 1, [⟨1, true⟩]⟩, ⟨11, 2, [⟨1, false⟩]⟩] := by
  cases second <;> decide

set_option maxRecDepth 20000 in
theorem whole_run (second : WholeEnd) : EndToEnd.WholeRun e2eQueue "run" e2eTests 2 (wholeRunners second) where
  exhausted := by decide
  manifest := by decide
  written := by decide
  answered := by decide
  unique := by decide
  noFocus := by decide
  distinct := by cases second <;> decide
  all := by
    have h : ∀ ev ∈ e2eEvents, (match ev with
      | .delivered _ e _ _ => decide (e ∈ (wholeRunners second).map (·.entity))
      | _ => true) = true := by cases second <;> decide
    intro e items eow hm
    have := h _ hm
    simpa using this
  ended := by
    have hs : ∀ r ∈ wholeRunners second, (r.life 2 "run" e2eEvents).finished = true ∧ (r.life 2 "run" e2eEvents).failed = false ∧
        (r.life 2 "run" e2eEvents).pipe.sys.failed = false ∧
        Fetch.Spec.supplied (r.life 2 "run" e2eEvents).pipe.sys.fetcher.sources = [] := by cases second <;> decide
    intro r hr
    obtain ⟨h1, h2, h3, h4⟩ := hs r hr
    refine ⟨h1, h2, h3, h4, ?_⟩
    simp only [wholeRunners, List.mem_cons, List.not_mem_nil, or_false] at hr
    rcases hr with rfl | rfl
    · have : EndToEnd.script "run" (e2eWorker 1) e2eEvents = [.bundle ⟨[⟨⟨10, 1, none⟩, 1⟩], false⟩, .bundle ⟨[], true⟩] := by decide
      show Fetch.Spec.Ends (EndToEnd.script "run" (e2eWorker 1) e2eEvents)
      rw [this]
      simp [Fetch.Spec.Ends]
    · have : EndToEnd.script "run" (e2eWorker 2) e2eEvents = [.bundle ⟨[⟨⟨11, 2, none⟩, 1⟩], true⟩] := by decide
      show Fetch.Spec.Ends (EndToEnd.script "run" (e2eWorker 2) e2eEvents)
      rw [this]
      simp [Fetch.Spec.Ends]

def wholeName (work : Nat) : String := if work = 10 then "a" else "b"

/-- Whether the result is a placeholder. -/
def wholeCrashed (x : Retries.Results) : Bool := x.results.any (·.id == 0)

def wholeStatus (x : Retries.Results) : Summary.Status :=
  if wholeCrashed x then .nativeRunnerError else if x.results.any (·.failed) then .failure else .success

/-- The clock shows the number of the attempt; a placeholder has the time 0. -/
def wholeDetail (x : Retries.Results) : Report.Group :=
  ⟨x.workId, x.runNumber, [⟨if wholeCrashed x then "internal-error" else wholeName x.workId, wholeStatus x, 5, none, ⟨1, 1⟩,
    if wholeCrashed x then 0 else x.runNumber⟩], "", none⟩

theorem wholeCrashed_iff (x : Retries.Results) : wholeCrashed x = true ↔ Crashed x := by
  simp [wholeCrashed, Crashed]

/-- The runner hands over its results, which are sent as one batch. -/
def wholeSends (r : EndToEnd.Runner) : List (Delivery.Act Retries.Results) :=
  (r.reported 2 "run" e2eEvents).map (fun x => .op (.push x)) ++ [.close, .connect true, .write true true, .ack true, .tellLocal]

set_option maxRecDepth 20000 in
theorem whole_arrived (second : WholeEnd) :
    Arrived e2eQueue "run" e2eTests 2 (wholeRunners second) wholeSends wholeDetail wholeName where
  whole := whole_run second
  sent := by cases second <;> decide
  ended := by cases second <;> decide
  ids := by
    have h : ∀ r ∈ wholeRunners second, ∀ act ∈ r.schedule, (match act with
      | .pipe (.result rs) => rs.all (·.id != 0)
      | _ => true) = true := by cases second <;> decide
    intro r hr rs hm y hy
    have := List.all_eq_true.mp (h r hr _ hm) y hy
    simpa using this
  work := fun _ _ => ⟨rfl, rfl⟩
  outcome := by
    rw [whole_reported]
    cases second <;> decide
  single := fun _ _ => rfl
  crashes := by
    intro x _ t ht
    simp only [wholeDetail, List.mem_singleton] at ht
    rw [ht, ← wholeCrashed_iff]
    simp only [wholeStatus]
    cases wholeCrashed x <;> simp
    split <;> simp
  stamped := by
    intro x hx t ht
    have h1 := (C76_every_test_reported_once _ _ _ 2 (by decide) _ (whole_run second)).2.2 x hx
    simp only [wholeDetail, List.mem_singleton] at ht
    rw [ht, ← wholeCrashed_iff]
    cases wholeCrashed x
    · simp; omega
    · simp
  named := by
    intro x _ hc t ht
    simp only [wholeDetail, List.mem_singleton] at ht
    rw [ht]
    rw [← wholeCrashed_iff] at hc
    exact if_neg hc
  distinct := by decide
  clock := by
    intro x _ x' _ hc hc' _ hlt
    rw [← wholeCrashed_iff, Bool.not_eq_true] at hc hc'
    simp only [Report.Group.notLater, wholeDetail, hc, hc', List.head?_cons]
    exact Nat.le_of_lt hlt

theorem whole_fine : ∀ r ∈ [quiet], r.Fine := by
  intro r hr
  simp only [List.mem_singleton] at hr
  subst hr
  exact fun _ _ => rfl

/-- If "a" passes in the end the exit code is 0, and otherwise it is not. -/
example (second : WholeEnd) (sort : List Report.Group → List Report.Group) (hs : Report.IsSort sort) :
    ∃ code, (Report.process sort [quiet] (toRecord e2eTests (wholeRunners second) wholeSends wholeDetail)).result = .ok code ∧
      (code = 0 ↔ second = .passes) := by
  obtain ⟨code, gs, h1, -, -, h2⟩ := C115_exit_code _ _ _ _ (by decide) _ _ _ _ (whole_arrived second) _ (List.Perm.refl _) sort hs
    [quiet] whole_fine
  refine ⟨code, h1, h2.trans ?_⟩
  rw [whole_reported]
  cases second <;> simp [e2eTests, Passed, wholeResult]

def wholeOfA : Report.Line :=
  .results [⟨10, 1, [⟨"a", .failure, 5, none, ⟨1, 1⟩, 1⟩], "", none⟩, ⟨10, 2, [⟨"a", .success, 5, none, ⟨1, 1⟩, 2⟩], "", none⟩]

def wholeOfB : Report.Line :=
  .results [⟨11, 1, [⟨"b", .failure, 5, none, ⟨1, 1⟩, 1⟩], "", none⟩, ⟨11, 2, [⟨"b", .success, 5, none, ⟨1, 1⟩, 2⟩], "", none⟩]

set_option maxRecDepth 20000 in
/-- What there is to record in the case. -/
theorem whole_toRecord : toRecord e2eTests (wholeRunners .passes) wholeSends wholeDetail = [.summary 2, wholeOfA, wholeOfB] := by
  decide

/-- Short texts for these lines. -/
def wholeCodec : Fetch.Codec Report.Line where
  encode l := if l = wholeOfA then [1, 9] else if l = .summary 2 then [2, 9] else [3, 9]
  isJson t := t == [1, 9] || t == [2, 9] || t == [3, 9]
  decode t := if t = [1, 9] then some wholeOfA else if t = [2, 9] then some (.summary 2)
    else if t = [3, 9] then some wholeOfB else none

/-- The batch of "a" is recorded first, then the summary, then the batch of "b". -/
def wholeLine : Nat → Report.Line
  | 0 => wholeOfA
  | 1 => .summary 2
  | _ => wholeOfB

/-- The client of `recordedAttempts` reports it, with exit code 0. -/
example : ∃ o, Fetch.report wholeCodec sortGroups [quiet] recordedAttempts = .ended o ∧ o.result = .ok 0 := by
  obtain ⟨o, code, gs, h1, h2, -, -, h3⟩ := C115_report _ _ _ _ (by decide) _ _ _ _ (whole_arrived .passes)
    wholeCodec wholeLine false recordedActs (by decide) recordedEvents [] [] 0
    [1, 9, 10, 2, 9, 10, 3, 9, 10] (by decide) (by unfold Results.Spec.writesOk; decide) (by decide)
    (by
      rw [whole_toRecord]
      show [wholeOfA, .summary 2, wholeOfB].Perm _
      exact List.Perm.swap _ _ _)
    (by
      intro p hp
      have hp : p ∈ [(0, [1, 9]), (1, [2, 9]), (2, [3, 9])] := hp
      simp only [List.mem_cons, List.not_mem_nil, or_false] at hp
      rcases hp with rfl | rfl | rfl
      all_goals exact ⟨⟨by decide, by decide, by decide, by decide⟩, by decide⟩)
    (by decide) [⟨fun _ => true, true, some .pending⟩]
    ⟨fun k => k == 2, true, some (.streaming ⟨[0, 0, 0, 9, 1, 9, 10, 2, 9, 10, 3, 9, 10], false⟩)⟩ [] false
    (by
      intro q hq
      have hq : q ∈ recordedAttempts := hq
      simp only [recordedAttempts, List.mem_cons, List.not_mem_nil, or_false] at hq
      rcases hq with rfl | rfl
      · exact ⟨⟨1, by omega, by omega, rfl⟩, rfl⟩
      · exact ⟨⟨2, by omega, by omega, rfl⟩, rfl⟩)
    (by simp) rfl sortGroups Report.isSort_mergeSort [quiet] (by simp [quiet, Report.Reporter.Fine])
  refine ⟨o, h1, ?_⟩
  rw [h2, h3.2 ?_]
  rw [whole_reported]
  simp [e2eTests, Passed, wholeResult]

/-- **C116**, part. Whatever was recorded, of however many runs of a suite: if placeholders come alone and with the time 0, and nothing
else does, then a report has the exit code 101 iff for some test there is a placeholder, and no result of any attempt. -/
theorem C116_any_record_partial (sort : List Report.Group → List Report.Group) (hs : Report.IsSort sort) (rs : List Report.Reporter)
    (lines : List Report.Line)
    (alone : ∀ g ∈ Report.received lines, ∀ t ∈ g.results, t.status = .nativeRunnerError → g.results = [t])
    (stamped : ∀ g ∈ Report.received lines, ∀ t ∈ g.results, t.timestamp = 0 ↔ t.status = .nativeRunnerError) (c : Nat)
    (h : (Report.process sort rs lines).result = .ok c) :
    c = 101 ↔ ∃ g ∈ Report.received lines, (∃ t ∈ g.results, t.status = .nativeRunnerError) ∧
      ∀ g' ∈ Report.received lines, g'.workId = g.workId → ∀ t ∈ g'.results, t.status = .nativeRunnerError := by
  rw [C48_exit_code sort rs lines c h, (Summary.exit_codes _).1, Ne, Green.resolved_sorted alone stamped sort hs]
  constructor
  · intro hn
    apply Classical.byContradiction
    intro hno
    refine hn fun g hg t ht hst => ?_
    apply Classical.byContradiction
    intro hno'
    refine hno ⟨g, hg, ⟨t, ht, hst⟩, fun g' hg' hw u hu => ?_⟩
    apply Classical.byContradiction
    intro hu'
    exact hno' ⟨g', hg', hw, u.id, u, hu, rfl, hu'⟩
  · rintro ⟨g, hg, ⟨t, ht, hst⟩, hall⟩ hn
    obtain ⟨g', hg', hw, id, u, hu, -, hu'⟩ := hn g hg t ht hst
    exact hu' (hall g' hg' hw u hu)

/-- Test "a" passed or failed, and was run once more when the run was started again, where the native runner crashed. On test "b" it
crashed at once. -/
def wholeRecord (passed : Bool) : List Report.Line :=
  [.summary 1, .results [⟨10, 1, [⟨"a", if passed then .success else .failure, 5, none, ⟨1, 1⟩, 7⟩], "", none⟩],
   .results [⟨10, 1, [⟨"internal-error-1", .nativeRunnerError, 5, none, ⟨1, 1⟩, 0⟩], "", none⟩]]

def wholeCrashB : List Report.Line :=
  [.summary 1, .results [⟨11, 1, [⟨"internal-error-2", .nativeRunnerError, 5, none, ⟨2, 1⟩, 0⟩], "", none⟩]]

theorem whole_sorted (passed : Bool) (sort : List Report.Group → List Report.Group) (hs : Report.IsSort sort) :
    sort (Report.received (wholeRecord passed)) =
      [⟨10, 1, [⟨"internal-error-1", .nativeRunnerError, 5, none, ⟨1, 1⟩, 0⟩], "", none⟩,
       ⟨10, 1, [⟨"a", if passed then .success else .failure, 5, none, ⟨1, 1⟩, 7⟩], "", none⟩] := by
  refine hs.unique ?_ (List.Perm.swap _ _ _) ?_
  · rw [List.pairwise_pair]
    exact .inr ⟨rfl, .inl ⟨Nat.zero_le _, by simp [Report.Group.sameTime]⟩⟩
  · simp [Report.Group.sameKey, Report.Group.sameTime]

/-- The code is 1 for "a" if it failed, and 0 if it passed; it is 101 for "b". -/
theorem whole_codes (sort : List Report.Group → List Report.Group) (hs : Report.IsSort sort) :
    (Report.process sort [] (wholeRecord false)).result = .ok 1 ∧ (Report.process sort [] (wholeRecord true)).result = .ok 0 ∧
    (Report.process sort [] wholeCrashB).result = .ok 101 := by
  refine ⟨?_, ?_, ?_⟩
  · unfold Report.process
    rw [Report.collect_eq]
    dsimp only
    rw [whole_sorted false sort hs]
    rfl
  · unfold Report.process
    rw [Report.collect_eq]
    dsimp only
    rw [whole_sorted true sort hs]
    rfl
  · have : sort (Report.received wholeCrashB) = Report.received wholeCrashB := List.perm_singleton.1 (hs.perm _)
    unfold Report.process
    rw [Report.collect_eq]
    dsimp only
    rw [this]
    rfl

/-- The records meet the hypotheses of `C116_any_record_partial`. -/
example : ∀ lines ∈ [wholeRecord false, wholeRecord true, wholeCrashB],
    (∀ g ∈ Report.received lines, ∀ t ∈ g.results, t.status = .nativeRunnerError → g.results = [t]) ∧
    (∀ g ∈ Report.received lines, ∀ t ∈ g.results, (t.timestamp = 0 ↔ t.status = .nativeRunnerError)) := by
  decide

/-- **C116** does not hold as it stands. If the native runner crashed on the last attempt at a test, and that was not the first, the exit
code is 1, as for a test that failed. If a test had passed, and the native runner crashed on it when the run was started again,
the exit code is 0. -/
theorem C116_full_statement_fails :
    (∃ (acts : List (RunsAct TestSpec)) (rid : RunId) (flat : List (TestSpec × Nat)) (mx : Nat) (runners : List EndToEnd.Runner)
      (ds : EndToEnd.Runner → List (Delivery.Act Retries.Results)) (detail : Retries.Results → Report.Group) (name : Nat → String),
      1 ≤ mx ∧ Arrived acts rid flat mx runners ds detail name ∧ (∃ x ∈ reported acts rid mx runners, Crashed x) ∧
      ∀ (sort : List Report.Group → List Report.Group), Report.IsSort sort →
        (Report.process sort [] (toRecord flat runners ds detail)).result = .ok 1) ∧
    ∃ (lines : List Report.Line) (first again : Report.Group), lines = [.summary 1, .results [first], .results [again]] ∧
      again.workId = first.workId ∧ (∀ t ∈ again.results, t.status = .nativeRunnerError) ∧
      ∀ (sort : List Report.Group → List Report.Group), Report.IsSort sort → (Report.process sort [] lines).result = .ok 0 := by
  refine ⟨⟨e2eQueue, "run", e2eTests, 2, wholeRunners .crashes, wholeSends, wholeDetail, wholeName, by decide,
    whole_arrived .crashes, ?_, ?_⟩, wholeRecord true, _, _, rfl, rfl, by simp, fun sort hs => (whole_codes sort hs).2.1⟩
  · rw [whole_reported]
    exact ⟨⟨10, 2, [⟨0, true⟩]⟩, by simp [wholeResult], ⟨0, true⟩, by simp, rfl⟩
  · intro sort hs
    obtain ⟨code, h1, -, h2⟩ := C116_exit_code_partial _ _ _ _ (by decide) _ _ _ _ (whole_arrived .crashes) _
      (List.Perm.refl _) sort hs [] (by simp)
    rw [h1]
    refine congrArg Except.ok (h2.mpr ?_)
    rw [whole_reported]
    simp [e2eTests, Passed, wholeResult, Crashed]

end Abq.Props
