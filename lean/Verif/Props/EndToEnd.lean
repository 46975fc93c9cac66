import Verif.Proof.EndToEnd
import Verif.Props.AllRunsResults
import Verif.Props.Fetcher

/-!
# C76: a whole run, from the manifest to the reports of all runners

The registry of runs of the queue (`Model/AllRuns.lean`) composed with any number of runners (`Model/RunnerEnd.lean`): each runner
is given what the queue wrote to its connection, and runs on its own schedule.
-/

namespace Abq.Props
open Abq.Retries Abq.Fetch Abq.Fetch.Spec Abq.Pipe Abq.RunnerEnd Abq.EndToEnd

/-- What one runner reports. -/
theorem runner_reports (mx : Nat) (hmx : 1 ≤ mx) (rid : RunId) (evs : List (Event TestSpec)) (r : EndToEnd.Runner)
    (wf : WellFormed [script rid r.entity evs]) (he : EndToEnd.Ended (r.life mx rid evs) rid r.entity evs) :
    ((r.reported mx rid evs).filter (·.runNumber == 1)).map (·.workId) =
      (supplied [script rid r.entity evs]).map (·.spec.workId) ∧
    ((r.reported mx rid evs).map keyOf).Nodup ∧
    (∀ x ∈ r.reported mx rid evs, x.workId ∈ (supplied [script rid r.entity evs]).map (·.spec.workId) ∧
      1 ≤ x.runNumber ∧ x.runNumber ≤ mx) := by
  have hpi : PI mx [script rid r.entity evs] (r.life mx rid evs).pipe :=
    pi_life hmx wf r.batchSize r.schedule he.restarts
  have hfin := he.finished
  simp only [Life.finished, Bool.and_eq_true] at hfin
  have hkeys : (r.reported mx rid evs).map keyOf = (r.life mx rid evs).pipe.sys.given.map Fetch.key :=
    finished_flow hpi hfin.1
  obtain ⟨h, fs, rs, i⟩ := hpi.sys
  have hfs : supplied [script rid r.entity evs] = fs := by
    have := i.rest he.fetches
    rw [he.read, List.append_nil] at this
    exact this
  have hnum : ∀ w ∈ fs, w.runNumber = 1 := fun w hw => (wf.first w (hfs ▸ hw)).1
  obtain ⟨bs, hbs⟩ := sys_life_run (RunnerEnd.init [script rid r.entity evs] mx r.batchSize) r.schedule
  have hnod : ((r.reported mx rid evs).map keyOf).Nodup := by
    rw [hkeys]
    have := given_nodup hmx wf bs
    rw [show (RunnerEnd.init [script rid r.entity evs] mx r.batchSize).pipe.sys =
      Fetch.init [script rid r.entity evs] mx from rfl] at hbs
    rw [← hbs] at this
    exact this
  refine ⟨?_, hnod, ?_⟩
  · rw [hfs]
    have e : ∀ l : List Results, (l.filter (·.runNumber == 1)).map (·.workId) =
        ((l.map keyOf).filter (·.2 == 1)).map Prod.fst := by
      intro l
      induction l with
      | nil => rfl
      | cons x xs ih =>
        by_cases hx : x.runNumber = 1 <;> simp_all [keyOf]
    rw [e, hkeys, i.given, List.map_append, List.filter_append, List.map_append]
    have h1 : (fs.map Fetch.key).filter (·.2 == 1) = fs.map Fetch.key := by
      rw [List.filter_eq_self]
      intro x hx
      obtain ⟨w, hw, rfl⟩ := List.mem_map.mp hx
      simp [Fetch.key, hnum w hw]
    have h2 : (rs.map Fetch.key).filter (·.2 == 1) = [] := by
      rw [List.filter_eq_nil_iff]
      intro x hx
      obtain ⟨w, hw, rfl⟩ := List.mem_map.mp hx
      have := i.numbers w hw
      simp [Fetch.key]
      omega
    rw [h1, h2]
    simp [Fetch.key, Function.comp_def]
  · intro x hx
    have hx' : keyOf x ∈ (r.life mx rid evs).pipe.sys.given.map Fetch.key := hkeys ▸ List.mem_map_of_mem hx
    constructor
    · have hmem : x.workId ∈ h.manifest.map (·.workId) := by
        rw [i.todo] at hx'
        rcases List.mem_append.mp hx' with h' | h'
        · obtain ⟨q, hq, e⟩ := List.mem_map.mp h'
          have := i.sim.logMem q (i.log ▸ hq)
          rwa [show q.workId = x.workId from (Prod.mk.inj e).1] at this
        · obtain ⟨id, hid, e⟩ := List.mem_map.mp h'
          have := i.sim.todoMem id hid
          rwa [show id = x.workId from (Prod.mk.inj e).1] at this
      rw [← i.firsts, List.map_map] at hmem
      rw [hfs]
      exact hmem
    · rw [i.given] at hx'
      obtain ⟨w, hw, e⟩ := List.mem_map.mp hx'
      have e2 : w.runNumber = x.runNumber := (Prod.mk.inj e).2
      rcases List.mem_append.mp hw with hw | hw
      · have := hnum w hw; omega
      · have := i.numbers w hw; omega

/-- What the runners are given makes up the manifest. -/
theorem whole_supplied {acts : List (RunsAct TestSpec)} {rid : RunId} {flat : List (TestSpec × Nat)} {mx : Nat}
    {runners : List EndToEnd.Runner} (w : WholeRun acts rid flat mx runners) :
    (runners.flatMap fun r => supplied [script rid r.entity ((Runs.init : Runs TestSpec).run acts).events]).Perm
      ((Spec.firstAttempts flat).map received) := by
  have h1 := C52_all_delivered_partial acts rid flat w.exhausted w.manifest w.written w.answered
  have h2 := delivered_by_runner rid (runners.map (·.entity)) w.distinct _ w.all
  have h3 := (h2.trans h1).map received
  refine List.Perm.trans ?_ h3
  simp only [supplied_script, List.map_flatMap, List.flatMap_map]
  exact .refl _

theorem whole_wf {acts : List (RunsAct TestSpec)} {rid : RunId} {flat : List (TestSpec × Nat)} {mx : Nat}
    {runners : List EndToEnd.Runner} (w : WholeRun acts rid flat mx runners) (r : EndToEnd.Runner) (hr : r ∈ runners) :
    WellFormed [script rid r.entity ((Runs.init : Runs TestSpec).run acts).events] := by
  have hp := whole_supplied w
  have hsub : (supplied [script rid r.entity ((Runs.init : Runs TestSpec).run acts).events]).Sublist
      (runners.flatMap fun r => supplied [script rid r.entity ((Runs.init : Runs TestSpec).run acts).events]) := by
    obtain ⟨a, b, rfl⟩ := List.append_of_mem hr
    rw [List.flatMap_append, List.flatMap_cons]
    exact ((List.sublist_append_left _ _).trans (List.sublist_append_right _ _))
  have hid : ((runners.flatMap fun r => supplied [script rid r.entity
      ((Runs.init : Runs TestSpec).run acts).events]).map (·.spec.workId)).Nodup := by
    rw [(hp.map _).nodup_iff]
    have := w.unique
    simpa [Spec.firstAttempts, received, Function.comp_def] using this
  exact
    { some := by simp
      ends := by
        intro src hs
        simp only [List.mem_singleton] at hs
        subst hs
        exact (w.ended r hr).noMore
      once := (hsub.map _).nodup hid
      first := by
        intro t ht
        have := hp.subset (hsub.subset ht)
        simp only [Spec.firstAttempts, List.map_map, List.mem_map] at this
        obtain ⟨p, hp', rfl⟩ := this
        exact ⟨rfl, w.noFocus p hp'⟩ }

theorem flatMap_congr_mem {α β : Type} {l : List α} {f g : α → List β} (h : ∀ x ∈ l, f x = g x) : l.flatMap f = l.flatMap g := by
  induction l with
  | nil => rfl
  | cons x l ih =>
    rw [List.flatMap_cons, List.flatMap_cons, h x (List.mem_cons_self ..), ih fun y hy => h y (List.mem_cons_of_mem _ hy)]

theorem eq_of_nodup_map {α β : Type} {f : α → β} {l : List α} (h : (l.map f).Nodup) {x y : α} (hx : x ∈ l) (hy : y ∈ l)
    (e : f x = f y) : x = y := by
  induction l with
  | nil => cases hx
  | cons z l ih =>
    rw [List.map_cons, List.nodup_cons] at h
    rcases List.mem_cons.mp hx with h1 | h1 <;> rcases List.mem_cons.mp hy with h2 | h2
    · rw [h1, h2]
    · exact absurd (List.mem_map.mpr ⟨y, h2, by rw [← e, h1]⟩) h.1
    · exact absurd (List.mem_map.mpr ⟨x, h1, by rw [e, h2]⟩) h.1
    · exact ih h.2 h1 h2

/-- **C76.** When all runners have ended, each test of the manifest has been reported as a first attempt exactly once, by one of
the runners; no attempt at a test was reported twice, by the same or another runner; and nothing else was reported. -/
theorem C76_every_test_reported_once (acts : List (RunsAct TestSpec)) (rid : RunId) (flat : List (TestSpec × Nat)) (mx : Nat)
    (hmx : 1 ≤ mx) (runners : List EndToEnd.Runner) (w : WholeRun acts rid flat mx runners) :
    let reported := runners.flatMap fun r => r.reported mx rid ((Runs.init : Runs TestSpec).run acts).events
    ((reported.filter (·.runNumber == 1)).map (·.workId)).Perm (flat.map (·.1.workId)) ∧
    (reported.map keyOf).Nodup ∧
    ∀ x ∈ reported, x.workId ∈ flat.map (·.1.workId) ∧ 1 ≤ x.runNumber ∧ x.runNumber ≤ mx := by
  intro reported
  have hp := (whole_supplied w).map (·.spec.workId)
  have hflat : ((Spec.firstAttempts flat).map received).map (·.spec.workId) = flat.map (·.1.workId) := by
    simp [Spec.firstAttempts, received, Function.comp_def]
  rw [hflat] at hp
  have each := fun r (hr : r ∈ runners) => runner_reports mx hmx rid _ r (whole_wf w r hr) (w.ended r hr)
  refine ⟨?_, ?_, ?_⟩
  · have e : (reported.filter (·.runNumber == 1)).map (·.workId) =
        (runners.flatMap fun r => supplied [script rid r.entity ((Runs.init : Runs TestSpec).run acts).events]).map
          (·.spec.workId) := by
      simp only [reported]
      rw [List.filter_flatMap, List.map_flatMap, List.map_flatMap]
      exact flatMap_congr_mem fun r hr => (each r hr).1
    rw [e]
    exact hp
  · have hnd : ((runners.flatMap fun r => supplied [script rid r.entity
        ((Runs.init : Runs TestSpec).run acts).events]).map (·.spec.workId)).Nodup := hp.nodup_iff.mpr w.unique
    simp only [reported]
    rw [List.map_flatMap]
    clear hp reported
    revert each hnd
    generalize ((Runs.init : Runs TestSpec).run acts).events = evs
    clear w hflat
    induction runners with
    | nil => intros; simp
    | cons r rs ih =>
      intro each hnd
      rw [List.flatMap_cons, List.map_append, List.nodup_append] at hnd
      rw [List.flatMap_cons, List.nodup_append]
      refine ⟨(each r (List.mem_cons_self ..)).2.1, ih (fun r' h => each r' (List.mem_cons_of_mem _ h)) hnd.2.1, ?_⟩
      intro a ha b hb hab
      subst hab
      obtain ⟨x, hx, rfl⟩ := List.mem_map.mp ha
      obtain ⟨r', hr', hb⟩ := List.mem_flatMap.mp hb
      obtain ⟨y, hy, e⟩ := List.mem_map.mp hb
      have h1 := ((each r (List.mem_cons_self ..)).2.2 x hx).1
      have h2 := ((each r' (List.mem_cons_of_mem _ hr')).2.2 y hy).1
      refine hnd.2.2 x.workId h1 y.workId ?_ (Prod.mk.inj e).1.symm
      rw [List.map_flatMap]
      exact List.mem_flatMap.mpr ⟨r', hr', h2⟩
  · intro x hx
    obtain ⟨r, hr, hx⟩ := List.mem_flatMap.mp hx
    obtain ⟨h1, h2⟩ := (each r hr).2.2 x hx
    refine ⟨hp.subset ?_, h2⟩
    rw [List.map_flatMap]
    exact List.mem_flatMap.mpr ⟨r, hr, h1⟩

/-- **C76.** When all runners have ended and were told the end of work, each test of the manifest was attempted the greatest
number of times allowed, or was reported with an attempt without failures. -/
theorem C76_until_success (acts : List (RunsAct TestSpec)) (rid : RunId) (flat : List (TestSpec × Nat)) (mx : Nat)
    (hmx : 1 ≤ mx) (runners : List EndToEnd.Runner) (w : WholeRun acts rid flat mx runners)
    (hend : ∀ r ∈ runners, ∃ b ∈ (r.life mx rid ((Runs.init : Runs TestSpec).run acts).events).pipe.sys.delivered, b.eow = true)
    (t : TestSpec × Nat) (ht : t ∈ flat) :
    let reported := runners.flatMap fun r => r.reported mx rid ((Runs.init : Runs TestSpec).run acts).events
    ∃ j, (∃ x ∈ reported, x.workId = t.1.workId ∧ x.runNumber = j) ∧
      (j = mx ∨ ∀ x ∈ reported, x.workId = t.1.workId → x.runNumber = j → ∀ y ∈ x.results, y.failed = false) := by
  intro reported
  have hnod : (reported.map keyOf).Nodup := (C76_every_test_reported_once acts rid flat mx hmx runners w).2.1
  have hp := (whole_supplied w).map (·.spec.workId)
  have hflat : ((Spec.firstAttempts flat).map received).map (·.spec.workId) = flat.map (·.1.workId) := by
    simp [Spec.firstAttempts, received, Function.comp_def]
  rw [hflat] at hp
  have hmem : t.1.workId ∈ flat.map (·.1.workId) := List.mem_map_of_mem (f := fun x : TestSpec × Nat => x.1.workId) ht
  have hmem := hp.symm.subset hmem
  rw [List.map_flatMap] at hmem
  obtain ⟨r, hr, hmem⟩ := List.mem_flatMap.mp hmem
  obtain ⟨v, hv, hvid⟩ := List.mem_map.mp hmem
  have wf := whole_wf w r hr
  have he := w.ended r hr
  obtain ⟨b, hb, hbe⟩ := hend r hr
  have hpi : PI mx [script rid r.entity ((Runs.init : Runs TestSpec).run acts).events]
      (r.life mx rid ((Runs.init : Runs TestSpec).run acts).events).pipe := pi_life hmx wf r.batchSize r.schedule he.restarts
  have hfin := he.finished
  simp only [Life.finished, Bool.and_eq_true] at hfin
  have hkeys : (r.reported mx rid ((Runs.init : Runs TestSpec).run acts).events).map keyOf =
      (r.life mx rid ((Runs.init : Runs TestSpec).run acts).events).pipe.sys.given.map Fetch.key := finished_flow hpi hfin.1
  have hlog : (r.life mx rid ((Runs.init : Runs TestSpec).run acts).events).pipe.sys.log =
      r.reported mx rid ((Runs.init : Runs TestSpec).run acts).events := hpi.log
  obtain ⟨bs, hbs⟩ := sys_life_run
    (RunnerEnd.init [script rid r.entity ((Runs.init : Runs TestSpec).run acts).events] mx r.batchSize) r.schedule
  have hbs : (r.life mx rid ((Runs.init : Runs TestSpec).run acts).events).pipe.sys =
    Fetch.run (Fetch.init [script rid r.entity ((Runs.init : Runs TestSpec).run acts).events] mx) bs := hbs
  have hin : ∀ x, x ∈ r.reported mx rid ((Runs.init : Runs TestSpec).run acts).events → x ∈ reported :=
    fun x hx => List.mem_flatMap.mpr ⟨r, hr, hx⟩
  rw [hbs] at hb hkeys hlog
  rcases C59_attempts_until_success mx hmx _ wf bs b hb hbe v hv with ⟨w', hw', h1, h2⟩ | ⟨j, ⟨q, hq, h1, h2⟩, hnf⟩
  · refine ⟨mx, ?_, .inl rfl⟩
    have : Fetch.key w' ∈ (r.reported mx rid ((Runs.init : Runs TestSpec).run acts).events).map keyOf :=
      hkeys ▸ List.mem_map_of_mem hw'
    obtain ⟨x, hx, e⟩ := List.mem_map.mp this
    exact ⟨x, hin x hx, by rw [(Prod.mk.inj e).1, h1, hvid], by rw [(Prod.mk.inj e).2, h2]⟩
  · rw [hlog] at hq hnf
    refine ⟨j, ⟨q, hin q hq, h1.trans hvid, h2⟩, .inr ?_⟩
    intro x hx hxid hxj y hy
    have : x = q := eq_of_nodup_map hnod hx (hin q hq) (by simp [keyOf, hxid, hxj, h1, h2, hvid])
    subst this
    cases hf : y.failed with
    | false => rfl
    | true =>
      have : Retries.Spec.failedOn (r.reported mx rid ((Runs.init : Runs TestSpec).run acts).events) v.spec.workId j = true := by
        simp only [Retries.Spec.failedOn, List.any_eq_true, Bool.and_eq_true, beq_iff_eq]
        exact ⟨x, hq, ⟨h1, h2⟩, y, hy, hf⟩
      rw [this] at hnf
      cases hnf

/-! ### A whole run

Two workers and two tests; each is given one of them, and then the end of work. The tests fail and are retried; the native
runner of worker 1 fails on that attempt. -/

def e2eWorker (n : Nat) : Entity := ⟨n, .runner ⟨n, 1⟩⟩

def e2eJoin (n : Nat) : JoinParams := ⟨"run", e2eWorker n, ⟨1, by decide⟩, .byTest, "cmd"⟩

def e2eTests : List (TestSpec × Nat) := [(⟨10, 1, none⟩, 0), (⟨11, 2, none⟩, 0)]

def e2eQueue : List (RunsAct TestSpec) :=
  [.join (e2eJoin 1), .join (e2eJoin 2), .resume 0 .notFound true, .resume 0 .notFound true, .resume 1 .notFound true,
    .request "run" (.addManifest e2eTests "md"),
    .request "run" (.nextWork (e2eWorker 1)), .resume 1 .notFound true, .resume 1 .notFound true,
    .request "run" (.nextWork (e2eWorker 2)), .resume 1 .notFound true, .resume 1 .notFound true,
    .resume 1 .notFound true, .resume 1 .notFound true, .resume 1 .notFound true, .resume 1 .notFound true,
    .resume 1 .notFound true,
    .request "run" (.nextWork (e2eWorker 1)), .resume 1 .notFound true, .resume 1 .notFound true, .resume 1 .notFound true]

def e2eRound (r : List Result) : List RunnerEnd.Act :=
  [.pipe .fetch, .pipe .produce, .pipe .produce, .pipe .consume, .pipe .consume, .pipe (.result r), .pipe .send, .pipe .take]

def e2eCrash : List RunnerEnd.Act :=
  [.pipe .fetch, .pipe .produce, .pipe .produce, .pipe .consume, .pipe .consume, .pipe .crash, .pipe .send, .pipe .take]

def e2eRunners : List EndToEnd.Runner :=
  [⟨e2eWorker 1, 4, (List.replicate 3 (e2eRound [⟨1, true⟩])).flatten ++ (List.replicate 12 e2eCrash).flatten ++ [.notify]⟩,
   ⟨e2eWorker 2, 4, e2eRound [⟨1, true⟩] ++ e2eRound [⟨1, true⟩] ++ (List.replicate 10 (e2eRound [⟨1, false⟩])).flatten ++ [.notify]⟩]

def e2eEvents : List (Event TestSpec) :=
  ((Runs.init : Runs TestSpec).run e2eQueue).events


set_option maxRecDepth 20000 in
theorem e2e_whole : WholeRun e2eQueue "run" e2eTests 2 e2eRunners where
  exhausted := by decide
  manifest := by decide
  written := by decide
  answered := by decide
  unique := by decide
  noFocus := by decide
  distinct := by decide
  all := by
    have h : ∀ ev ∈ e2eEvents, (match ev with
      | .delivered _ e _ _ => decide (e ∈ e2eRunners.map (·.entity))
      | _ => true) = true := by decide
    intro e items eow hm
    have := h _ hm
    simpa using this
  ended := by
    have hs : ∀ r ∈ e2eRunners, (r.life 2 "run" e2eEvents).finished = true ∧ (r.life 2 "run" e2eEvents).failed = false ∧
        (r.life 2 "run" e2eEvents).pipe.sys.failed = false ∧
        supplied (r.life 2 "run" e2eEvents).pipe.sys.fetcher.sources = [] := by decide
    intro r hr
    obtain ⟨h1, h2, h3, h4⟩ := hs r hr
    refine ⟨h1, h2, h3, h4, ?_⟩
    simp only [e2eRunners, List.mem_cons, List.not_mem_nil, or_false] at hr
    rcases hr with rfl | rfl
    · have : script "run" (e2eWorker 1) e2eEvents = [.bundle ⟨[⟨⟨10, 1, none⟩, 1⟩], false⟩, .bundle ⟨[], true⟩] := by decide
      show Ends (script "run" (e2eWorker 1) e2eEvents)
      rw [this]
      simp [Ends]
    · have : script "run" (e2eWorker 2) e2eEvents = [.bundle ⟨[⟨⟨11, 2, none⟩, 1⟩], true⟩] := by decide
      show Ends (script "run" (e2eWorker 2) e2eEvents)
      rw [this]
      simp [Ends]

set_option maxRecDepth 20000 in
example : (e2eRunners.flatMap fun r => r.reported 2 "run" e2eEvents) =
    [⟨10, 1, [⟨1, true⟩]⟩, ⟨10, 2, [⟨0, true⟩]⟩, ⟨11, 1, [⟨1, true⟩]⟩, ⟨11, 2, [⟨1, false⟩]⟩] := by decide

set_option maxRecDepth 20000 in
example : ∀ r ∈ e2eRunners, ∃ b ∈ (r.life 2 "run" e2eEvents).pipe.sys.delivered, b.eow = true := by decide

example := C76_every_test_reported_once e2eQueue "run" e2eTests 2 (by decide) e2eRunners e2e_whole

end Abq.Props
