import Verif.Props.Recording
import Verif.Props.Whole
/-!
# C145: from the manifest to the exit code, through the queue in one piece

The runners of C115 with the queue of C144: what is recorded is not assumed, but follows from what the registry accepted and what the
queue took from the runners.
-/

namespace Abq.Props
open Abq.Recording Abq.Fetch Abq.Whole
open Abq.Results (Bytes)
open Abq.Results.Spec (planned writesOk)
open Abq.Retries (TestSpec)
variable {T : Type}

/-- The registry has done what it was asked. -/
theorem registry_calls (enc : Report.Line → Bytes) (noop : Bool) (acts : List (Recording.Act T)) :
    ((init T noop).run enc acts).registry = Runs.init.run (calls acts) := by
  suffices h : ∀ (σ : Recording.State T) acts, (σ.run enc acts).registry = σ.registry.run (calls acts) from h _ acts
  intro σ acts
  induction acts generalizing σ with
  | nil => rfl
  | cons a acts ih =>
    rw [State.run, List.foldl_cons, ← State.run, ih]
    cases a with
    | call a => rfl
    | report rid gs =>
      simp only [State.step]
      split <;> rfl
    | handle i =>
      simp only [State.step]
      split
      · rfl
      · rename_i h _
        cases h <;> rfl
    | task => rfl
    | offload => rfl

/-- What is due are the sizes of manifests and the batches. -/
theorem due_perm (rid : RunId) (log : List (Obs T)) :
    (due rid log).Perm ((Report.summaries (due rid log)).map .summary ++ (batches rid log).map .results) := by
  induction log with
  | nil => exact List.Perm.refl _
  | cons o log ih =>
    have hsum : ∀ n, (Report.Line.summary n :: due rid log).Perm
        ((Report.summaries (.summary n :: due rid log)).map .summary ++ (batches rid log).map .results) := fun n => ih.cons _
    have hres : ∀ gs, (Report.Line.results gs :: due rid log).Perm
        ((Report.summaries (.results gs :: due rid log)).map .summary ++ (gs :: batches rid log).map .results) := fun gs =>
      (ih.cons _).trans List.perm_middle.symm
    cases o with
    | registry ev =>
      cases ev with
      | manifest r flat b =>
        cases b with
        | false => exact ih
        | true =>
          by_cases h : r = rid
          · simpa [due, batches, List.filterMap_cons, h] using hsum flat.length
          · simpa [due, batches, List.filterMap_cons, h] using ih
      | emptyManifest r b =>
        cases b with
        | false => exact ih
        | true =>
          by_cases h : r = rid
          · simpa [due, batches, List.filterMap_cons, h] using hsum 0
          · simpa [due, batches, List.filterMap_cons, h] using ih
      | _ => exact ih
    | took r gs =>
      by_cases h : r = rid
      · simpa [due, batches, List.filterMap_cons, h] using hres gs
      · simpa [due, batches, List.filterMap_cons, h] using ih
    | file => exact ih

/-- A client that gets exactly what the queue took for the run makes a complete report of it (C115). -/
theorem report_of_lines (acts : List (Recording.Act TestSpec)) (rid : RunId) (flat : List (TestSpec × Nat)) (mx : Nat) (hmx : 1 ≤ mx)
    (runners : List EndToEnd.Runner) (ds : EndToEnd.Runner → List (Delivery.Act Retries.Results))
    (detail : Retries.Results → Report.Group) (name : Nat → String) (w : Arrived (calls acts) rid flat mx runners ds detail name)
    (c : Codec Report.Line) (enc : Report.Line → Bytes) (noop : Bool)
    (htook : (batches rid ((init TestSpec noop).run enc acts).log).Perm
      (runners.flatMap fun r => (sender ds r).received.map fun batch => batch.map detail))
    (ts : List Attempt) (lines : List Report.Line) (hfetch : fetch c ts = .ok lines)
    (hl : lines.Perm (due rid ((init TestSpec noop).run enc acts).log))
    (sort : List Report.Group → List Report.Group) (hs : Report.IsSort sort) (rs : List Report.Reporter) (hf : ∀ r ∈ rs, r.Fine) :
    ∃ o code gs, report c sort rs ts = .ended o ∧ o.result = .ok code ∧
      gs.Perm ((reported (calls acts) rid mx runners).map detail) ∧
      o.reporters.map (·.log) = rs.map (fun r => r.log ++ Report.pushes gs ++ [.afterAll, .finish]) ∧
      (code = 0 ↔ ∀ t ∈ flat, ∃ x ∈ reported (calls acts) rid mx runners, x.workId = t.1.workId ∧ Passed x) := by
  have hsum : Report.summaries (due rid ((init TestSpec noop).run enc acts).log) = [flat.length] := by
    have hle := C144_one_manifest enc noop acts rid
    have hm : flat.length ∈ Report.summaries (due rid ((init TestSpec noop).run enc acts).log) := by
      rw [summaries_due, (inv_run enc noop acts).asked, registry_calls]
      obtain ⟨ev, hev, he⟩ := List.mem_filterMap.1 w.whole.manifest
      refine List.mem_filterMap.2 ⟨ev, hev, ?_⟩
      cases ev with
      | manifest r' flat' added =>
        cases added with
        | false => simp [Abq.Spec.manifestIn] at he
        | true =>
          by_cases hr : r' = rid
          · simp [Abq.Spec.manifestIn, hr] at he; simp [hr, he]
          · simp [Abq.Spec.manifestIn, hr] at he
      | _ => simp [Abq.Spec.manifestIn] at he
    revert hm hle
    generalize Report.summaries (due rid ((init TestSpec noop).run enc acts).log) = l
    intro hle hm
    match l, hm, hle with
    | [x], hm, _ => rw [List.mem_singleton.1 hm]
  have hrec : lines.Perm (toRecord flat runners ds detail) := by
    refine (hl.trans (due_perm rid _)).trans ?_
    rw [hsum]
    refine List.Perm.cons _ ?_
    have := htook.map Report.Line.results
    rw [List.map_flatMap] at this
    simpa [Function.comp_def] using this
  obtain ⟨code, gs, h1, h2, h3, h4⟩ := C115_exit_code (calls acts) rid flat mx hmx runners ds detail name w lines hrec sort hs rs hf
  exact ⟨Report.process sort rs lines, code, gs, by rw [report, hfetch], h1, h2, h3, h4⟩

/-- **C145.** From the manifest to the exit code of `abq report`, through the registry, the runners and the file of results. Let the
registry accept the manifest of a run and hand out its tests, and the runners end (`Arrived`, as in C115); let the queue take for the
run the batches its runners sent; and let it have begun all recordings that are due for the run when a client asks, again and again
until it is answered with a stream (as in C98). Then its report is complete, and its exit code is 0 iff each test of the manifest passed
in one of its attempts. -/
theorem C145_report (acts : List (Recording.Act TestSpec)) (rid : RunId) (flat : List (TestSpec × Nat)) (mx : Nat) (hmx : 1 ≤ mx)
    (runners : List EndToEnd.Runner) (ds : EndToEnd.Runner → List (Delivery.Act Retries.Results))
    (detail : Retries.Results → Report.Group) (name : Nat → String) (w : Arrived (calls acts) rid flat mx runners ds detail name)
    (c : Codec Report.Line) (enc : Report.Line → Bytes) (noop : Bool)
    (htook : (batches rid ((init TestSpec noop).run enc acts).log).Perm
      (runners.flatMap fun r => (sender ds r).received.map fun batch => batch.map detail))
    (hsafe : ∀ x ∈ acts, x.Safe rid) (a b d : List (Obs TestSpec)) (r : Nat) (bytes : Bytes)
    (h : ((init TestSpec noop).run enc acts).log = a ++ .file rid (.asked r) :: b ++ .file rid (.stream r bytes) :: d)
    (hok : writesOk (fileEvents rid (a ++ b)))
    (hall : (planned (fileEvents rid a)).length = (due rid ((init TestSpec noop).run enc acts).log).length)
    (henc : ∀ l ∈ due rid a, c.Lawful l ∧ onWire (enc l) = c.encode l)
    (hsz : bytes.length < 2 ^ 32)
    (pre : List Attempt) (t : Attempt) (post : List Attempt) (broken : Bool)
    (hpre : ∀ q ∈ pre ++ [t], (∃ k, 1 ≤ k ∧ k ≤ 5 ∧ q.connects k = true) ∧ q.sent = true)
    (hp : ∀ q ∈ pre, q.reply = some .pending)
    (ht : t.reply = some (.streaming ⟨Wire.streamBytes bytes.length (onWire bytes), broken⟩))
    (sort : List Report.Group → List Report.Group) (hs : Report.IsSort sort) (rs : List Report.Reporter) (hf : ∀ r ∈ rs, r.Fine) :
    ∃ o code gs, report c sort rs (pre ++ t :: post) = .ended o ∧ o.result = .ok code ∧
      gs.Perm ((reported (calls acts) rid mx runners).map detail) ∧
      o.reporters.map (·.log) = rs.map (fun r => r.log ++ Report.pushes gs ++ [.afterAll, .finish]) ∧
      (code = 0 ↔ ∀ t ∈ flat, ∃ x ∈ reported (calls acts) rid mx runners, x.workId = t.1.workId ∧ Passed x) := by
  have hlen : (planned (fileEvents rid a)).length ≤ (due rid a).length := by
    obtain ⟨h1, more, h2⟩ := past_run enc noop acts rid a (.file rid (.asked r) :: b ++ .file rid (.stream r bytes) :: d)
      (by rw [h, List.append_assoc])
    have := h2.length_eq
    rw [List.length_append, List.length_take] at this
    omega
  have hdue : due rid ((init TestSpec noop).run enc acts).log = due rid a ++ (due rid b ++ due rid d) := by
    rw [h]; simp [due]
  have hz : (due rid b ++ due rid d).length = 0 := by
    rw [hdue, List.length_append] at hall
    omega
  have hz := List.append_eq_nil_iff.1 (List.eq_nil_of_length_eq_zero hz)
  rw [hz.1, hz.2, List.append_nil, List.append_nil] at hdue
  obtain ⟨lines, hfetch, hl⟩ := C144_served_all_partial c enc noop acts rid hsafe a b d r bytes h hok
    (by rw [hall, hdue]) hz.1 henc hsz pre t post broken hpre hp ht
  rw [← hdue] at hl
  exact report_of_lines acts rid flat mx hmx runners ds detail name w c enc noop htook _ lines hfetch hl sort hs rs hf

/-! ## A case -/

/-- Questions that are not about handing out tests. -/
def isExtra : Event TestSpec → Bool
  | .write .. => true
  | .read .. => true
  | .complete .. => true
  | _ => false

/-- The case of C115 with such questions asked in between. -/
theorem arrived_extra {acts acts' : List (RunsAct TestSpec)} {rid : RunId} {flat : List (TestSpec × Nat)} {mx : Nat}
    {runners : List EndToEnd.Runner} {ds : EndToEnd.Runner → List (Delivery.Act Retries.Results)}
    {detail : Retries.Results → Report.Group} {name : Nat → String} (w : Arrived acts rid flat mx runners ds detail name)
    (hphase : Abq.Spec.phaseOf ((Runs.init : Runs TestSpec).run acts') rid = some .exhausted)
    (hpend : ((Runs.init : Runs TestSpec).run acts').pending.flatMap (Abq.Spec.inFlight rid) = [])
    (hev : ((Runs.init : Runs TestSpec).run acts').events.filter (fun ev => !isExtra ev) = ((Runs.init : Runs TestSpec).run acts).events) :
    Arrived acts' rid flat mx runners ds detail name := by
  have hmap : ∀ {β : Type} (f : Event TestSpec → Option β), (∀ ev, isExtra ev = true → f ev = none) →
      ((Runs.init : Runs TestSpec).run acts').events.filterMap f = ((Runs.init : Runs TestSpec).run acts).events.filterMap f := by
    intro β f hf
    rw [← hev, List.filterMap_filter]
    congr 1
    funext ev
    cases he : isExtra ev with
    | false => simp
    | true => simp [hf ev he]
  have hans : ∀ e, EndToEnd.answersTo rid e ((Runs.init : Runs TestSpec).run acts').events =
      EndToEnd.answersTo rid e ((Runs.init : Runs TestSpec).run acts).events := by
    intro e
    refine hmap _ fun ev he => ?_
    cases ev <;> first | rfl | cases he
  have hscript : ∀ e, EndToEnd.script rid e ((Runs.init : Runs TestSpec).run acts').events =
      EndToEnd.script rid e ((Runs.init : Runs TestSpec).run acts).events := fun e => by simp only [EndToEnd.script, hans]
  have hlife : ∀ r : EndToEnd.Runner, r.life mx rid ((Runs.init : Runs TestSpec).run acts').events =
      r.life mx rid ((Runs.init : Runs TestSpec).run acts).events := fun r => by simp only [EndToEnd.Runner.life, hscript]
  have hrep1 : ∀ r : EndToEnd.Runner, r.reported mx rid ((Runs.init : Runs TestSpec).run acts').events =
      r.reported mx rid ((Runs.init : Runs TestSpec).run acts).events := fun r => by simp only [EndToEnd.Runner.reported, hlife]
  have hrep : reported acts' rid mx runners = reported acts rid mx runners := by simp only [reported, hrep1]
  have hmem : ∀ ev ∈ ((Runs.init : Runs TestSpec).run acts').events, isExtra ev = false →
      ev ∈ ((Runs.init : Runs TestSpec).run acts).events := by
    intro ev hm he
    rw [← hev]
    exact List.mem_filter.2 ⟨hm, by simp [he]⟩
  refine
    { whole :=
        { exhausted := hphase
          manifest := by
            rw [Abq.Spec.manifests, hmap _ fun ev he => ?_]
            · exact w.whole.manifest
            · cases ev <;> first | rfl | cases he
          written := by
            refine List.flatMap_eq_nil_iff.2 fun ev hm => ?_
            cases he : isExtra ev with
            | false => exact List.flatMap_eq_nil_iff.1 w.whole.written ev (hmem ev hm he)
            | true => cases ev <;> first | rfl | cases he
          answered := hpend
          unique := w.whole.unique
          noFocus := w.whole.noFocus
          distinct := w.whole.distinct
          all := fun e items eow hm => w.whole.all e items eow (hmem _ hm rfl)
          ended := fun r hr => by
            have := w.whole.ended r hr
            rw [← hlife] at this
            exact ⟨this.finished, this.restarts, this.fetches, this.read, by rw [hscript]; exact this.noMore⟩ }
      sent := fun r hr => by rw [hrep1]; exact w.sent r hr
      ended := w.ended
      ids := w.ids
      work := by rw [hrep]; exact w.work
      outcome := by rw [hrep]; exact w.outcome
      single := by rw [hrep]; exact w.single
      crashes := by rw [hrep]; exact w.crashes
      stamped := by rw [hrep]; exact w.stamped
      named := by rw [hrep]; exact w.named
      distinct := w.distinct
      clock := by rw [hrep]; exact w.clock }

def wholeBatchA : List Report.Group :=
  [⟨10, 1, [⟨"a", .failure, 5, none, ⟨1, 1⟩, 1⟩], "", none⟩, ⟨10, 2, [⟨"a", .success, 5, none, ⟨1, 1⟩, 2⟩], "", none⟩]

def wholeBatchB : List Report.Group :=
  [⟨11, 1, [⟨"b", .failure, 5, none, ⟨1, 1⟩, 1⟩], "", none⟩, ⟨11, 2, [⟨"b", .success, 5, none, ⟨1, 1⟩, 2⟩], "", none⟩]

/-- The queue of `e2eQueue`. The batches of both runners come and are recorded, the first before the size of the manifest. Then the
runners say that they are done. -/
def wholeQueueActs : List (Recording.Act TestSpec) :=
  e2eQueue.map .call ++
  [.report "run" wholeBatchA, .report "run" wholeBatchB, .handle 1, .handle 0, .handle 0] ++ List.replicate 24 (.task "run" 0 {}) ++
  [.call (.request "run" (.complete (e2eWorker 1) 1)), .call (.request "run" (.complete (e2eWorker 2) 1)),
   .call (.request "run" .readCell)]

def wholeText (l : Report.Line) : Bytes := if l = wholeOfA then [1, 9] else if l = .summary 2 then [2, 9] else [3, 9]

/-- The client asks, after it had to wait once. -/
def wholeQueueAsked : List (Recording.Act TestSpec) := wholeQueueActs ++ [.handle 0, .task "run" 0 {}]

def wholeQueueAttempts : List Attempt :=
  [⟨fun _ => true, true, some .pending⟩,
   ⟨fun k => k == 2, true, some (.streaming ⟨[0, 0, 0, 9, 3, 9, 10, 2, 9, 10, 1, 9, 10], false⟩)⟩]

set_option maxRecDepth 20000 in
theorem wholeQueue_arrived : Arrived (calls wholeQueueAsked) "run" e2eTests 2 (wholeRunners .passes) wholeSends wholeDetail wholeName :=
  arrived_extra (whole_arrived .passes) (by decide) (by decide) rfl

set_option maxRecDepth 20000 in
/-- The report is made of what came through the queue, with exit code 0. -/
example : ∃ o, Fetch.report wholeCodec sortGroups [quiet] wholeQueueAttempts = .ended o ∧ o.result = .ok 0 := by
  obtain ⟨o, code, gs, h1, h2, -, -, h3⟩ := C145_report wholeQueueAsked "run" e2eTests 2 (by decide) _ _ _ _ wholeQueue_arrived
    wholeCodec wholeText false
    (by
      have e1 : batches "run" ((init TestSpec false).run wholeText wholeQueueAsked).log = [wholeBatchA, wholeBatchB] := by decide
      have e2 : ((wholeRunners .passes).flatMap fun r => (sender wholeSends r).received.map fun batch => batch.map wholeDetail) =
          [wholeBatchA, wholeBatchB] := by decide
      rw [e1, e2])
    (by decide) ((init TestSpec false).run wholeText wholeQueueActs).log [] [] 0 [3, 9, 10, 2, 9, 10, 1, 9, 10] rfl
    (by unfold writesOk; decide) (by decide)
    (by
      intro l hl
      have hl : l ∈ [Report.Line.summary 2, wholeOfA, wholeOfB] :=
        (by decide : ∀ l ∈ due "run" ((init TestSpec false).run wholeText wholeQueueActs).log,
          l ∈ [Report.Line.summary 2, wholeOfA, wholeOfB]) l hl
      simp only [List.mem_cons, List.not_mem_nil, or_false] at hl
      rcases hl with rfl | rfl | rfl
      all_goals exact ⟨⟨by decide, by decide, by decide, by decide⟩, by decide⟩)
    (by decide) [⟨fun _ => true, true, some .pending⟩]
    ⟨fun k => k == 2, true, some (.streaming ⟨[0, 0, 0, 9, 3, 9, 10, 2, 9, 10, 1, 9, 10], false⟩)⟩ [] false
    (by
      intro q hq
      have hq : q ∈ wholeQueueAttempts := hq
      simp only [wholeQueueAttempts, List.mem_cons, List.not_mem_nil, or_false] at hq
      rcases hq with rfl | rfl
      · exact ⟨⟨1, by omega, by omega, rfl⟩, rfl⟩
      · exact ⟨⟨2, by omega, by omega, rfl⟩, rfl⟩)
    (by simp) rfl sortGroups Report.isSort_mergeSort [quiet] (by simp [quiet, Report.Reporter.Fine])
  refine ⟨o, h1, ?_⟩
  rw [h2, h3.2 ?_]
  have : reported (calls wholeQueueAsked) "run" 2 (wholeRunners .passes) = reported e2eQueue "run" 2 (wholeRunners .passes) := by decide
  rw [this, whole_reported]
  simp [e2eTests, Passed, wholeResult]

end Abq.Props
