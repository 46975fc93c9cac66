import Verif.Proof.Green
import Verif.Spec.Green
import Verif.Props.EndToEnd
import Verif.Props.Recorded

/-!
# C102: what the exit code of a report says of the suite

Everything put together: the queue that hands out the manifest and the runners that run it (C76), the file in which the queue
records what they report (C98), and the report made of it (C48).
-/

namespace Abq.Props
open Abq.Fetch Abq.Green
open Abq.EndToEnd (WholeRun)
open Abq.Pipe (keyOf)
open Abq.Retries (TestSpec)
open Abq.Results (Bytes Ev)
open Abq.Results.Spec

/-- The groups reported of a whole run are those of one run of a suite. -/
theorem whole_oneRun {acts : List (RunsAct TestSpec)} {rid : RunId} {flat : List (TestSpec × Nat)} {mx : Nat} (hmx : 1 ≤ mx)
    {runners : List EndToEnd.Runner} (w : WholeRun acts rid flat mx runners) (say : Retries.Results → Report.Group)
    (hsay : ∀ x, Says x (say x)) {gs : List Report.Group}
    (hgs : gs.Perm ((runners.flatMap fun r => r.reported mx rid ((Runs.init : Runs TestSpec).run acts).events).map say))
    (hsane : Plausible gs) : Report.OneRun gs := by
  obtain ⟨_, hnod, hnum⟩ := C76_every_test_reported_once acts rid flat mx hmx runners w
  refine ⟨?_, ?_, hsane.clock, hsane.owner, hsane.once⟩
  · intro g hg
    obtain ⟨x, hx, rfl⟩ := List.mem_map.1 (hgs.mem_iff.1 hg)
    rw [(hsay x).attempt]
    exact (hnum x hx).2.1
  · refine hgs.symm.pairwise ?_ fun h h' => h ⟨h'.1.symm, h'.2.symm⟩
    rw [List.pairwise_map]
    rw [List.Nodup, List.pairwise_map] at hnod
    refine hnod.imp ?_
    rintro x y hxy ⟨h1, h2⟩
    rw [(hsay x).work, (hsay y).work] at h1
    rw [(hsay x).attempt, (hsay y).attempt] at h2
    exact hxy (by simp [keyOf, h1, h2])

theorem isFailLike_false {s : Summary.Status} :
    s.isFailLike = false ↔ s = .success ∨ s = .skipped ∨ s = .pending ∨ s = .todo := by
  cases s <;> simp [Summary.Status.isFailLike]

/-- **C102**, exactly. Let the runners run a suite to its end, and the queue record all they report and the size of the manifest.
Then a client that asks gets a report, in which there is a first attempt at every test of the manifest; and its exit code is 0
exactly if, for every test of the manifest, whatever was reported in the first attempt passed in one of the attempts, and there are
results, whether good or bad, of each test on which the native runner crashed. -/
theorem C102_exit_code_exact (acts : List (RunsAct TestSpec)) (rid : RunId) (flat : List (TestSpec × Nat)) (mx : Nat)
    (hmx : 1 ≤ mx) (runners : List EndToEnd.Runner) (w : WholeRun acts rid flat mx runners)
    -- what the runners report
    (say : Retries.Results → Report.Group) (hsay : ∀ x, Says x (say x)) (all : List Report.Line)
    (hall : (Report.received all).Perm
      ((runners.flatMap fun r => r.reported mx rid ((Runs.init : Runs TestSpec).run acts).events).map say))
    (hsum : Report.summaries all = [flat.length]) (hsane : Plausible (Report.received all))
    -- is recorded by the queue, and streamed to a client
    (c : Codec Report.Line) (lineOf : Nat → Report.Line) (noop : Bool) (racts : List Results.Act)
    (hsafe : ∀ a ∈ racts, Safe a) (a b d : List Ev) (r : Nat) (bytes : Bytes)
    (hev : (Results.run (Results.init noop [] none) racts).events = a ++ .asked r :: b ++ .stream r bytes :: d)
    (hok : writesOk (a ++ b)) (hb : planned b = [])
    (henc : ∀ p ∈ planned a, c.Lawful (lineOf p.1) ∧ onWire p.2 = c.encode (lineOf p.1))
    (hrec : all = (planned a).map fun p => lineOf p.1) (hsz : bytes.length < 2 ^ 32)
    (pre : List Attempt) (t : Attempt) (post : List Attempt) (broken : Bool)
    (hpre : ∀ q ∈ pre ++ [t], (∃ k, 1 ≤ k ∧ k ≤ 5 ∧ q.connects k = true) ∧ q.sent = true)
    (hp : ∀ q ∈ pre, q.reply = some .pending)
    (ht : t.reply = some (.streaming ⟨Wire.streamBytes bytes.length (onWire bytes), broken⟩))
    (sort : List Report.Group → List Report.Group) (hs : Report.IsSort sort) (rs : List Report.Reporter)
    (hf : ∀ r ∈ rs, r.Fine) :
    ∃ o code, report c sort rs (pre ++ t :: post) = .ended o ∧ o.result = .ok code ∧
      (∀ t ∈ flat, ∃ g ∈ Report.received all, g.workId = t.1.workId ∧ g.runNumber = 1) ∧
      (code = 0 ↔ ∀ t ∈ flat, FirstsPassed (Report.received all) t.1.workId) := by
  obtain ⟨hfirst, hnod, hnum⟩ := C76_every_test_reported_once acts rid flat mx hmx runners w
  have h1 := whole_oneRun hmx w say hsay hall hsane
  have hhas : ∀ t ∈ flat, ∃ g ∈ Report.received all, g.workId = t.1.workId ∧ g.runNumber = 1 := by
    intro t ht
    have hm : t.1.workId ∈ flat.map (·.1.workId) := List.mem_map_of_mem (f := fun x : TestSpec × Nat => x.1.workId) ht
    obtain ⟨x, hx, hxw⟩ := List.mem_map.1 (hfirst.mem_iff.2 hm)
    obtain ⟨hx, hn⟩ := List.mem_filter.1 hx
    refine ⟨say x, hall.mem_iff.2 (List.mem_map_of_mem hx), ?_, ?_⟩
    · rw [(hsay x).work, hxw]
    · rw [(hsay x).attempt]; simpa using hn
  have hof : ∀ g ∈ Report.received all, ∃ t ∈ flat, g.workId = t.1.workId := by
    intro g hg
    obtain ⟨x, hx, rfl⟩ := List.mem_map.1 (hall.mem_iff.1 hg)
    obtain ⟨t, ht, e⟩ := List.mem_map.1 (hnum x hx).1
    exact ⟨t, ht, by rw [(hsay x).work, e]⟩
  have hw : ∀ v, v ∈ flat.map (·.1.workId) ↔ ∃ g ∈ Report.received all, g.workId = v := by
    intro v
    constructor
    · intro hv
      obtain ⟨t, ht, rfl⟩ := List.mem_map.1 hv
      obtain ⟨g, hg, e, _⟩ := hhas t ht
      exact ⟨g, hg, e⟩
    · rintro ⟨g, hg, rfl⟩
      obtain ⟨t, ht, e⟩ := hof g hg
      exact List.mem_map.2 ⟨t, ht, e.symm⟩
  obtain ⟨lines, code, hrep, hcode, hrp⟩ := report_recorded c lineOf noop racts hsafe a b d r bytes hev hok hb henc hsz pre t post
    broken hpre hp ht sort hs rs hf all hrec (flat.map (·.1.workId)) w.unique hw (by rw [List.length_map]; exact hsum)
  refine ⟨_, code, hrep, hcode, hhas, ?_⟩
  rw [C48_exit_code_exact sort hs rs _ (h1.perm hrp) code hcode, sorted_the_same sort hs hrp h1,
    resolved_sorted hsane.alone hsane.stamped sort hs]
  simp only [hrp.mem_iff]
  constructor
  · rintro ⟨hcrash, hpass⟩ t ht g hg hgw u hu
    split
    · rename_i hst
      obtain ⟨g', hg', hw', hid⟩ := hcrash g hg u hu hst
      exact ⟨g', hg', hw'.trans hgw, hid⟩
    · rename_i hst
      intro hg1
      have hgid : g.has u.id := ⟨u, hu, rfl, hst⟩
      obtain ⟨g', hg', v, hv, hvid, hvst, hvf⟩ := hpass u.id ⟨g, hg, hg1, hgid⟩
      refine ⟨g', hg', ?_, v, hv, hvid, isFailLike_false.1 hvf⟩
      rw [← hgw]
      exact hsane.owner g' hg' g hg u.id ⟨v, hv, hvid, hvst⟩ hgid
  · intro h
    constructor
    · intro g hg u hu hst
      obtain ⟨t, ht, hgw⟩ := hof g hg
      have := h t ht g hg hgw u hu
      rw [if_pos hst] at this
      obtain ⟨g', hg', hw', hid⟩ := this
      exact ⟨g', hg', hw'.trans hgw.symm, hid⟩
    · rintro id ⟨g, hg, hg1, u, hu, rfl, hst⟩
      obtain ⟨t, ht, hgw⟩ := hof g hg
      have := h t ht g hg hgw u hu
      rw [if_neg hst] at this
      obtain ⟨g', hg', _, v, hv, hvid, hvp⟩ := this hg1
      refine ⟨g', hg', v, hv, hvid, ?_, isFailLike_false.2 hvp⟩
      rcases hvp with h | h | h | h <;> rw [h] <;> decide

/-- **C102**, part. Let the runners run a suite to its end, and the queue record all they report and the size of the manifest.
Then a client that asks gets a report, in which there is a first attempt at every test of the manifest; and its exit code is 0
exactly if every test of the manifest passed.

Missing: runs that do not get to their end, and native runners that are not as `Sane` says, see `C102_full_statement_fails`. -/
theorem C102_exit_code_partial (acts : List (RunsAct TestSpec)) (rid : RunId) (flat : List (TestSpec × Nat)) (mx : Nat)
    (hmx : 1 ≤ mx) (runners : List EndToEnd.Runner) (w : WholeRun acts rid flat mx runners)
    -- what the runners report
    (say : Retries.Results → Report.Group) (hsay : ∀ x, Says x (say x)) (all : List Report.Line)
    (hall : (Report.received all).Perm
      ((runners.flatMap fun r => r.reported mx rid ((Runs.init : Runs TestSpec).run acts).events).map say))
    (hsum : Report.summaries all = [flat.length]) (hsane : Sane (Report.received all))
    -- is recorded by the queue, and streamed to a client
    (c : Codec Report.Line) (lineOf : Nat → Report.Line) (noop : Bool) (racts : List Results.Act)
    (hsafe : ∀ a ∈ racts, Safe a) (a b d : List Ev) (r : Nat) (bytes : Bytes)
    (hev : (Results.run (Results.init noop [] none) racts).events = a ++ .asked r :: b ++ .stream r bytes :: d)
    (hok : writesOk (a ++ b)) (hb : planned b = [])
    (henc : ∀ p ∈ planned a, c.Lawful (lineOf p.1) ∧ onWire p.2 = c.encode (lineOf p.1))
    (hrec : all = (planned a).map fun p => lineOf p.1) (hsz : bytes.length < 2 ^ 32)
    (pre : List Attempt) (t : Attempt) (post : List Attempt) (broken : Bool)
    (hpre : ∀ q ∈ pre ++ [t], (∃ k, 1 ≤ k ∧ k ≤ 5 ∧ q.connects k = true) ∧ q.sent = true)
    (hp : ∀ q ∈ pre, q.reply = some .pending)
    (ht : t.reply = some (.streaming ⟨Wire.streamBytes bytes.length (onWire bytes), broken⟩))
    (sort : List Report.Group → List Report.Group) (hs : Report.IsSort sort) (rs : List Report.Reporter)
    (hf : ∀ r ∈ rs, r.Fine) :
    ∃ o code, report c sort rs (pre ++ t :: post) = .ended o ∧ o.result = .ok code ∧
      (∀ t ∈ flat, ∃ g ∈ Report.received all, g.workId = t.1.workId ∧ g.runNumber = 1) ∧
      (code = 0 ↔ ∀ t ∈ flat, AllPassed (Report.received all) t.1.workId) := by
  obtain ⟨o, code, he, hcode, hhas, hiff⟩ := C102_exit_code_exact acts rid flat mx hmx runners w say hsay all hall hsum hsane.toPlausible
    c lineOf noop racts hsafe a b d r bytes hev hok hb henc hrec hsz pre t post broken hpre hp ht sort hs rs hf
  refine ⟨o, code, he, hcode, hhas, hiff.trans ?_⟩
  refine forall_congr' fun t => forall_congr' fun _ => ?_
  constructor
  · intro h g hg hgw u hu
    have := h g hg hgw u hu
    split
    · rename_i hst
      rw [if_pos hst] at this
      exact this
    · rename_i hst
      obtain ⟨g', hg', hw', hn', v, hv, hvid, hvst⟩ := hsane.first g hg u.id ⟨u, hu, rfl, hst⟩
      have := h g' hg' (hw'.trans hgw) v hv
      rw [if_neg hvst] at this
      exact hvid ▸ this hn'
  · intro h g hg hgw u hu
    have := h g hg hgw u hu
    split
    · rename_i hst
      rw [if_pos hst] at this
      exact this
    · rename_i hst
      rw [if_neg hst] at this
      exact fun _ => this

theorem subset_of_length {l l' : List Nat} (hn : l.Nodup) (hn' : l'.Nodup) (hsub : ∀ x ∈ l, x ∈ l') :
    l.length ≤ l'.length ∧ (l'.length ≤ l.length → ∀ x ∈ l', x ∈ l) := by
  have hp := perm_of_same hn (hn'.filter (· ∈ l)) (l' := l'.filter (· ∈ l)) fun x => by
    rw [List.mem_filter]
    exact ⟨fun h => ⟨hsub x h, by simpa using h⟩, fun h => by simpa using h.2⟩
  have hle := List.length_filter_le (· ∈ l) l'
  refine ⟨by rw [hp.length_eq]; exact hle, fun h x hx => ?_⟩
  have : (l'.filter (· ∈ l)).length = l'.length := by rw [← hp.length_eq] at hle ⊢; omega
  have := List.length_filter_eq_length_iff.1 this x hx
  simpa using this

/-- **C102**. No report is green by mistake: however the run went (runners may have been lost, connections cut, results
not recorded), if a report ends with exit code 0, then the queue has recorded an attempt at every test of the manifest, and
whatever it has recorded for the first attempt at a test passed in one of the attempts.

`works` are the tests of the manifest; what is recorded is of these tests, and the number recorded is theirs. What is reported in
later attempts only is not looked at, see `C102_full_statement_fails`. -/
theorem C102_no_false_success {T : Type} (c : Codec Report.Line) (sort : List Report.Group → List Report.Group)
    (hs : Report.IsSort sort) (rs : List Report.Reporter) (xs : List (Exchange T Report.Line))
    (hl : ∀ x ∈ xs, ∀ l ∈ x.lines, c.Lawful l) (hf : ∀ x ∈ xs, x.Fair c) (works : List Nat) (hn : works.Nodup)
    (hsum : ∀ x ∈ xs, ∀ n ∈ Report.summaries x.lines, n = works.length)
    (hof : ∀ x ∈ xs, ∀ g ∈ Report.received x.lines, g.workId ∈ works)
    (h1 : ∀ x ∈ xs, Report.OneRun (Report.received x.lines) ∧ FirstsFirst (Report.received x.lines))
    (o : Report.Outcome) (h : report c sort rs (xs.map (·.attempt)) = .ended o) (ho : o.result = .ok 0) :
    ∃ x ∈ xs, Over x.state ∧ ∀ v ∈ works,
      (∃ g ∈ Report.received x.lines, g.workId = v) ∧
      ∀ g ∈ Report.received x.lines, g.workId = v → g.runNumber = 1 → ∀ id, g.has id → Passed (Report.received x.lines) v id := by
  have hw : ∀ x ∈ xs, ∀ ws : List Nat, ws.Nodup → (∀ w ∈ ws, ∃ g ∈ Report.received x.lines, g.workId = w) →
      ∀ n ∈ Report.summaries x.lines, ws.length ≤ n := by
    intro x hx ws hws hin n hm
    rw [hsum x hx n hm]
    refine (subset_of_length hws hn fun v hv => ?_).1
    obtain ⟨g, hg, rfl⟩ := hin v hv
    exact hof x hx g hg
  unfold report at h
  cases hfetch : fetch c (xs.map (·.attempt)) with
  | error f => rw [hfetch] at h; cases h
  | ok got =>
    rw [hfetch] at h
    injection h with h
    obtain ⟨pre, x, post, he, _, h2, h3, h4, h5⟩ := C97_fetched_partial c xs hl hf got hfetch
    have hx : x ∈ xs := by rw [he]; simp
    have hgs := received_prefix h4
    obtain ⟨hsr, hfirst⟩ := h1 x hx
    have hsr' := oneRun_prefix hsr hgs
    rw [← h] at ho
    have h0 := ((C48_exit_code_exact sort hs rs got hsr' 0 ho).1 rfl).2
    obtain ⟨hn', hw'⟩ := Report.seen_spec (Report.received got) [] List.nodup_nil
    generalize hseen : (Report.received got).foldl (fun s g => Report.addSeen s g.workId) [] = seen at hn' hw'
    have hw'' : ∀ v, v ∈ seen ↔ ∃ g ∈ Report.received got, g.workId = v := by
      intro v; rw [hw']; simp
    have hcomp := C48_complete sort hs rs got seen hn' hw'' 0 ho
    have hlen : seen.length = works.length := by
      refine hsum x hx _ ?_
      have : seen.length ∈ Report.summaries got := List.mem_of_getLast? hcomp
      obtain ⟨t, ht⟩ := h4
      rw [← ht]
      unfold Report.summaries at this ⊢
      rw [List.filterMap_append]
      exact List.mem_append.2 (.inl this)
    have hall : ∀ v ∈ works, v ∈ seen := (subset_of_length hn' hn fun v hv => by
      obtain ⟨g, hg, rfl⟩ := (hw'' v).1 hv
      exact hof x hx g (hgs.subset hg)).2 (by omega)
    refine ⟨x, hx, h2, fun v hv => ?_⟩
    obtain ⟨g₀, hg₀, e₀⟩ := (hw'' v).1 (hall v hv)
    refine ⟨⟨g₀, hgs.subset hg₀, e₀⟩, ?_⟩
    rintro g hg rfl hn id hid
    have hin := first_in_prefix hsr hfirst hgs hg₀ hg e₀.symm hn
    obtain ⟨g₃, hg₃, t, ht, hid₃, hst, hfl⟩ := h0 id ⟨g, hin, hn, hid⟩
    have hg₃ := hgs.subset hg₃
    exact ⟨g₃, hg₃, hsr.owner g₃ hg₃ g hg id ⟨t, ht, hid₃, hst⟩ hid, t, ht, hid₃, isFailLike_false.1 hfl⟩

/-- **C102**, part. If moreover what is recorded for a test in any attempt is recorded for the first, then all that is recorded passed
in one of the attempts. -/
theorem C102_no_false_success_partial {T : Type} (c : Codec Report.Line) (sort : List Report.Group → List Report.Group)
    (hs : Report.IsSort sort) (rs : List Report.Reporter) (xs : List (Exchange T Report.Line))
    (hl : ∀ x ∈ xs, ∀ l ∈ x.lines, c.Lawful l) (hf : ∀ x ∈ xs, x.Fair c) (works : List Nat) (hn : works.Nodup)
    (hsum : ∀ x ∈ xs, ∀ n ∈ Report.summaries x.lines, n = works.length)
    (hof : ∀ x ∈ xs, ∀ g ∈ Report.received x.lines, g.workId ∈ works)
    (h1 : ∀ x ∈ xs, Report.SingleRun (Report.received x.lines) ∧ FirstsFirst (Report.received x.lines))
    (o : Report.Outcome) (h : report c sort rs (xs.map (·.attempt)) = .ended o) (ho : o.result = .ok 0) :
    ∃ x ∈ xs, Over x.state ∧ ∀ v ∈ works,
      (∃ g ∈ Report.received x.lines, g.workId = v) ∧
      ∀ g ∈ Report.received x.lines, g.workId = v → ∀ id, g.has id → Passed (Report.received x.lines) v id := by
  obtain ⟨x, hx, hover, hall⟩ := C102_no_false_success c sort hs rs xs hl hf works hn hsum hof
    (fun x hx => ⟨(h1 x hx).1.toOneRun, (h1 x hx).2⟩) o h ho
  refine ⟨x, hx, hover, fun v hv => ⟨(hall v hv).1, ?_⟩⟩
  rintro g hg rfl id hid
  obtain ⟨g₁, hg₁, hw₁, hn₁, hid₁⟩ := (h1 x hx).1.first g hg id hid
  exact (hall _ hv).2 g₁ hg₁ hw₁ hn₁ id hid₁

/-! ## A whole run

The two workers of C76. In `e2eRunners` the native runner of worker 1 crashes on the second attempt at test 10. In
`greenRunners` both tests pass when they are retried. -/

def greenRunners : List EndToEnd.Runner :=
  [⟨e2eWorker 1, 4, (List.replicate 3 (e2eRound [⟨1, true⟩])).flatten ++ (List.replicate 12 (e2eRound [⟨1, false⟩])).flatten ++ [.notify]⟩,
   ⟨e2eWorker 2, 4, e2eRound [⟨1, true⟩] ++ e2eRound [⟨1, true⟩] ++ (List.replicate 10 (e2eRound [⟨1, false⟩])).flatten ++ [.notify]⟩]

def greenResults : List Retries.Results := [⟨10, 1, [⟨1, true⟩]⟩, ⟨10, 2, [⟨1, false⟩]⟩, ⟨11, 1, [⟨1, true⟩]⟩, ⟨11, 2, [⟨1, false⟩]⟩]
def redResults : List Retries.Results := [⟨10, 1, [⟨1, true⟩]⟩, ⟨10, 2, [⟨0, true⟩]⟩, ⟨11, 1, [⟨1, true⟩]⟩, ⟨11, 2, [⟨1, false⟩]⟩]

set_option maxRecDepth 20000 in
theorem green_reported : (greenRunners.flatMap fun r => r.reported 2 "run" e2eEvents) = greenResults := by decide

set_option maxRecDepth 20000 in
theorem red_reported : (e2eRunners.flatMap fun r => r.reported 2 "run" e2eEvents) = redResults := by decide

set_option maxRecDepth 20000 in
theorem green_whole : WholeRun e2eQueue "run" e2eTests 2 greenRunners where
  exhausted := e2e_whole.exhausted
  manifest := e2e_whole.manifest
  written := e2e_whole.written
  answered := e2e_whole.answered
  unique := e2e_whole.unique
  noFocus := e2e_whole.noFocus
  distinct := by decide
  all := e2e_whole.all
  ended := by
    have hs : ∀ r ∈ greenRunners, (r.life 2 "run" e2eEvents).finished = true ∧ (r.life 2 "run" e2eEvents).failed = false ∧
        (r.life 2 "run" e2eEvents).pipe.sys.failed = false ∧
        Fetch.Spec.supplied (r.life 2 "run" e2eEvents).pipe.sys.fetcher.sources = [] := by decide
    intro r hr
    obtain ⟨h1, h2, h3, h4⟩ := hs r hr
    refine ⟨h1, h2, h3, h4, ?_⟩
    have hm : r.entity ∈ e2eRunners.map (·.entity) := by
      have : ∀ r ∈ greenRunners, r.entity ∈ e2eRunners.map (·.entity) := by decide
      exact this r hr
    obtain ⟨q, hq, e⟩ := List.mem_map.1 hm
    rw [← e]
    exact (e2e_whole.ended q hq).noMore

/-- These results in full: the test 10 is called "a", the other "b", and the result 2 is of a hook; the clock shows the number of the attempt. A crash has
the time 0. -/
def greenSay (x : Retries.Results) : Report.Group :=
  ⟨x.workId, x.runNumber, x.results.map fun y =>
    ⟨if y.id = 2 then "hook" else if x.workId = 10 then "a" else "b",
      if y.failed then (if y.id = 0 then .nativeRunnerError else .failure) else .success, 5, none, (0, 1), if y.failed && y.id == 0 then 0 else x.runNumber⟩, "", none⟩

theorem greenSay_says (x : Retries.Results) : Says x (greenSay x) := by
  refine ⟨rfl, rfl, ?_⟩
  simp only [greenSay, List.map_map]
  refine List.map_congr_left fun y _ => ?_
  cases y with
  | mk id failed => cases failed <;> by_cases h : id = 0 <;> simp [h, Summary.Status.isFailLike]

/-- The lines recorded: what worker 1 reports, the size of the manifest, and what worker 2 reports. -/
def greenLines (res : List Retries.Results) : List Report.Line :=
  [.results ((res.take 2).map greenSay), .summary 2, .results ((res.drop 2).map greenSay)]

def greenLine (res : List Retries.Results) : Nat → Report.Line
  | 0 => .results ((res.take 2).map greenSay)
  | 1 => .summary 2
  | _ => .results ((res.drop 2).map greenSay)

def greenJson (t : List Wire.Byte) : Bool := t == [1, 9] || t == [2, 9] || t == [3, 9]

/-- Short texts for them. -/
def greenCodec (res : List Retries.Results) : Codec Report.Line where
  encode l := if l = greenLine res 0 then [1, 9] else if l = greenLine res 1 then [2, 9] else [3, 9]
  isJson := greenJson
  decode t := if t = [1, 9] then some (greenLine res 0) else if t = [2, 9] then some (greenLine res 1)
    else if t = [3, 9] then some (greenLine res 2) else none

theorem green_received (res : List Retries.Results) : Report.received (greenLines res) = res.map greenSay := by
  show (res.take 2).map greenSay ++ ([] ++ ((res.drop 2).map greenSay ++ [])) = _
  rw [List.nil_append, List.append_nil, ← List.map_append, List.take_append_drop]

theorem greenSay_has {x : Retries.Results} {id : String} (h : (greenSay x).has id) :
    ∃ y ∈ x.results, id = if y.id = 2 then "hook" else if x.workId = 10 then "a" else "b" := by
  obtain ⟨t, ht, e, _⟩ := h
  obtain ⟨y, hy, rfl⟩ := List.mem_map.1 ht
  exact ⟨y, hy, e.symm⟩

/-- What is needed of the lists of results above. -/
structure GreenShape (res : List Retries.Results) : Prop where
  works : ∀ x ∈ res, x.workId = 10 ∨ x.workId = 11
  attempt : ∀ x ∈ res, 1 ≤ x.runNumber
  one : ∀ x ∈ res, (∃ y, y.id ≠ 2 ∧ x.results = [y]) ∨ (x.workId = 10 ∧ x.results = [⟨1, false⟩, ⟨2, true⟩])
  differ : (res.drop 2).map greenSay ≠ (res.take 2).map greenSay

structure GreenOk (res : List Retries.Results) : Prop extends GreenShape res where
  plain : ∀ x ∈ res, ∀ y ∈ x.results, y.id ≠ 2
  first : ∀ x ∈ res, ∃ x' ∈ res, x'.workId = x.workId ∧ x'.runNumber = 1 ∧ x'.results = [⟨1, true⟩]

theorem green_ok : GreenOk greenResults := by
  refine ⟨⟨by decide, by decide, ?_, by decide⟩, by decide, by decide⟩
  intro x hx
  simp only [greenResults, List.mem_cons, List.not_mem_nil, or_false] at hx
  rcases hx with rfl | rfl | rfl | rfl <;> exact .inl ⟨_, by decide, rfl⟩

theorem red_ok : GreenOk redResults := by
  refine ⟨⟨by decide, by decide, ?_, by decide⟩, by decide, by decide⟩
  intro x hx
  simp only [redResults, List.mem_cons, List.not_mem_nil, or_false] at hx
  rcases hx with rfl | rfl | rfl | rfl <;> exact .inl ⟨_, by decide, rfl⟩

theorem green_plausible {res : List Retries.Results} (ok : GreenShape res) : Plausible (res.map greenSay) := by
  have hplain : ∀ x : Retries.Results, ∀ y : Retries.Result, y.id ≠ 2 → x.results = [y] →
      (greenSay x).results = [⟨if x.workId = 10 then "a" else "b",
        if y.failed then (if y.id = 0 then .nativeRunnerError else .failure) else .success, 5, none, (0, 1),
        if y.failed && y.id == 0 then 0 else x.runNumber⟩] := by
    intro x y h e
    simp [greenSay, e, h]
  have hhook : ∀ x : Retries.Results, x.workId = 10 → x.results = [⟨1, false⟩, ⟨2, true⟩] →
      (greenSay x).results = [⟨"a", .success, 5, none, (0, 1), x.runNumber⟩, ⟨"hook", .failure, 5, none, (0, 1), x.runNumber⟩] := by
    intro x hw e
    simp [greenSay, e, hw]
  have hshape : ∀ x ∈ res, (∃ t, (greenSay x).results = [t] ∧ t.id = (if x.workId = 10 then "a" else "b") ∧
        (t.timestamp = 0 ↔ t.status = .nativeRunnerError) ∧ (t.timestamp = 0 ∨ t.timestamp = x.runNumber)) ∨
      (x.workId = 10 ∧ (greenSay x).results =
        [⟨"a", .success, 5, none, (0, 1), x.runNumber⟩, ⟨"hook", .failure, 5, none, (0, 1), x.runNumber⟩]) := by
    intro x hx
    have h1 := ok.attempt x hx
    rcases ok.one x hx with ⟨y, hy, e⟩ | ⟨hw, e⟩
    · refine .inl ⟨_, hplain x y hy e, rfl, ?_, ?_⟩
      · cases hf : y.failed with
        | false => simp; omega
        | true => by_cases hid : y.id = 0 <;> simp [hid]; omega
      · dsimp only
        split
        · exact .inl rfl
        · exact .inr rfl
    · exact .inr ⟨hw, hhook x hw e⟩
  constructor
  · rintro g hg g' hg' - ⟨id, u, hu, -, hne⟩ _ hlt
    obtain ⟨x, hx, rfl⟩ := List.mem_map.1 hg
    obtain ⟨x', hx', rfl⟩ := List.mem_map.1 hg'
    have hlt : x.runNumber < x'.runNumber := hlt
    have hle : ∃ t ts, (greenSay x).results = t :: ts ∧ t.timestamp ≤ x.runNumber := by
      rcases hshape x hx with ⟨t, e, -, -, ht⟩ | ⟨-, e⟩
      · exact ⟨t, [], e, by omega⟩
      · exact ⟨_, _, e, Nat.le_refl _⟩
    have hge : ∃ t ts, (greenSay x').results = t :: ts ∧ t.timestamp = x'.runNumber := by
      rcases hshape x' hx' with ⟨t, e, -, hst, ht⟩ | ⟨-, e⟩
      · refine ⟨t, [], e, ?_⟩
        rw [e, List.mem_singleton] at hu
        subst hu
        rcases ht with ht | ht
        · exact absurd (hst.1 ht) hne
        · exact ht
      · exact ⟨_, _, e, rfl⟩
    obtain ⟨t, ts, e, ht⟩ := hle
    obtain ⟨t', ts', e', ht'⟩ := hge
    simp only [Report.Group.notLater, e, e', List.head?_cons, Option.map_some]
    omega
  · intro g hg t ht
    obtain ⟨x, hx, rfl⟩ := List.mem_map.1 hg
    have h1 := ok.attempt x hx
    rcases hshape x hx with ⟨u, e, -, hst, -⟩ | ⟨-, e⟩
    · rw [e, List.mem_singleton] at ht
      exact ht ▸ hst
    · rw [e] at ht
      simp only [List.mem_cons, List.not_mem_nil, or_false] at ht
      rcases ht with rfl | rfl <;> simp <;> omega
  · rintro g hg g' hg' id ⟨t, ht, hid, -⟩ ⟨t', ht', hid', -⟩
    obtain ⟨x, hx, rfl⟩ := List.mem_map.1 hg
    obtain ⟨x', hx', rfl⟩ := List.mem_map.1 hg'
    have hof : ∀ x ∈ res, ∀ t ∈ (greenSay x).results, x.workId = if t.id = "b" then 11 else 10 := by
      intro x hx t ht
      rcases hshape x hx with ⟨u, e, hi, -, -⟩ | ⟨hw, e⟩
      · rw [e, List.mem_singleton] at ht
        subst ht
        rcases ok.works x hx with hw | hw <;> rw [hi, hw] <;> decide
      · rw [e] at ht
        simp only [List.mem_cons, List.not_mem_nil, or_false] at ht
        rw [hw]
        rcases ht with rfl | rfl <;> simp
    show x.workId = x'.workId
    rw [hof x hx t ht, hof x' hx' t' ht', hid, hid']
  · intro g hg id
    obtain ⟨x, hx, rfl⟩ := List.mem_map.1 hg
    rcases hshape x hx with ⟨u, e, -, -, -⟩ | ⟨-, e⟩
    · rw [e]; exact List.length_filter_le _ _
    · rw [e]
      simp only [List.filter_cons, List.filter_nil]
      by_cases h : "a" = id
      · subst h; simp
      · by_cases h' : "hook" = id <;> simp [h, h']
  · intro g hg t ht hst
    obtain ⟨x, hx, rfl⟩ := List.mem_map.1 hg
    rcases hshape x hx with ⟨u, e, -, -, -⟩ | ⟨-, e⟩
    · rw [e, List.mem_singleton] at ht
      rw [ht, e]
    · rw [e] at ht
      simp only [List.mem_cons, List.not_mem_nil, or_false] at ht
      rcases ht with rfl | rfl <;> cases hst

theorem green_sane {res : List Retries.Results} (ok : GreenOk res) : Sane (res.map greenSay) where
  toPlausible := green_plausible ok.toGreenShape
  first := by
    intro g hg id h
    obtain ⟨x, hx, rfl⟩ := List.mem_map.1 hg
    obtain ⟨x', hx', hw, hn, hr⟩ := ok.first x hx
    obtain ⟨y, hy, e⟩ := greenSay_has h
    rw [if_neg (ok.plain x hx y hy)] at e
    subst e
    refine ⟨greenSay x', List.mem_map_of_mem hx', hw, hn, ?_⟩
    rw [← hw]
    simp [Report.Group.has, greenSay, hr]

theorem greenJson_less (b : Wire.Byte) (h : b < 4) : ∀ k, k < ([b, 9] : List Wire.Byte).length → greenJson (([b, 9] : List Wire.Byte).take k) = false := by
  intro k hk
  match k, hk with
  | 0, _ => rfl
  | 1, _ => simp [greenJson]

theorem green_lawful {res : List Retries.Results} (ok : GreenShape res) (n : Nat) :
    (greenCodec res).Lawful (greenLine res n) ∧
      (greenCodec res).encode (greenLine res n) = match n with | 0 => [1, 9] | 1 => [2, 9] | _ => [3, 9] := by
  have h1 : greenLine res 1 ≠ greenLine res 0 := by intro h; cases h
  have h2 : greenLine res 2 ≠ greenLine res 0 := by
    intro h
    injection h with h
    exact ok.differ h
  have h3 : greenLine res 2 ≠ greenLine res 1 := by intro h; cases h
  have e0 : (greenCodec res).encode (greenLine res 0) = [1, 9] := by simp only [greenCodec, if_true]
  have e1 : (greenCodec res).encode (greenLine res 1) = [2, 9] := by simp only [greenCodec, h1, if_true, if_false]
  have e2 : (greenCodec res).encode (greenLine res 2) = [3, 9] := by simp only [greenCodec, h2, h3, if_false]
  match n with
  | 0 => exact ⟨⟨by rw [e0]; decide, by rw [e0]; rfl, by rw [e0]; rfl, by rw [e0]; exact greenJson_less _ (by decide)⟩, e0⟩
  | 1 => exact ⟨⟨by rw [e1]; decide, by rw [e1]; rfl, by rw [e1]; rfl, by rw [e1]; exact greenJson_less _ (by decide)⟩, e1⟩
  | n + 2 =>
    have : greenLine res (n + 2) = greenLine res 2 := rfl
    rw [this]
    exact ⟨⟨by rw [e2]; decide, by rw [e2]; rfl, by rw [e2]; rfl, by rw [e2]; exact greenJson_less _ (by decide)⟩, e2⟩

def greenAttempts : List Attempt :=
  [⟨fun _ => true, true, some .pending⟩,
   ⟨fun k => k == 2, true, some (.streaming ⟨[0, 0, 0, 9, 1, 9, 10, 2, 9, 10, 3, 9, 10], false⟩)⟩]

/-- The report of any such run. -/
theorem green_report_exact (runners : List EndToEnd.Runner) (w : WholeRun e2eQueue "run" e2eTests 2 runners)
    (res : List Retries.Results) (hres : (runners.flatMap fun r => r.reported 2 "run" e2eEvents) = res) (ok : GreenShape res) :
    ∃ o code, report (greenCodec res) sortGroups [quiet] greenAttempts = .ended o ∧ o.result = .ok code ∧
      (∀ t ∈ e2eTests, ∃ g ∈ Report.received (greenLines res), g.workId = t.1.workId ∧ g.runNumber = 1) ∧
      (code = 0 ↔ ∀ t ∈ e2eTests, FirstsPassed (Report.received (greenLines res)) t.1.workId) := by
  have hl := green_lawful ok
  have := C102_exit_code_exact e2eQueue "run" e2eTests 2 (by decide) runners w greenSay greenSay_says (greenLines res)
    (by rw [green_received]; exact List.Perm.of_eq (by rw [← hres]; rfl)) rfl (by rw [green_received]; exact green_plausible ok)
    (greenCodec res) (greenLine res) false recordedActs (by decide) recordedEvents [] [] 0
    [1, 9, 10, 2, 9, 10, 3, 9, 10] (by decide) (by unfold writesOk; decide) (by decide)
    (by
      intro p hp
      have hp : p ∈ [(0, [1, 9]), (1, [2, 9]), (2, [3, 9])] := hp
      simp only [List.mem_cons, List.not_mem_nil, or_false] at hp
      rcases hp with rfl | rfl | rfl
      · exact ⟨(hl 0).1, (hl 0).2.symm⟩
      · exact ⟨(hl 1).1, (hl 1).2.symm⟩
      · exact ⟨(hl 2).1, (hl 2).2.symm⟩)
    rfl (by decide) [⟨fun _ => true, true, some .pending⟩]
    ⟨fun k => k == 2, true, some (.streaming ⟨[0, 0, 0, 9, 1, 9, 10, 2, 9, 10, 3, 9, 10], false⟩)⟩ [] false
    (by
      intro q hq
      have hq : q ∈ recordedAttempts := hq
      simp only [recordedAttempts, List.mem_cons, List.not_mem_nil, or_false] at hq
      rcases hq with rfl | rfl
      · exact ⟨⟨1, by omega, by omega, rfl⟩, rfl⟩
      · exact ⟨⟨2, by omega, by omega, rfl⟩, rfl⟩)
    (by simp) rfl sortGroups Report.isSort_mergeSort [quiet] (by simp [quiet, Report.Reporter.Fine])
  exact this

/-- The report of either run. -/
theorem green_report (runners : List EndToEnd.Runner) (w : WholeRun e2eQueue "run" e2eTests 2 runners)
    (res : List Retries.Results) (hres : (runners.flatMap fun r => r.reported 2 "run" e2eEvents) = res) (ok : GreenOk res) :
    ∃ o code, report (greenCodec res) sortGroups [quiet] greenAttempts = .ended o ∧ o.result = .ok code ∧
      (∀ t ∈ e2eTests, ∃ g ∈ Report.received (greenLines res), g.workId = t.1.workId ∧ g.runNumber = 1) ∧
      (code = 0 ↔ ∀ t ∈ e2eTests, AllPassed (Report.received (greenLines res)) t.1.workId) := by
  have hl := green_lawful ok.toGreenShape
  have := C102_exit_code_partial e2eQueue "run" e2eTests 2 (by decide) runners w greenSay greenSay_says (greenLines res)
    (by rw [green_received]; exact List.Perm.of_eq (by rw [← hres]; rfl)) rfl (by rw [green_received]; exact green_sane ok)
    (greenCodec res) (greenLine res) false recordedActs (by decide) recordedEvents [] [] 0
    [1, 9, 10, 2, 9, 10, 3, 9, 10] (by decide) (by unfold writesOk; decide) (by decide)
    (by
      intro p hp
      have hp : p ∈ [(0, [1, 9]), (1, [2, 9]), (2, [3, 9])] := hp
      simp only [List.mem_cons, List.not_mem_nil, or_false] at hp
      rcases hp with rfl | rfl | rfl
      · exact ⟨(hl 0).1, (hl 0).2.symm⟩
      · exact ⟨(hl 1).1, (hl 1).2.symm⟩
      · exact ⟨(hl 2).1, (hl 2).2.symm⟩)
    rfl (by decide) [⟨fun _ => true, true, some .pending⟩]
    ⟨fun k => k == 2, true, some (.streaming ⟨[0, 0, 0, 9, 1, 9, 10, 2, 9, 10, 3, 9, 10], false⟩)⟩ [] false
    (by
      intro q hq
      have hq : q ∈ recordedAttempts := hq
      simp only [recordedAttempts, List.mem_cons, List.not_mem_nil, or_false] at hq
      rcases hq with rfl | rfl
      · exact ⟨⟨1, by omega, by omega, rfl⟩, rfl⟩
      · exact ⟨⟨2, by omega, by omega, rfl⟩, rfl⟩)
    (by simp) rfl sortGroups Report.isSort_mergeSort [quiet] (by simp [quiet, Report.Reporter.Fine])
  exact this

/-- Both tests failed, and passed when retried: the report ends with exit code 0. -/
example : ∃ o, report (greenCodec greenResults) sortGroups [quiet] greenAttempts = .ended o ∧ o.result = .ok 0 := by
  obtain ⟨o, code, h1, h2, _, h3⟩ := green_report greenRunners green_whole greenResults green_reported green_ok
  refine ⟨o, h1, ?_⟩
  rw [h2, h3.2 ?_]
  rw [green_received]
  have hpass : ∀ v, v = 10 ∨ v = 11 → Passed (greenResults.map greenSay) v (if v = 10 then "a" else "b") := by
    rintro v (rfl | rfl)
    · exact ⟨greenSay ⟨10, 2, [⟨1, false⟩]⟩, by decide, rfl, _, List.mem_cons_self, rfl, .inl rfl⟩
    · exact ⟨greenSay ⟨11, 2, [⟨1, false⟩]⟩, by decide, rfl, _, List.mem_cons_self, rfl, .inl rfl⟩
  intro t ht g hg hw u hu
  obtain ⟨x, hx, rfl⟩ := List.mem_map.1 hg
  have hst : u.status ≠ .nativeRunnerError := by
    have : ∀ x ∈ greenResults, ∀ u ∈ (greenSay x).results, u.status ≠ .nativeRunnerError := by decide
    exact this x hx u hu
  rw [if_neg hst]
  obtain ⟨y, hy, hid⟩ := greenSay_has ⟨u, hu, rfl, hst⟩
  rw [if_neg (green_ok.plain x hx y hy)] at hid
  rw [hid, ← hw]
  exact hpass _ (green_ok.works x hx)

/-- Test 10 failed, and the native runner crashed on it when it was retried: the report does not end with exit code 0. -/
example : ∃ o code, report (greenCodec redResults) sortGroups [quiet] greenAttempts = .ended o ∧ o.result = .ok code ∧ code ≠ 0 := by
  obtain ⟨o, code, h1, h2, _, h3⟩ := green_report e2eRunners e2e_whole redResults red_reported red_ok
  refine ⟨o, code, h1, h2, fun h0 => ?_⟩
  have := h3.1 h0 (⟨10, 1, none⟩, 0) (by decide)
  rw [green_received] at this
  have := this (greenSay ⟨10, 1, [⟨1, true⟩]⟩) (by decide) rfl _ List.mem_cons_self
  rw [if_neg (by decide)] at this
  obtain ⟨g, hg, hw, t, ht, _, hp⟩ := this
  have key : ∀ g ∈ redResults.map greenSay, g.workId = 10 → ∀ t ∈ g.results, t.status.isFailLike = true := by decide
  have := key g hg hw t ht
  rw [isFailLike_false.2 hp] at this
  cases this

example : ∀ v ∈ [1], (∃ g ∈ Report.received fetchLines, g.workId = v) ∧
    ∀ g ∈ Report.received fetchLines, g.workId = v → ∀ id, g.has id → Passed (Report.received fetchLines) v id := by
  have he : ∃ o, report fetchCodec sortGroups [] [(fetchExchange 13).attempt] = .ended o ∧ o.result = .ok 0 := by
    have hf : fetch fetchCodec [(fetchExchange 13).attempt] = .ok fetchLines := by
      have hc : connect (fetchExchange 13).attempt = .ok () := (connect_iff _).2 ⟨1, by omega, by omega, rfl⟩
      rw [fetch, hc]
      rfl
    refine ⟨Report.process sortGroups [] fetchLines, by rw [report, hf], ?_⟩
    unfold Report.process
    rw [Report.collect_eq]
    dsimp only
    rw [fetch_sorted sortGroups Report.isSort_mergeSort]
    rfl
  obtain ⟨o, h, ho⟩ := he
  obtain ⟨x, hx, _, hr⟩ := C102_no_false_success_partial fetchCodec sortGroups Report.isSort_mergeSort [] [fetchExchange 13]
    (by intro x hx; rw [List.mem_singleton.1 hx]; exact fetchCodec_lawful)
    (by intro x hx; rw [List.mem_singleton.1 hx]; exact fetchExchange_fair 13) [1] (by simp)
    (by intro x hx; rw [List.mem_singleton.1 hx]; decide)
    (by intro x hx; rw [List.mem_singleton.1 hx]; decide)
    (by intro x hx; rw [List.mem_singleton.1 hx]; exact fetchLines_fit.2) o h ho
  rw [List.mem_singleton.1 hx] at hr
  exact hr

/-! ## The full statement -/

/-! ## A retry that reports a failure of something else -/

/-- As `greenRunners`, but in the second attempt at test 10 a hook fails, which is reported beside the test. -/
def hookRunners : List EndToEnd.Runner :=
  [⟨e2eWorker 1, 4, (List.replicate 3 (e2eRound [⟨1, true⟩])).flatten ++
     (List.replicate 12 (e2eRound [⟨1, false⟩, ⟨2, true⟩])).flatten ++ [.notify]⟩,
   ⟨e2eWorker 2, 4, e2eRound [⟨1, true⟩] ++ e2eRound [⟨1, true⟩] ++ (List.replicate 10 (e2eRound [⟨1, false⟩])).flatten ++ [.notify]⟩]

def hookResults : List Retries.Results :=
  [⟨10, 1, [⟨1, true⟩]⟩, ⟨10, 2, [⟨1, false⟩, ⟨2, true⟩]⟩, ⟨11, 1, [⟨1, true⟩]⟩, ⟨11, 2, [⟨1, false⟩]⟩]

set_option maxRecDepth 20000 in
theorem hook_reported : (hookRunners.flatMap fun r => r.reported 2 "run" e2eEvents) = hookResults := by decide

set_option maxRecDepth 20000 in
theorem hook_whole : WholeRun e2eQueue "run" e2eTests 2 hookRunners where
  exhausted := e2e_whole.exhausted
  manifest := e2e_whole.manifest
  written := e2e_whole.written
  answered := e2e_whole.answered
  unique := e2e_whole.unique
  noFocus := e2e_whole.noFocus
  distinct := by decide
  all := e2e_whole.all
  ended := by
    have hs : ∀ r ∈ hookRunners, (r.life 2 "run" e2eEvents).finished = true ∧ (r.life 2 "run" e2eEvents).failed = false ∧
        (r.life 2 "run" e2eEvents).pipe.sys.failed = false ∧
        Fetch.Spec.supplied (r.life 2 "run" e2eEvents).pipe.sys.fetcher.sources = [] := by decide
    intro r hr
    obtain ⟨h1, h2, h3, h4⟩ := hs r hr
    refine ⟨h1, h2, h3, h4, ?_⟩
    have hm : r.entity ∈ e2eRunners.map (·.entity) := by
      have : ∀ r ∈ hookRunners, r.entity ∈ e2eRunners.map (·.entity) := by decide
      exact this r hr
    obtain ⟨q, hq, e⟩ := List.mem_map.1 hm
    rw [← e]
    exact (e2e_whole.ended q hq).noMore

theorem hook_shape : GreenShape hookResults := by
  refine ⟨by decide, by decide, ?_, by decide⟩
  intro x hx
  simp only [hookResults, List.mem_cons, List.not_mem_nil, or_false] at hx
  rcases hx with rfl | rfl | rfl | rfl
  · exact .inl ⟨_, by decide, rfl⟩
  · exact .inr ⟨rfl, rfl⟩
  · exact .inl ⟨_, by decide, rfl⟩
  · exact .inl ⟨_, by decide, rfl⟩

/-- **C102 fails in full**, of a whole run: two workers run a suite of two tests to its end, and all they report is recorded and
reported. A hook of the first test failed, and never passed. The exit code is 0: it failed in a second attempt only. -/
theorem C102_whole_run_fails :
    WholeRun e2eQueue "run" e2eTests 2 hookRunners ∧ (∀ x, Says x (greenSay x)) ∧
    Report.received (greenLines hookResults) = (hookRunners.flatMap fun r => r.reported 2 "run" e2eEvents).map greenSay ∧
    Report.summaries (greenLines hookResults) = [e2eTests.length] ∧ Plausible (Report.received (greenLines hookResults)) ∧
    (∃ o, report (greenCodec hookResults) sortGroups [quiet] greenAttempts = .ended o ∧ o.result = .ok 0) ∧
    (∃ g ∈ Report.received (greenLines hookResults), g.workId = 10 ∧ ∃ t ∈ g.results, t.id = "hook" ∧ t.status = .failure) ∧
    ¬ Passed (Report.received (greenLines hookResults)) 10 "hook" := by
  refine ⟨hook_whole, greenSay_says, by rw [green_received, hook_reported], rfl,
    by rw [green_received]; exact green_plausible hook_shape, ?_, ?_, ?_⟩
  · obtain ⟨o, code, h1, h2, _, h3⟩ := green_report_exact hookRunners hook_whole hookResults hook_reported hook_shape
    refine ⟨o, h1, ?_⟩
    rw [h2, h3.2 ?_]
    rw [green_received]
    intro t ht g hg hw u hu
    obtain ⟨x, hx, rfl⟩ := List.mem_map.1 hg
    have hst : u.status ≠ .nativeRunnerError := by
      have : ∀ x ∈ hookResults, ∀ u ∈ (greenSay x).results, u.status ≠ .nativeRunnerError := by decide
      exact this x hx u hu
    rw [if_neg hst]
    intro h1
    have h1 : x.runNumber = 1 := h1
    have hw : x.workId = t.1.workId := hw
    have hpass : ∀ v, v = 10 ∨ v = 11 → Passed (hookResults.map greenSay) v (if v = 10 then "a" else "b") := by
      rintro v (rfl | rfl)
      · exact ⟨greenSay ⟨10, 2, [⟨1, false⟩, ⟨2, true⟩]⟩, by decide, rfl, _, List.mem_cons_self, rfl, .inl rfl⟩
      · exact ⟨greenSay ⟨11, 2, [⟨1, false⟩]⟩, by decide, rfl, _, List.mem_cons_self, rfl, .inl rfl⟩
    have hid : ∀ x ∈ hookResults, x.runNumber = 1 → ∀ u ∈ (greenSay x).results, u.id = if x.workId = 10 then "a" else "b" := by decide
    rw [hid x hx h1 u hu, ← hw]
    exact hpass _ (hook_shape.works x hx)
  · rw [green_received]
    exact ⟨greenSay ⟨10, 2, [⟨1, false⟩, ⟨2, true⟩]⟩, by decide, rfl, _, List.mem_cons_of_mem _ List.mem_cons_self, rfl, rfl⟩
  · rw [green_received]
    rintro ⟨g, hg, _, t, ht, hid, hp⟩
    have key : ∀ g ∈ hookResults.map greenSay, ∀ t ∈ g.results, t.id = "hook" → t.status = .failure := by decide
    rw [key g hg t ht hid] at hp
    rcases hp with h | h | h | h <;> cases h

/-- What is recorded of this run is of one run of a suite, though it reports a hook in the second attempt only. -/
example : Report.OneRun (Report.received (greenLines hookResults)) :=
  whole_oneRun (by decide) hook_whole greenSay greenSay_says
    (List.Perm.of_eq (by rw [green_received, ← hook_reported]; rfl)) (by rw [green_received]; exact green_plausible hook_shape)

/-- The retry of a test reports, beside the test that failed, another one, which fails: a hook, say. -/
def hookGroups : List Report.Group := [⟨1, 1, [failedAt "t" 10], "", none⟩, ⟨1, 2, [passedAt "t" 20, failedAt "after all" 21], "", none⟩]

theorem hook_sorted (sort : List Report.Group → List Report.Group) (hs : Report.IsSort sort) :
    sort hookGroups = hookGroups := by
  refine hs.unique ?_ (List.Perm.refl _) ?_
  · unfold hookGroups
    rw [List.pairwise_pair]
    exact .inr ⟨rfl, .inl ⟨by show 10 ≤ 20; omega, by simp [Report.Group.sameTime, failedAt, passedAt]⟩⟩
  · unfold hookGroups
    simp [Report.Group.sameKey, failedAt, passedAt]

/-- **C102 fails in full**: a native runner that reports a result in a later attempt that it did not report in the first. It
is a failure, the test with that id never passed, and the exit code is 0. -/
theorem C102_full_statement_fails :
    ∃ (lines : List Report.Line), Report.received lines = hookGroups ∧ Report.summaries lines = [1] ∧
      (∀ sort, Report.IsSort sort → (Report.process sort [] lines).result = .ok 0) ∧
      (∃ g ∈ Report.received lines, ∃ t ∈ g.results, t.id = "after all" ∧ t.status = .failure) ∧
      ¬ Passed (Report.received lines) 1 "after all" := by
  refine ⟨[.results hookGroups, .summary 1], rfl, rfl, ?_, ?_, ?_⟩
  · intro sort hs
    unfold Report.process
    rw [Report.collect_eq]
    dsimp only
    have : Report.received [.results hookGroups, .summary 1] = hookGroups := rfl
    rw [this, hook_sorted sort hs]
    rfl
  · exact ⟨⟨1, 2, [passedAt "t" 20, failedAt "after all" 21], "", none⟩, by decide, failedAt "after all" 21, by decide, rfl, rfl⟩
  · rintro ⟨g, hg, _, t, ht, hid, hp⟩
    have key : ∀ g ∈ hookGroups, ∀ t ∈ g.results, t.id = "after all" → t.status.isFailLike = true := by decide
    have := key g hg t ht hid
    rw [isFailLike_false.2 hp] at this
    cases this

end Abq.Props
