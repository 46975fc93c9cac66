import Verif.Proof.ResultsKept
import Verif.Proof.ResultsExact

/-!
# Results: acknowledged batches are read, reach the remote, and survive offloading (C17 - C20, C57)

In all theorems `run (init noop disk remote) acts` is any life of a queue that started with the file
`disk` and the remote copy `remote`, under any schedule `acts` of reports, requests, offload jobs and of
the steps of the tasks in progress, with any failures of i/o other than those excluded by `Safe`.
-/

namespace Abq.Props
open Abq.Results Abq.Results.Spec

namespace Sample
/-- Two batches, both acknowledged and recorded; the file is then offloaded, and read. -/
def l1 : Bytes := [1, 2]
def l2 : Bytes := [3]
def recorded : List Act :=
  [.results l1 true, .results l2 true, .resume 0 {}, .resume 0 {},
   -- the first batch goes through the slow path, the second finds the file open
   .resume 0 {}, .resume 1 {}, .resume 1 {}, .resume 0 {}, .resume 0 {}, .resume 0 {}]
def readBack : List Act :=
  recorded ++ [.resume 0 {}, .offload (some 5) 20 10 .ok, .request, .resume 0 {}]
end Sample

/-- C17, C19: whatever offloads and reloads happened before, a stream is exactly what the file held when
it was first opened followed by everything put in it since, in order. -/
theorem C19_stream_is_everything_written_partial (noop : Bool) (disk : Bytes) (remote : Option Bytes)
    (acts : List Act) (hsafe : ∀ a ∈ acts, Safe a) (pre post : List Ev) (r : Nat) (bytes : Bytes)
    (h : (run (init noop disk remote) acts).events = pre ++ .stream r bytes :: post) :
    ∃ base, bases pre = [base] ∧ bytes = content base pre :=
  (run_ok noop disk remote acts hsafe).2.2 pre _ post h

/-- C17: let a batch be acknowledged before a results request comes in that is answered with a stream.
Then the stream consists of what the file held at first and of the chunks written by the plans, each plan
once, that of the batch being among them; and the chunk of a plan whose write did not fail is its line
with a newline. -/
theorem C17_acknowledged_batches_are_read_partial (noop : Bool) (disk : Bytes) (remote : Option Bytes)
    (acts : List Act) (hsafe : ∀ a ∈ acts, Safe a) (a b c : List Ev) (r : Nat) (bytes : Bytes)
    (h : (run (init noop disk remote) acts).events = a ++ .asked r :: b ++ .stream r bytes :: c) :
    ∃ base, bytes = base ++ ((writes (a ++ b)).map (·.2.1)).flatten ∧
      (written (a ++ b)).Nodup ∧
      (∀ id ∈ acked a, id ∈ written (a ++ b)) ∧
      ∀ w ∈ writes (a ++ b), w.2.2 = true →
        ∃ line, (w.1, line) ∈ planned (a ++ b) ∧ w.2.1 = line ++ [10] := by
  obtain ⟨hinv, -, hk⟩ := run_ok noop disk remote acts hsafe
  have hwab : writes (a ++ .asked r :: b) = writes (a ++ b) := by simp [writes]
  have hpab : planned (a ++ .asked r :: b) = planned (a ++ b) := by simp [planned]
  obtain ⟨base, -, hb⟩ := hk _ _ _ h
  have hasked := hk a (.asked r) (b ++ .stream r bytes :: c) (by simpa using h)
  have hev : (run (init noop disk remote) acts).events = (a ++ .asked r :: b) ++ (.stream r bytes :: c) := by
    simpa using h
  have hwpre : ∀ w ∈ writes (a ++ b), w ∈ writes (run (init noop disk remote) acts).events := by
    intro w hw
    rw [hev, writes_append, hwab]
    exact List.mem_append_left _ hw
  have hnd : (written (run (init noop disk remote) acts).events).Nodup :=
    (List.nodup_append.mp (hinv.acc.ids.nodup_iff.mpr List.nodup_range)).1
  have hnd' : (written (a ++ b)).Nodup := by
    rw [hev, written_append] at hnd
    have := (List.nodup_append.mp hnd).1
    rwa [written, hwab] at this
  refine ⟨base, ?_, hnd', ?_, ?_⟩
  · rw [hb, content, hwab]
  · intro id hid
    -- the batch was planned before it was acknowledged, and all plans made before the request were written
    have hlt : id ∈ (planned a).map (·.1) := ack_planned noop disk remote acts hsafe (b := .asked r :: b ++ .stream r bytes :: c) (by simpa using h) hid
    have : id ∈ written a := hasked.mem_iff.mpr hlt
    rw [written_append]
    exact List.mem_append_left _ this
  · intro w hw hok
    rw [← hpab]
    exact write_planned noop disk remote acts hsafe hev (by rwa [hwab]) hok


/-- C17, in terms of lines: when no write failed, the stream is what the file held at first followed by
one line per recorded batch, each batch once, all the batches acknowledged before the request among
them. -/
theorem C17_each_batch_once_partial (noop : Bool) (disk : Bytes) (remote : Option Bytes)
    (acts : List Act) (hsafe : ∀ a ∈ acts, Safe a) (a b c : List Ev) (r : Nat) (bytes : Bytes)
    (h : (run (init noop disk remote) acts).events = a ++ .asked r :: b ++ .stream r bytes :: c)
    (hok : writesOk (a ++ b)) (hnl : ∀ p ∈ planned (a ++ b), (10 : UInt8) ∉ p.2) :
    ∃ base, ∃ recs : List (Nat × Bytes),
      (recs.map (·.1)).Nodup ∧ (∀ p ∈ recs, p ∈ planned (a ++ b)) ∧
      (∀ id ∈ acked a, id ∈ recs.map (·.1)) ∧
      ∃ rest, bytes = base ++ rest ∧ lines rest = recs.map (·.2) := by
  obtain ⟨base, hb, hnd, hack, hch⟩ :=
    C17_acknowledged_batches_are_read_partial noop disk remote acts hsafe a b c r bytes h
  have key : ∀ ws : List (Nat × Bytes × Bool), (∀ w ∈ ws, w ∈ writes (a ++ b)) →
      ∃ recs : List (Nat × Bytes), recs.map (·.1) = ws.map (·.1) ∧ (∀ p ∈ recs, p ∈ planned (a ++ b)) ∧
        (ws.map (·.2.1)).flatten = ((recs.map (·.2)).map packed).flatten := by
    intro ws
    induction ws with
    | nil => intro _; exact ⟨[], rfl, by simp, rfl⟩
    | cons w ws ih =>
      intro hw
      obtain ⟨recs, h1, h2, h3⟩ := ih fun w' hw' => hw w' (List.mem_cons_of_mem _ hw')
      obtain ⟨line, hl, hc⟩ := hch w (hw w List.mem_cons_self) (hok w (hw w List.mem_cons_self))
      refine ⟨(w.1, line) :: recs, by simp [h1], ?_, ?_⟩
      · intro p hp
        rcases List.mem_cons.mp hp with rfl | hp
        · exact hl
        · exact h2 p hp
      · simp [h3, hc, packed]
  obtain ⟨recs, h1, h2, h3⟩ := key _ fun w hw => hw
  refine ⟨base, recs, h1 ▸ hnd, h2, h1 ▸ hack, _, hb, ?_⟩
  rw [h3, lines_packed]
  intro l hl
  obtain ⟨p, hp, rfl⟩ := List.mem_map.mp hl
  exact hnl p (h2 p hp)

/-- A history of C17: two acknowledged batches, read back after an offload. -/
example : (∀ a ∈ Sample.readBack, Safe a) ∧
    (run (init false [] none) Sample.readBack).events =
      [.planned 0 [1, 2], .planned 1 [3], .acked 0, .acked 1, .opened [], .wrote 0 [1, 2, 10] true,
       .wrote 1 [3, 10] true, .finished 0 true, .finished 1 true, .stored true, .offload true] ++
      .asked 0 :: [] ++ .stream 0 [1, 2, 10, 3, 10] :: [] := by
  decide

/-- C17 needs the exclusion of `Safe`: when the truncation after an offload cannot be synced, the file
is taken as open although it was emptied (`results/fs.rs:311-315`), and acknowledged results are missing
from later streams. -/
theorem C17_full_statement_fails :
    ∃ acts : List Act, (Ev.acked 0 ∈ (run (init false [] none) acts).events ∧
      Ev.wrote 0 [1, 2, 10] true ∈ (run (init false [] none) acts).events ∧
      (run (init false [] none) acts).events.getLast? = some (.stream 0 [])) :=
  ⟨Sample.recorded ++ [.resume 0 {}, .offload (some 5) 20 10 .syncFails, .request, .resume 0 {}],
    by decide⟩

/-- C17, exactly, whatever fails: a stream holds what the file held at first and everything that was put in it until then, if no
offload emptied the file and failed; else, everything that was put in it since this last happened. -/
theorem C17_stream_exact (noop : Bool) (disk : Bytes) (remote : Option Bytes) (acts : List Act) (pre post : List Ev) (r : Nat)
    (bytes : Bytes) (h : (run (init noop disk remote) acts).events = pre ++ .stream r bytes :: post) :
    ∃ n, n < acts.length ∧ (run (init noop disk remote) (acts.take n)).events = pre ∧
      Holds (emptiedAt (init noop disk remote) none (acts.take n)) pre bytes :=
  (kept_run noop disk remote acts).2 pre _ post h

/-- Two batches, an offload that fails after it emptied the file, and a third batch: the request gets the third one. -/
example :
    let acts := Sample.recorded ++ [.resume 0 {}, .offload (some 5) 20 10 .syncFails, .results [7] true, .resume 0 {}, .resume 0 {},
      .resume 0 {}, .resume 0 {}, .request, .resume 0 {}]
    (run (init false [] none) acts).events = (run (init false [] none) (acts.take 18)).events ++ .stream 0 [7, 10] :: [] ∧
      emptiedAt (init false [] none) none (acts.take 18) = some 11 := by
  decide

/-! ## C18 -/

/-- C18: once nothing is in progress, if the plan accounted as done last was eligible for a dump to the
remote and no dump failed, then every planned line was written and the remote holds exactly what the
file held at first followed by everything written. -/
theorem C18_remote_holds_everything_partial (disk : Bytes) (remote : Option Bytes) (acts : List Act)
    (hsafe : ∀ a ∈ acts, Safe a)
    (hquiet : (run (init false disk remote) acts).tasks = [])
    (hlast : lastEligible (run (init false disk remote) acts).events = some true)
    (hstores : storesOk (run (init false disk remote) acts).events) :
    (written (run (init false disk remote) acts).events).Perm
        ((planned (run (init false disk remote) acts).events).map (·.1)) ∧
      ∃ base, bases (run (init false disk remote) acts).events = [base] ∧
        (run (init false disk remote) acts).remote =
          some (content base (run (init false disk remote) acts).events) := by
  obtain ⟨hinv, -, -⟩ := run_ok false disk remote acts hsafe
  have h0 : (run (init false disk remote) acts).processing = 0 := by
    rw [hinv.processing, hquiet]
    rfl
  refine ⟨?_, ?_⟩
  · have := hinv.acc.ids
    rw [hquiet] at this
    rw [hinv.acc.planned]
    simpa [toWrite] using this
  · rcases synced_run disk remote acts hsafe h0 hlast hstores with ⟨t, ht, -⟩ | h
    · rw [hquiet] at ht
      simp at ht
    · exact h

/-- The hypotheses of C18 hold at the end of a run of two batches. -/
example :
    let σ := run (init false [] none) (Sample.recorded ++ [.resume 0 {}])
    (∀ a ∈ Sample.recorded ++ [.resume 0 {}], Safe a) ∧ σ.tasks = [] ∧
      lastEligible σ.events = some true ∧ Ev.stored false ∉ σ.events ∧
      σ.remote = some [1, 2, 10, 3, 10] := by
  decide

/-- C18 does not hold without the condition on the last plan: a batch reported before the manifest is
exhausted (not eligible) may be the last one to be recorded, after an eligible one. Nothing is in
progress and nothing failed, but the remote holds nothing (`results.rs:194-203`). -/
theorem C18_full_statement_fails :
    ∃ acts : List Act, (∀ a ∈ acts, Safe a) ∧
      (∀ a ∈ acts, ∀ i out, a = .resume i out → out = fine) ∧
      Ev.acked 0 ∈ (run (init false [] none) acts).events ∧
      Ev.acked 1 ∈ (run (init false [] none) acts).events ∧
      (run (init false [] none) acts).tasks = [] ∧
      (run (init false [] none) acts).disk = [3, 10, 1, 2, 10] ∧
      (run (init false [] none) acts).remote = none := by
  refine ⟨[.results Sample.l1 false, .results Sample.l2 true, .resume 0 {}, .resume 0 {},
     .resume 1 {}, .resume 1 {}, .resume 1 {}, .resume 1 {}, .resume 0 {}, .resume 0 {}],
    by decide, ?_, by decide⟩
  intro a ha i out h
  subst h
  simp at ha
  have h : out = ({} : Out) := by grind
  exact h

/-- C18, exactly: at every moment the remote holds what it held at first, if no copy of the file was made, or else what the
file held at one moment, since which no copy was made. -/
theorem C18_remote_exact (disk : Bytes) (remote : Option Bytes) (acts : List Act) (hsafe : ∀ a ∈ acts, Safe a) :
    let σ := run (init false disk remote) acts
    (σ.remote = remote ∧ ∀ e ∈ σ.events, ¬ Copied e) ∨
    ∃ base pre post, σ.events = pre ++ post ∧ bases pre = [base] ∧ σ.remote = some (content base pre) ∧
      ∀ e ∈ post, ¬ Copied e :=
  dated_run disk remote acts hsafe

/-- A batch recorded after the last copy: the remote holds the file as it was before. -/
example :
    let acts := Sample.recorded ++ [.resume 0 {}, .results [7] false, .resume 0 {}, .resume 0 {}, .resume 0 {}]
    let σ := run (init false [] none) acts
    (∀ a ∈ acts, Safe a) ∧ σ.tasks = [] ∧ σ.remote = some [1, 2, 10, 3, 10] ∧ σ.disk = [1, 2, 10, 3, 10, 7, 10] := by
  decide

/-! ## C19 -/

/-- C19, exactly: what the file held when it was first opened, which all streams begin with, is what the disk held or the beginning of
what the remote held; and what the remote held, if it held anything, when all downloads are completed. -/
theorem C19_first_exact (noop : Bool) (disk : Bytes) (remote : Option Bytes) (acts : List Act) (base : Bytes)
    (h : base ∈ bases (run (init noop disk remote) acts).events) :
    (base = disk ∨ noop = false ∧ ∃ copy k, remote = some copy ∧ base = copy.take k) ∧
    ((∀ i out, Act.resume i out ∈ acts → out.load = .ok) →
      base = if noop then disk else remote.getD disk) := by
  have hi : First (∀ i out, Act.resume i out ∈ acts → out.load = .ok) disk (if noop then none else remote) (init noop disk remote) :=
    ⟨fun _ => ⟨rfl, rfl, Or.inl rfl, fun _ => rfl⟩, (fun b hb => nomatch hb)⟩
  obtain ⟨h1, h2⟩ := (first_run acts hi fun hw => hw).base base h
  cases noop with
  | true =>
    refine ⟨?_, fun hw => h2 hw⟩
    rcases h1 with h1 | ⟨_, _, h1, -⟩
    · exact Or.inl h1
    · cases h1
  | false =>
    refine ⟨?_, fun hw => h2 hw⟩
    rcases h1 with h1 | ⟨r, k, h1, h3⟩
    · exact Or.inl h1
    · exact Or.inr ⟨rfl, r, k, h1, h3⟩

/-- A queue that starts with a file beside an older remote copy: the copy is what counts, and the rest of the file is gone; if the
download breaks off, the beginning of the copy. -/
example :
    bases (run (init false [1, 10, 2, 10] (some [1, 10])) [.request, .resume 0 {}, .resume 0 {}]).events = [[1, 10]] ∧
    bases (run (init false [1, 10, 2, 10] (some [1, 10])) [.request, .resume 0 {}, .resume 0 { load := .cut 1 }]).events = [[1]] := by
  decide

/-- C19: whatever happened before, including failures of the remote, a results request made while no plan
is pending and carried out without a failure is answered with everything put in the file so far. -/
theorem C19_reading_succeeds_partial (disk : Bytes) (remote : Option Bytes) (acts : List Act)
    (hsafe : ∀ a ∈ acts, Safe a)
    (hopen : (run (init false disk remote) acts).fd ≠ none)
    (hidle : (run (init false disk remote) acts).processing = 0) :
    ∃ base, bases (run (init false disk remote) acts).events = [base] ∧
      (run (run (init false disk remote) acts)
          [.request, .resume (run (init false disk remote) acts).tasks.length fine]).events =
        (run (init false disk remote) acts).events ++
          [.asked (run (init false disk remote) acts).nextRead,
           .stream (run (init false disk remote) acts).nextRead
            (content base (run (init false disk remote) acts).events)] := by
  obtain ⟨hinv, hno, -⟩ := run_ok false disk remote acts hsafe
  have hrem := rem_run false disk remote acts
  generalize run (init false disk remote) acts = σ at *
  have hc := hinv.content
  cases hfd : σ.fd with
  | none => exact absurd hfd hopen
  | some fd =>
    cases fd with
    | opened =>
      simp only [Content, hfd] at hc
      obtain ⟨base, hb, hd⟩ := hc
      refine ⟨base, hb, ?_⟩
      simp [run, step, hidle, Res.add, stepTask, fastPath, hfd, runOp, fine, hd, after]
    | offloaded =>
      simp only [Content, hfd] at hc
      obtain ⟨base, hb, hd⟩ := hc
      refine ⟨base, hb, ?_⟩
      cases hr : σ.remote with
      | none => exact absurd hr (hrem.offloaded hno hfd)
      | some x =>
        have := hd x hr
        subst this
        simp [run, step, hidle, Res.add, stepTask, fastPath, hfd, runOp, fine, after, load, hr]

/-- An offloaded file whose first reload broke off half way: the request fails, the next one reads
everything. -/
example :
    let σ := run (init false [] none) (Sample.recorded ++
      [.resume 0 {}, .offload (some 5) 20 10 .ok, .request, .resume 0 { load := .cut 2 }])
    σ.fd = some .offloaded ∧ σ.processing = 0 ∧ σ.disk = [1, 2] ∧
      (run σ [.request, .resume 0 fine]).events.getLast? = some (.stream 1 [1, 2, 10, 3, 10]) := by
  decide

/-- C19 does not hold of offloads when no remote is configured: the `NoopPersister` accepts the file
without keeping it, the file is emptied, and no later request is ever answered with results. -/
theorem C19_full_statement_fails :
    ∃ acts : List Act, (∀ a ∈ acts, Safe a) ∧
      Ev.wrote 0 [1, 2, 10] true ∈ (run (init true [] none) acts).events ∧
      ∀ more r bytes, Ev.stream r bytes ∉ (run (run (init true [] none) acts) more).events := by
  refine ⟨Sample.recorded ++ [.resume 0 {}, .offload (some 5) 20 10 .ok], by decide, by decide, ?_⟩
  intro more r bytes
  have key : ∀ σ : Res, σ.noop = true ∧ σ.fd = some .offloaded ∧ σ.remote = none ∧
      (Ev.stream r bytes ∉ σ.events) → ∀ more, Ev.stream r bytes ∉ (run σ more).events := by
    intro σ h more
    induction more generalizing σ with
    | nil => exact h.2.2.2
    | cons a more ih =>
      refine ih (step σ a) ?_
      obtain ⟨h1, h2, h3, h4⟩ := h
      cases a with
      | results line e => exact ⟨h1, h2, h3, by simp [step, Res.add, h4]⟩
      | summary line e => exact ⟨h1, h2, h3, by simp [step, Res.add, h4]⟩
      | request => simp only [step]; split <;> exact ⟨h1, h2, h3, by simp [Res.add, h4]⟩
      | offload c now accessed o =>
        simp only [step, offload, h2]
        simp [Res.add, h1, h2, h3, h4]
      | resume i out =>
        simp only [step]
        split
        · exact ⟨h1, h2, h3, h4⟩
        · rename_i t _
          have hfast : ∀ ts o, fastPath { σ with tasks := ts } o out =
              some ({ σ with tasks := ts }, failed o) := by
            intro ts o
            simp [fastPath, h2, h3, load]
          have hfailed : ∀ o, Ev.stream r bytes ≠ failed o := by
            intro o
            cases o <;> simp [failed]
          cases t with
          | ack id line e => simp only [stepTask]; split <;> exact ⟨h1, h2, h3, by simp [Res.add, h4]⟩
          | finish id e => exact ⟨h1, h2, h3, by simp [stepTask, Res.add, h4]⟩
          | op o e st =>
            cases st with
            | fast =>
              simp only [stepTask, hfast]
              exact ⟨h1, h2, h3, by simp [Res.add, h4, hfailed]⟩
            | second =>
              simp only [stepTask, hfast]
              exact ⟨h1, h2, h3, by simp [Res.add, h4, hfailed]⟩
            | slow =>
              simp only [stepTask, slowPath, h2, if_true]
              exact ⟨h1, rfl, h3, by simp [Res.add, h4]⟩
  refine key _ ⟨by decide, by decide, by decide, ?_⟩ more
  have : ∀ ev ∈ (run (init true [] none)
      (Sample.recorded ++ [.resume 0 {}, .offload (some 5) 20 10 .ok])).events,
      (match ev with | .stream _ _ => false | _ => true) = true := by decide
  intro h
  exact absurd (this _ h) (by simp)

/-- C19 does not hold when the remote fails at the first access in a life of the queue: the failure to
load is ignored (`results/fs.rs:176-188`), and the results of the earlier life are overwritten in the
remote by the new ones. -/
theorem C19_failed_first_load_overwrites_remote :
    ∃ acts : List Act, (∀ a ∈ acts, Safe a) ∧
      (run (init false [] (some [1, 2, 10])) acts).remote = some [3, 10] ∧
      (run (init false [] (some [1, 2, 10])) acts).tasks = [] :=
  ⟨[.results Sample.l2 true, .resume 0 {}, .resume 0 {}, .resume 0 { load := .refused }, .resume 0 {},
    .resume 0 {}, .resume 0 {}], by decide⟩

/-! ## C20 -/

/-- C20: an offload job empties a results file only if the file is open and not empty, was last accessed
in the past, and at least the configured threshold ago; with no threshold it never does. -/
theorem C20_only_stale_nonempty_files (σ : Res) (c : OffloadConfig) (now accessed : Nat)
    (o : OffloadOut)
    (h : (step σ (.offload c now accessed o)).disk ≠ σ.disk ∨
      (step σ (.offload c now accessed o)).remote ≠ σ.remote ∨
      (step σ (.offload c now accessed o)).events = σ.events ++ [.offload true]) :
    σ.fd = some .opened ∧ σ.disk ≠ [] ∧ accessed ≤ now ∧
      ∃ threshold, c = some threshold ∧ accessed + threshold ≤ now := by
  have hc : σ.fd = some .opened ∧ fileEligible c now accessed σ.disk.length = true := by
    apply Classical.byContradiction
    intro hc
    simp [step, offload, hc, Res.add] at h
  refine ⟨hc.1, ?_⟩
  have h2 := hc.2
  simp only [fileEligible, Bool.and_eq_true, decide_eq_true_eq] at h2
  obtain ⟨hlen, ht⟩ := h2
  refine ⟨by rintro h; simp [h] at hlen, ?_⟩
  by_cases hacc : accessed > now
  · simp [hacc] at ht
  · simp only [hacc, if_false] at ht
    refine ⟨by omega, ?_⟩
    cases c with
    | none => simp [shouldOffload] at ht
    | some t =>
      simp only [shouldOffload, ge_iff_le, decide_eq_true_eq] at ht
      exact ⟨t, rfl, by omega⟩

/-- C20, the other direction: an open, non-empty file that is stale is offloaded when nothing fails. -/
theorem C20_stale_files_are_offloaded (σ : Res) (threshold now accessed : Nat)
    (hfd : σ.fd = some .opened) (hne : σ.disk ≠ []) (hold : accessed + threshold ≤ now) :
    (step σ (.offload (some threshold) now accessed .ok)).fd = some .offloaded ∧
      (step σ (.offload (some threshold) now accessed .ok)).disk = [] := by
  have hlen : 0 < σ.disk.length := List.length_pos_iff.mpr hne
  have : fileEligible (some threshold) now accessed σ.disk.length = true := by
    simp only [fileEligible, shouldOffload]
    have : ¬ accessed > now := by omega
    simp only [this, if_false, Bool.and_eq_true, decide_eq_true_eq]
    omega
  simp [step, offload, hfd, this, Res.add]

/-- Two files of the sample, at the threshold and just below it. -/
example :
    (run (init false [] none) (Sample.recorded ++ [.offload (some 10) 20 10 .ok])).disk = [] ∧
    (run (init false [] none) (Sample.recorded ++ [.offload (some 11) 20 10 .ok])).disk ≠ [] := by
  decide

/-! ## C57 -/

/-- C57: if a life of the queue ends as in C18, then the next life, whatever is left of the local file,
answers the first results request with everything recorded in the earlier one. -/
theorem C57_results_survive_restart_partial (disk : Bytes) (remote : Option Bytes) (acts : List Act)
    (hsafe : ∀ a ∈ acts, Safe a)
    (hquiet : (run (init false disk remote) acts).tasks = [])
    (hlast : lastEligible (run (init false disk remote) acts).events = some true)
    (hstores : storesOk (run (init false disk remote) acts).events) (left : Bytes) :
    ∃ base, bases (run (init false disk remote) acts).events = [base] ∧
      Ev.stream 0 (content base (run (init false disk remote) acts).events) ∈
        (run (init false left (run (init false disk remote) acts).remote)
          [.request, .resume 0 fine, .resume 0 fine, .resume 0 fine]).events := by
  obtain ⟨-, base, hb, hr⟩ :=
    C18_remote_holds_everything_partial disk remote acts hsafe hquiet hlast hstores
  refine ⟨base, hb, ?_⟩
  rw [hr]
  simp [run, step, init, stepTask, fastPath, slowPath, load, fine, Res.add, runOp, after]

/-- C57, exactly: what is left after a life of the queue that ended at any moment. The first results request of the next life, if
nothing fails, is answered with the copy in the remote: what the file held at one moment of the earlier life, since which no copy
was made, or what the remote held before that life. Only if there is no copy in the remote is it answered with what is left of
the file; as long as the machine is the same, that is everything that was written. -/
theorem C57_what_survives (disk : Bytes) (remote : Option Bytes) (acts : List Act) (hsafe : ∀ a ∈ acts, Safe a)
    (left : Bytes) :
    let σ := run (init false disk remote) acts
    ∃ bytes, (run (init false left σ.remote) [.request, .resume 0 fine, .resume 0 fine, .resume 0 fine]).events.getLast? =
        some (.stream 0 bytes) ∧
      ((bytes = left ∧ σ.remote = none ∧ ∀ base, bases σ.events = [base] → σ.disk = content base σ.events) ∨
       (remote = some bytes ∧ ∀ e ∈ σ.events, ¬ Copied e) ∨
       ∃ base pre post, σ.events = pre ++ post ∧ bases pre = [base] ∧ bytes = content base pre ∧
         ∀ e ∈ post, ¬ Copied e) := by
  intro σ
  have hlast : ∀ r : Option Bytes, (run (init false left r)
      [.request, .resume 0 fine, .resume 0 fine, .resume 0 fine]).events.getLast? = some (.stream 0 (r.getD left)) := by
    intro r
    cases r <;> simp [run, step, init, stepTask, fastPath, slowPath, load, fine, Res.add, runOp, after]
  refine ⟨_, hlast _, ?_⟩
  obtain ⟨hi, hno, _⟩ := run_ok false disk remote acts hsafe
  have hrem := rem_run false disk remote acts
  cases hr : σ.remote with
  | none =>
    refine .inl ⟨rfl, rfl, fun base hb => ?_⟩
    have hc := hi.content
    cases hfd : (run (init false disk remote) acts).fd with
    | none =>
      simp only [Content, hfd] at hc
      rw [show bases σ.events = [] from hc.1] at hb
      cases hb
    | some fd =>
      cases fd with
      | opened =>
        simp only [Content, hfd] at hc
        obtain ⟨base', hb', hd⟩ := hc
        rw [show bases σ.events = [base'] from hb'] at hb
        cases hb
        exact hd
      | offloaded => exact absurd hr (hrem.offloaded hno hfd)
  | some x =>
    right
    rcases dated_run disk remote acts hsafe with ⟨h1, h2⟩ | ⟨base, pre, post, h1, h2, h3, h4⟩
    · left
      exact ⟨by rw [← h1]; exact hr, h2⟩
    · right
      refine ⟨base, pre, post, h1, h2, ?_, h4⟩
      rw [show (run (init false disk remote) acts).remote = some x from hr] at h3
      cases h3
      rfl

/-- A queue that is killed after the acknowledged results `[7]` were written but not copied: the next life does not have them,
although they are on its disk. -/
example :
    let acts := Sample.recorded ++ [.resume 0 {}, .results [7] false, .resume 0 {}, .resume 0 {}]
    let σ := run (init false [] none) acts
    (∀ a ∈ acts, Safe a) ∧ Ev.acked 2 ∈ σ.events ∧ σ.disk = [1, 2, 10, 3, 10, 7, 10] ∧
      (run (init false σ.disk σ.remote) [.request, .resume 0 fine, .resume 0 fine, .resume 0 fine]).events.getLast? =
        some (.stream 0 [1, 2, 10, 3, 10]) := by
  decide

/-- C57 does not hold in general: a batch is acknowledged before it is written anywhere. A queue that
stops in between has lost it, and a queue that stops before the dump to the remote loses it when the
next life replaces the local file by the remote copy. -/
theorem C57_full_statement_fails :
    (∃ acts : List Act, (∀ a ∈ acts, Safe a) ∧
      Ev.acked 0 ∈ (run (init false [] none) acts).events ∧
      (run (init false [] none) acts).disk = [] ∧ (run (init false [] none) acts).remote = none) ∧
    ∃ acts : List Act, (∀ a ∈ acts, Safe a) ∧
      Ev.acked 0 ∈ (run (init false [] (some [9, 10])) acts).events ∧
      (run (init false [] (some [9, 10])) acts).disk = [9, 10, 3, 10] ∧
      (run (init false (run (init false [] (some [9, 10])) acts).disk
          (run (init false [] (some [9, 10])) acts).remote)
        [.request, .resume 0 fine, .resume 0 fine, .resume 0 fine]).events.getLast? =
          some (.stream 0 [9, 10]) :=
  ⟨⟨[.results Sample.l2 true, .resume 0 {}], by decide⟩,
    ⟨[.results Sample.l2 true, .resume 0 {}, .resume 0 {}, .resume 0 {}, .resume 0 {}], by decide⟩⟩

end Abq.Props
