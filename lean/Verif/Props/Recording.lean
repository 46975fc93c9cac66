import Verif.Proof.Recording
/-!
# C144: what is served of a run is what the queue took for it

The registry (`Model/AllRuns.lean`) and the files of results (`Model/Results.lean`) put together, and the client of C98.
-/

namespace Abq.Props
open Abq.Recording Abq.Fetch
open Abq.Results (Bytes)
open Abq.Results.Spec (planned writesOk)
variable {T : Type}

/-- **C144**, part. At every time, whatever the queue took for a run, the size of its manifest and each batch of results, is either
recorded (its recording begun) or about to be, once, and nothing else is. -/
theorem C144_nothing_lost_partial (enc : Report.Line → Bytes) (noop : Bool) (acts : List (Recording.Act T)) (rid : RunId) :
    ((due rid ((init T noop).run enc acts).log).map enc).Perm
      ((planned (fileEvents rid ((init T noop).run enc acts).log)).map (·.2) ++
        (waiting rid ((init T noop).run enc acts).handlers).map enc) := by
  have h := inv_run enc noop acts
  rw [h.events, h.lines, ← List.map_append]
  exact (h.due rid).map enc

/-- **C144**, part. Results are served only of runs whose one manifest was accepted before, or that were loaded from the remote. -/
theorem C144_after_manifest_partial (enc : Report.Line → Bytes) (noop : Bool) (acts : List (Recording.Act T)) (rid : RunId) (a b : List (Obs T))
    (r : Nat) (h : ((init T noop).run enc acts).log = a ++ .file rid (.asked r) :: b) :
    (∃ n, Report.summaries (due rid a) = [n]) ∨ ∃ d, .registry (.loaded rid d) ∈ a := by
  have hi := inv_run enc noop acts
  obtain ⟨ras, hr⟩ := hi.registry
  have hread := (allowed_run enc noop acts rid).asked a b r h
  have hev : (Runs.init.run ras).events = registryEvents a ++ registryEvents (.file rid (.asked r) :: b) := by
    rw [← hr, ← hi.asked, h, registryEvents_append]
  rcases known_run ras rid _ _ hev (List.mem_filterMap.2 ⟨_, hread, rfl⟩) with hk | ⟨d, hd⟩
  · rw [← summaries_due] at hk
    exact .inl (List.length_eq_one_iff.1 hk)
  · obtain ⟨o, ho, he⟩ := List.mem_filterMap.1 hd
    cases o with
    | registry ev => simp at he; subst he; exact .inr ⟨d, ho⟩
    | took => simp at he
    | file => simp at he

/-- **C144**, part. At no time was more than one manifest accepted for a run. -/
theorem C144_one_manifest (enc : Report.Line → Bytes) (noop : Bool) (acts : List (Recording.Act T)) (rid : RunId) :
    (Report.summaries (due rid ((init T noop).run enc acts).log)).length ≤ 1 := by
  have hi := inv_run enc noop acts
  obtain ⟨ras, hr⟩ := hi.registry
  rw [summaries_due, hi.asked, hr]
  exact settled_le (settled_run ras rid)

theorem split_perm {l : List Report.Line} {ids : List Nat} {k m : Nat} (hm : m ≤ l.length) (hn : ids.Nodup)
    (hlo : ∀ i, i < k → i ∈ ids) (hhi : ∀ i ∈ ids, i < m) (hk : k ≤ m) :
    (∃ late, (ids.map fun i => l.getD i (.summary 0)).Perm (l.take k ++ late)) ∧
    ∃ rest, (l.take m).Perm ((ids.map fun i => l.getD i (.summary 0)) ++ rest) := by
  have take_eq : ∀ j, j ≤ l.length → l.take j = (List.range j).map fun i => l.getD i (.summary 0) := by
    intro j hj
    apply List.ext_getElem
    · simp; omega
    · intro i h1 h2
      have : i < l.length := by simp at h1; omega
      simp [this]
  have sub : ∀ {a b : List Nat}, a.Nodup → b.Nodup → (∀ i ∈ a, i ∈ b) → b.Perm (a ++ b.filter fun i => !decide (i ∈ a)) := by
    intro a b ha hb hab
    refine (List.perm_ext_iff_of_nodup hb ?_).2 fun i => ?_
    · refine List.nodup_append.2 ⟨ha, hb.filter _, ?_⟩
      rintro x hx y hy rfl
      simp at hy
      exact hy.2 hx
    · by_cases hi : i ∈ a
      · simp [hi, hab i hi]
      · simp [hi]
  refine ⟨⟨(ids.filter fun i => !decide (i ∈ List.range k)).map fun i => l.getD i (.summary 0), ?_⟩,
    ⟨((List.range m).filter fun i => !decide (i ∈ ids)).map fun i => l.getD i (.summary 0), ?_⟩⟩
  · rw [take_eq k (Nat.le_trans hk hm), ← List.map_append]
    exact (sub List.nodup_range hn fun i hi => hlo i (List.mem_range.1 hi)).map _
  · rw [take_eq m hm, ← List.map_append]
    exact (sub hn List.nodup_range fun i hi => List.mem_range.2 (hhi i hi)).map _

/-- **C144**, part. A client that asks until it is answered with a stream, all of which comes in, gets every line whose recording was
begun before its last request, and nothing but what the queue took for this run before it answered, each once. (As in C98: in one life
of the queue, if no write to the file fails and no offload of it is left half done, and below 4 GiB.) -/
theorem C144_served_partial (c : Codec Report.Line) (enc : Report.Line → Bytes) (noop : Bool) (acts : List (Recording.Act T)) (rid : RunId)
    (hsafe : ∀ x ∈ acts, x.Safe rid) (a b d : List (Obs T)) (r : Nat) (bytes : Bytes)
    (h : ((init T noop).run enc acts).log = a ++ .file rid (.asked r) :: b ++ .file rid (.stream r bytes) :: d)
    (hok : writesOk (fileEvents rid (a ++ b)))
    (henc : ∀ l ∈ due rid (a ++ b), c.Lawful l ∧ onWire (enc l) = c.encode l)
    (hsz : bytes.length < 2 ^ 32)
    (pre : List Attempt) (t : Attempt) (post : List Attempt) (broken : Bool)
    (hpre : ∀ q ∈ pre ++ [t], (∃ k, 1 ≤ k ∧ k ≤ 5 ∧ q.connects k = true) ∧ q.sent = true)
    (hp : ∀ q ∈ pre, q.reply = some .pending)
    (ht : t.reply = some (.streaming ⟨Wire.streamBytes bytes.length (onWire bytes), broken⟩)) :
    ∃ begun lines late rest more, fetch c (pre ++ t :: post) = .ok lines ∧
      begun.map enc = (planned (fileEvents rid a)).map (·.2) ∧ (due rid a).Perm (begun ++ more) ∧ lines.Perm (begun ++ late) ∧
      (due rid (a ++ b)).Perm (lines ++ rest) := by
  have hi := inv_run enc noop acts
  obtain ⟨fs, hfs, hf⟩ := files_run enc noop rid acts hsafe
  have hpast := past_run enc noop acts rid
  have hls := hi.lines rid
  have hev := hi.events rid
  obtain ⟨hinv, -, -⟩ := Results.run_ok noop [] none fs hfs
  have hids := hinv.acc.planned
  rw [hf] at hls hev
  rw [← hev] at hls hids
  have hsplit : fileEvents rid ((init T noop).run enc acts).log =
      fileEvents rid a ++ .asked r :: fileEvents rid b ++ .stream r bytes :: fileEvents rid d := by
    rw [h]; simp [fileEvents, List.filterMap_cons]
  obtain ⟨h1, rest, h2⟩ := hpast (a ++ .file rid (.asked r) :: b) (.file rid (.stream r bytes) :: d) h
  obtain ⟨-, more, h3⟩ := hpast a (.file rid (.asked r) :: b ++ .file rid (.stream r bytes) :: d) (by rw [h, List.append_assoc])
  revert hls h1 h2 h3
  generalize ((init T noop).run enc acts).lines rid = ls
  intro hls h1 h2 h3
  have hpl : planned (fileEvents rid ((init T noop).run enc acts).log) =
      planned (fileEvents rid a) ++ planned (fileEvents rid b) ++ planned (fileEvents rid d) := by
    rw [hsplit]; simp [planned]
  have hab : planned (fileEvents rid a ++ fileEvents rid b) = planned (fileEvents rid a) ++ planned (fileEvents rid b) := by
    simp [planned]
  have hab' : planned (fileEvents rid (a ++ .file rid (.asked r) :: b)) = planned (fileEvents rid a) ++ planned (fileEvents rid b) := by
    simp [planned, fileEvents, List.filterMap_cons]
  have hdue : due rid (a ++ .file rid (.asked r) :: b) = due rid (a ++ b) := by simp [due]
  rw [hab'] at h1 h2
  rw [hdue] at h2
  rw [hpl] at hls hids
  have hnth : ∀ i (hi : i < (planned (fileEvents rid a) ++ planned (fileEvents rid b)).length),
      (planned (fileEvents rid a) ++ planned (fileEvents rid b))[i] = (i, enc (ls.getD i (.summary 0))) := by
    intro i hi
    have hi' : i < ls.length := by omega
    have e1 := congrArg (·[i]?) hls
    have e2 := congrArg (·[i]?) hids
    have e3 : (planned (fileEvents rid a) ++ planned (fileEvents rid b) ++ planned (fileEvents rid d))[i]? =
        some (planned (fileEvents rid a) ++ planned (fileEvents rid b))[i] := by
      rw [List.getElem?_append_left hi, List.getElem?_eq_getElem hi]
    simp only [List.getElem?_map, e3, Option.map_some] at e1 e2
    refine Prod.ext ?_ ?_
    · have := List.getElem?_eq_some_iff.1 e2.symm
      obtain ⟨_, h⟩ := this
      simpa using h.symm
    · simpa [hi'] using e1
  have hmem : ∀ p ∈ planned (fileEvents rid a ++ fileEvents rid b),
      p.1 < (planned (fileEvents rid a) ++ planned (fileEvents rid b)).length ∧ p.2 = enc (ls.getD p.1 (.summary 0)) := by
    intro p hp
    rw [hab] at hp
    obtain ⟨i, hi, rfl⟩ := List.getElem_of_mem hp
    rw [hnth i hi]
    exact ⟨hi, rfl⟩
  obtain ⟨ids, hfetch, hnd, hlo, -, hhi⟩ := C98_fetched_partial c (fun i => ls.getD i (.summary 0)) noop fs hfs
    (fileEvents rid a) (fileEvents rid b) (fileEvents rid d) r bytes (by rw [← hev, hsplit])
    (by rwa [fileEvents_append] at hok)
    (by
      intro p hp
      obtain ⟨hi, he⟩ := hmem p hp
      rw [he]
      refine henc _ (h2.mem_iff.2 (List.mem_append_left _ ?_))
      have : p.1 < ls.length := by omega
      rw [List.getD_eq_getElem?_getD, List.getElem?_eq_getElem this]
      exact List.mem_take_iff_getElem.2 ⟨p.1, by omega, rfl⟩)
    hsz pre t post broken hpre hp ht
  obtain ⟨⟨late, hl⟩, rest', hr⟩ := split_perm (ids := ids) (k := (planned (fileEvents rid a)).length) h1 hnd
    (by
      intro i hi
      have hi' : i < (planned (fileEvents rid a) ++ planned (fileEvents rid b)).length := by simp; omega
      have := hnth i hi'
      rw [List.getElem_append_left hi] at this
      have := hlo _ (List.getElem_mem hi)
      simp_all)
    (by
      intro i hi
      obtain ⟨p, hp, rfl⟩ := hhi i hi
      exact (hmem p hp).1) (by simp)
  refine ⟨ls.take (planned (fileEvents rid a)).length, _, late, rest' ++ rest, more, hfetch, ?_, h3, hl, ?_⟩
  · rw [List.map_take, ← hls, ← List.map_take, List.append_assoc, List.take_left']
    rfl
  · refine h2.trans ?_
    rw [← List.append_assoc]
    exact hr.append_right _

/-- **C144**, part. If, when it asks, as many recordings were begun as were due, and the queue takes no more for the run until it
answers, then the client gets exactly what the queue took for the run: the size of its manifest and every batch of results. -/
theorem C144_served_all_partial (c : Codec Report.Line) (enc : Report.Line → Bytes) (noop : Bool) (acts : List (Recording.Act T))
    (rid : RunId) (hsafe : ∀ x ∈ acts, x.Safe rid) (a b d : List (Obs T)) (r : Nat) (bytes : Bytes)
    (h : ((init T noop).run enc acts).log = a ++ .file rid (.asked r) :: b ++ .file rid (.stream r bytes) :: d)
    (hok : writesOk (fileEvents rid (a ++ b)))
    (hall : (planned (fileEvents rid a)).length = (due rid a).length) (hno : due rid b = [])
    (henc : ∀ l ∈ due rid a, c.Lawful l ∧ onWire (enc l) = c.encode l)
    (hsz : bytes.length < 2 ^ 32)
    (pre : List Attempt) (t : Attempt) (post : List Attempt) (broken : Bool)
    (hpre : ∀ q ∈ pre ++ [t], (∃ k, 1 ≤ k ∧ k ≤ 5 ∧ q.connects k = true) ∧ q.sent = true)
    (hp : ∀ q ∈ pre, q.reply = some .pending)
    (ht : t.reply = some (.streaming ⟨Wire.streamBytes bytes.length (onWire bytes), broken⟩)) :
    ∃ lines, fetch c (pre ++ t :: post) = .ok lines ∧ lines.Perm (due rid a) := by
  have hdue : due rid (a ++ b) = due rid a := by rw [due_append, hno, List.append_nil]
  obtain ⟨begun, lines, late, rest, more, h1, h2, hm, h3, h4⟩ := C144_served_partial c enc noop acts rid hsafe a b d r bytes h hok
    (by rw [hdue]; exact henc) hsz pre t post broken hpre hp ht
  rw [hdue] at h4
  have l2 := congrArg List.length h2
  have l3 := h3.length_eq
  have l4 := h4.length_eq
  simp only [List.length_map, List.length_append] at l2 l3 l4
  have : rest = [] := List.eq_nil_of_length_eq_zero (by omega)
  subst this
  rw [List.append_nil] at h4
  exact ⟨lines, h1, h4.symm⟩

/-- **C144**, part. If the recording of the size of the manifest was begun before the request, what the client gets has the one
summary, with that size. -/
theorem C144_summary_partial (c : Codec Report.Line) (enc : Report.Line → Bytes) (noop : Bool) (acts : List (Recording.Act T))
    (rid : RunId) (hsafe : ∀ x ∈ acts, x.Safe rid) (a b d : List (Obs T)) (r : Nat) (bytes : Bytes)
    (h : ((init T noop).run enc acts).log = a ++ .file rid (.asked r) :: b ++ .file rid (.stream r bytes) :: d)
    (hok : writesOk (fileEvents rid (a ++ b)))
    (id n : Nat) (hn : .file rid (.planned id (enc (.summary n))) ∈ a)
    (henc : ∀ l ∈ .summary n :: due rid (a ++ b), c.Lawful l ∧ onWire (enc l) = c.encode l)
    (hsz : bytes.length < 2 ^ 32)
    (pre : List Attempt) (t : Attempt) (post : List Attempt) (broken : Bool)
    (hpre : ∀ q ∈ pre ++ [t], (∃ k, 1 ≤ k ∧ k ≤ 5 ∧ q.connects k = true) ∧ q.sent = true)
    (hp : ∀ q ∈ pre, q.reply = some .pending)
    (ht : t.reply = some (.streaming ⟨Wire.streamBytes bytes.length (onWire bytes), broken⟩)) :
    ∃ lines, fetch c (pre ++ t :: post) = .ok lines ∧ Report.summaries lines = [n] ∧ Report.summaries (due rid a) = [n] := by
  obtain ⟨begun, lines, late, rest, more, h1, h2, hm, h3, h4⟩ := C144_served_partial c enc noop acts rid hsafe a b d r bytes h hok
    (fun l hl => henc l (List.mem_cons_of_mem _ hl)) hsz pre t post broken hpre hp ht
  have inj : ∀ l ∈ begun, enc l = enc (.summary n) → l = .summary n := by
    intro l hl e
    have hl := henc l (List.mem_cons_of_mem _ (by
      rw [due_append]; exact List.mem_append_left _ (hm.mem_iff.2 (List.mem_append_left _ hl))))
    have hn := henc (.summary n) List.mem_cons_self
    have e1 := hl.1.readBack
    rw [← hl.2, e, hn.2, hn.1.readBack] at e1
    exact Option.some.inj e1.symm
  have hmem : enc (.summary n) ∈ begun.map enc := by
    rw [h2]
    refine List.mem_map.2 ⟨(id, enc (.summary n)), ?_, rfl⟩
    refine List.mem_filterMap.2 ⟨.planned id (enc (.summary n)), ?_, rfl⟩
    exact List.mem_filterMap.2 ⟨_, hn, by simp⟩
  have hb : Report.Line.summary n ∈ begun := by
    obtain ⟨l, hl, e⟩ := List.mem_map.1 hmem
    rwa [inj _ hl e] at hl
  have hone := C144_one_manifest enc noop acts rid
  have hle : (Report.summaries (due rid (a ++ b))).length ≤ 1 := by
    refine Nat.le_trans ?_ hone
    rw [h]
    simp [due, Report.summaries]
  have hin : n ∈ Report.summaries lines :=
    List.mem_filterMap.2 ⟨_, h3.mem_iff.2 (List.mem_append_left _ hb), rfl⟩
  have hsum : (Report.summaries (due rid (a ++ b))).Perm (Report.summaries lines ++ Report.summaries rest) := by
    have := h4.filterMap (f := fun | Report.Line.results _ => none | .summary n => some n)
    rwa [List.filterMap_append] at this
  have hlen := hsum.length_eq
  rw [List.length_append] at hlen
  have one : ∀ {l : List Nat}, n ∈ l → l.length ≤ 1 → l = [n] := by
    intro l hm hl
    match l, hm, hl with
    | [x], hm, _ => rw [List.mem_singleton.1 hm]
  refine ⟨lines, h1, one hin (by omega), one ?_ ?_⟩
  · exact List.mem_filterMap.2 ⟨_, hm.mem_iff.2 (List.mem_append_left _ hb), rfl⟩
  · refine Nat.le_trans ?_ hle
    simp [due, Report.summaries]

/-- **C144**, part. If moreover results of every test of the manifest were taken, the report succeeds, whatever the reporters and
the order in which lines reached the file. -/
theorem C144_report_partial (c : Codec Report.Line) (enc : Report.Line → Bytes) (noop : Bool) (acts : List (Recording.Act T))
    (rid : RunId) (hsafe : ∀ x ∈ acts, x.Safe rid) (a b d : List (Obs T)) (r : Nat) (bytes : Bytes)
    (h : ((init T noop).run enc acts).log = a ++ .file rid (.asked r) :: b ++ .file rid (.stream r bytes) :: d)
    (hok : writesOk (fileEvents rid (a ++ b)))
    (hall : (planned (fileEvents rid a)).length = (due rid a).length) (hno : due rid b = [])
    (henc : ∀ l ∈ due rid a, c.Lawful l ∧ onWire (enc l) = c.encode l)
    (hsz : bytes.length < 2 ^ 32)
    (pre : List Attempt) (t : Attempt) (post : List Attempt) (broken : Bool)
    (hpre : ∀ q ∈ pre ++ [t], (∃ k, 1 ≤ k ∧ k ≤ 5 ∧ q.connects k = true) ∧ q.sent = true)
    (hp : ∀ q ∈ pre, q.reply = some .pending)
    (ht : t.reply = some (.streaming ⟨Wire.streamBytes bytes.length (onWire bytes), broken⟩))
    (hnew : ∀ d, .registry (.loaded rid d) ∉ a)
    (sort : List Report.Group → List Report.Group) (hs : Report.IsSort sort) (rs : List Report.Reporter)
    (hf : ∀ r ∈ rs, r.Fine) (works : List Nat) (hn : works.Nodup)
    (hw : ∀ w, w ∈ works ↔ ∃ g ∈ Report.received (due rid a), g.workId = w)
    (hsize : ∀ n ∈ Report.summaries (due rid a), n = works.length) :
    ∃ o code, report c sort rs (pre ++ t :: post) = .ended o ∧ o.result = .ok code := by
  obtain ⟨lines, hfetch, hlp⟩ := C144_served_all_partial c enc noop acts rid hsafe a b d r bytes h hok hall hno henc hsz pre t post
    broken hpre hp ht
  rcases C144_after_manifest_partial enc noop acts rid a (b ++ .file rid (.stream r bytes) :: d) r (by rw [h]; simp) with
    ⟨n, hsum⟩ | ⟨d, hd⟩
  · have hn' := hsize n (by rw [hsum]; simp)
    subst hn'
    have hrp : (Report.received lines).Perm (Report.received (due rid a)) := hlp.flatMap_right _
    have hsp : Report.summaries lines = [works.length] := by
      have : (Report.summaries lines).Perm (Report.summaries (due rid a)) := hlp.filterMap _
      rw [hsum] at this
      exact List.perm_singleton.1 this
    obtain ⟨code, hcode⟩ := (C48_succeeds_iff sort hs rs hf lines works hn fun w => by
      rw [hw]
      constructor
      · rintro ⟨g, hg, e⟩; exact ⟨g, hrp.mem_iff.2 hg, e⟩
      · rintro ⟨g, hg, e⟩; exact ⟨g, hrp.mem_iff.1 hg, e⟩).2 (by rw [hsp]; rfl)
    exact ⟨_, code, by rw [report, hfetch], hcode⟩
  · exact absurd hd (hnew d)

/-! ## A case -/

/-- As `fetchCodec`. -/
def recordingText (l : Report.Line) : Bytes :=
  if l = .results [fetchFirst] then [1, 9] else if l = .summary 1 then [2, 9] else [3, 9]

/-- A worker creates the run and brings a manifest with one test. -/
def recordingStart : List (Recording.Act Nat) :=
  [.call (.join (Sample.jp 1)), .call (.resume 0 .notFound true), .call (.request "run" (.addManifest [(10, 0)] "md"))]

/-- It takes the test, the last one. -/
def recordingWork : List (Recording.Act Nat) :=
  [.call (.request "run" (.nextWork (Sample.w 1))), .call (.resume 1 .notFound true), .call (.resume 1 .notFound true)]

/-- Two attempts at the test are reported, and all is recorded before the client asks. -/
def recordingAll : List (Recording.Act Nat) :=
  recordingStart ++ recordingWork ++
  [.report "run" [fetchFirst], .handle 0, .report "run" [fetchSecond], .handle 0, .call (.request "run" (.complete (Sample.w 1) 1)),
   .handle 0] ++ List.replicate 20 (.task "run" 0 {}) ++ [.call (.request "run" .readCell)]

/-- The client asks: the results come in another order. -/
def recordingAsked : List (Recording.Act Nat) := recordingAll ++ [.handle 0, .task "run" 0 {}]

def recordingAttempt : Attempt :=
  ⟨fun _ => true, true, some (.streaming ⟨[0, 0, 0, 9, 1, 9, 10, 3, 9, 10, 2, 9, 10], false⟩)⟩

theorem recordingText_lawful : ∀ l ∈ fetchLines, fetchCodec.Lawful l ∧ onWire (recordingText l) = fetchCodec.encode l := by
  intro l hl
  refine ⟨fetchCodec_lawful l hl, ?_⟩
  simp only [fetchLines, List.mem_cons, List.not_mem_nil, or_false] at hl
  rcases hl with rfl | rfl | rfl <;> decide

set_option maxRecDepth 20000 in
theorem recordingAsked_safe : ∀ x ∈ recordingAsked, x.Safe "run" := by decide

set_option maxRecDepth 20000 in
/-- The hypotheses are met, and the report is made although lines came in another order than they were taken. -/
example : ∃ o code, report fetchCodec sortGroups [quiet] [recordingAttempt] = .ended o ∧ o.result = .ok code :=
  C144_report_partial fetchCodec recordingText false recordingAsked "run" recordingAsked_safe
    ((init Nat false).run recordingText recordingAll).log [] [] 0 [1, 9, 10, 3, 9, 10, 2, 9, 10] rfl (by unfold writesOk; decide)
    (by decide) rfl (fun l hl => recordingText_lawful l ((by decide : ∀ l ∈ due "run" _, l ∈ fetchLines) l hl)) (by decide) []
    recordingAttempt [] false
    (by intro q hq; simp at hq; subst hq; exact ⟨⟨1, by decide, by decide, rfl⟩, rfl⟩) (by simp) rfl
    (by
      intro d hd
      have : (((init Nat false).run recordingText recordingAll).log.any fun | .registry (.loaded ..) => true | _ => false) = false := by
        decide
      rw [List.any_eq_false] at this
      exact this _ hd rfl)
    sortGroups Report.isSort_mergeSort [quiet] (by simp [quiet, Report.Reporter.Fine]) [1] (by simp)
    (by
      intro w
      have : Report.received (due "run" ((init Nat false).run recordingText recordingAll).log) = [fetchFirst, fetchSecond] := by decide
      rw [this]
      simp [fetchFirst, fetchSecond, eq_comm])
    (by decide)

set_option maxRecDepth 20000 in
/-- The size of the manifest was recorded before. -/
example : ∃ lines, fetch fetchCodec [recordingAttempt] = .ok lines ∧ Report.summaries lines = [1] ∧
    Report.summaries (due "run" ((init Nat false).run recordingText recordingAll).log) = [1] :=
  C144_summary_partial fetchCodec recordingText false recordingAsked "run" recordingAsked_safe
    ((init Nat false).run recordingText recordingAll).log [] [] 0 [1, 9, 10, 3, 9, 10, 2, 9, 10] rfl (by unfold writesOk; decide)
    0 1 (List.mem_of_getElem? (i := 6) rfl)
    (fun l hl => recordingText_lawful l ((by decide : ∀ l ∈ .summary 1 :: due "run" _, l ∈ fetchLines) l hl)) (by decide) []
    recordingAttempt [] false
    (by intro q hq; simp at hq; subst hq; exact ⟨⟨1, by decide, by decide, rfl⟩, rfl⟩) (by simp) rfl

/-- The handler of the manifest has not come to recording its size when the last runner is done. -/
def recordingLate : List (Recording.Act Nat) :=
  recordingStart ++ recordingWork ++ [.report "run" [fetchFirst], .handle 1] ++ List.replicate 8 (.task "run" 0 {}) ++
  [.call (.request "run" (.complete (Sample.w 1) 1)), .call (.request "run" .readCell), .handle 1, .task "run" 0 {}]

def recordingLateAttempt : Attempt := ⟨fun _ => true, true, some (.streaming ⟨[0, 0, 0, 3, 1, 9, 10], false⟩)⟩

set_option maxRecDepth 20000 in
/-- **C144** does not hold as it stands. The queue hands out the tests of a manifest before the recording of its size is begun, and
serves results as soon as all runners are done and no recording has been begun that is not over. So the size of the manifest, which
the queue took before, can be missing, though nothing failed, and the report fails. -/
theorem C144_full_statement_fails :
    ∃ a, ((init Nat false).run recordingText recordingLate).log = a ++ [.file "run" (.asked 0), .file "run" (.stream 0 [1, 9, 10])] ∧
      writesOk (fileEvents "run" a) ∧ (∀ x ∈ recordingLate, x.Safe "run") ∧
      due "run" a = [.summary 1, .results [fetchFirst]] ∧
      fetch fetchCodec [recordingLateAttempt] = .ok [.results [fetchFirst]] ∧
      ∃ o, report fetchCodec sortGroups [quiet] [recordingLateAttempt] = .ended o ∧ o.result = .error .noSummary := by
  have hfetch : fetch fetchCodec [recordingLateAttempt] = .ok [.results [fetchFirst]] := by
    have hc : connect recordingLateAttempt = .ok () := (connect_iff _).2 ⟨1, by omega, by omega, rfl⟩
    rw [fetch, hc]
    rfl
  refine ⟨((init Nat false).run recordingText recordingLate).log.dropLast.dropLast, rfl, by unfold writesOk; decide, by decide, by decide,
    hfetch, _, by rw [report, hfetch], ?_⟩
  exact (C48_incomplete sortGroups Report.isSort_mergeSort [quiet] (by simp [quiet, Report.Reporter.Fine])
    [.results [fetchFirst]] [1] (by simp) (by intro w; simp [Report.received, fetchFirst, eq_comm])).1 rfl

end Abq.Props
