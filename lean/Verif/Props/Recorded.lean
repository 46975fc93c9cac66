import Verif.Props.Fetch
import Verif.Props.Results
/-!
# From recorded results to the report (C98)

The machine of `Model/Results.lean`, the stream of `Model/Framing.lean`, the client of `Model/Fetch.lean` and the report of
`Model/Report.lean` put together.
-/

namespace Abq.Props
open Abq.Fetch
open Abq.Results (Bytes Ev Res init run step)
open Abq.Results.Spec

/-- Nothing is in the file before its first use, and it is opened empty. -/
structure Fresh (σ : Res) : Prop where
  unused : σ.fd = none → σ.disk = [] ∧ σ.remote = none
  opened : ∀ b, Ev.opened b ∈ σ.events → b = []

theorem fresh_add {σ : Res} (h : Fresh σ) (evs : List Ev) (ts : List Results.Task) (he : ∀ b, Ev.opened b ∉ evs) :
    Fresh (σ.add evs ts) where
  unused := h.unused
  opened b hb := by
    rcases List.mem_append.1 hb with hb | hb
    · exact h.opened b hb
    · exact absurd hb (he b)

theorem not_opened_one (ev : Ev) (h : ∀ b, ev ≠ .opened b) : ∀ b, Ev.opened b ∉ [ev] := by
  intro b hb
  exact h b (List.mem_singleton.1 hb).symm

theorem runOp_not_opened (noop : Bool) (disk : Bytes) (remote : Option Bytes) (io : Results.IoOut) (o : Results.Op) (b : Bytes) :
    (Results.runOp noop disk remote io o).2.2 ≠ .opened b := by
  cases o <;> cases io <;> simp [Results.runOp]

theorem failed_not_opened (o : Results.Op) (b : Bytes) : Results.failed o ≠ .opened b := by
  cases o <;> simp [Results.failed]

theorem fresh_fast {σ τ : Res} {o : Results.Op} {out : Results.Out} {ev : Ev} (h : Fresh σ)
    (hf : Results.fastPath σ o out = some (τ, ev)) : Fresh τ ∧ ∀ b, ev ≠ .opened b := by
  unfold Results.fastPath at hf
  cases hfd : σ.fd with
  | none => rw [hfd] at hf; simp at hf
  | some fd =>
    cases fd with
    | opened =>
      rw [hfd] at hf
      simp only [Option.some.injEq, Prod.mk.injEq] at hf
      obtain ⟨rfl, rfl⟩ := hf
      exact ⟨⟨fun e => by simp [hfd] at e, h.opened⟩, runOp_not_opened _ _ _ _ _⟩
    | offloaded =>
      rw [hfd] at hf
      dsimp only at hf
      split at hf
      · simp only [Option.some.injEq, Prod.mk.injEq] at hf
        obtain ⟨rfl, rfl⟩ := hf
        exact ⟨⟨fun e => by simp at e, h.opened⟩, runOp_not_opened _ _ _ _ _⟩
      · simp only [Option.some.injEq, Prod.mk.injEq] at hf
        obtain ⟨rfl, rfl⟩ := hf
        exact ⟨⟨fun e => by simp [hfd] at e, h.opened⟩, failed_not_opened _⟩

theorem fresh_slow {σ : Res} (h : Fresh σ) (out : Results.Out) : Fresh (Results.slowPath σ out).1 := by
  unfold Results.slowPath
  cases hfd : σ.fd with
  | some fd => exact h
  | none =>
    obtain ⟨hd, hr⟩ := h.unused hfd
    dsimp only
    have hl : (Results.load σ.remote σ.disk out.load).2 = [] := by
      rw [hr, hd]
      unfold Results.load
      cases out.load <;> rfl
    split
    · refine ⟨fun e => by simp at e, fun b hb => ?_⟩
      rcases List.mem_append.1 hb with hb | hb
      · exact h.opened b hb
      · have := List.mem_singleton.1 hb
        injection this with this
        rw [this, hl]
    · exact ⟨fun _ => ⟨hl, hr⟩, h.opened⟩

theorem fresh_task {σ : Res} (h : Fresh σ) (out : Results.Out) (t : Results.Task) : Fresh (Results.stepTask σ out t) := by
  cases t with
  | ack id line e =>
    simp only [Results.stepTask]
    split
    · refine fresh_add h _ _ ?_; simp
    · refine fresh_add h _ _ ?_; simp
  | finish id e =>
    simp only [Results.stepTask]
    have h' : Fresh { σ with processing := σ.processing - 1 } := ⟨h.unused, h.opened⟩
    refine fresh_add h' _ _ ?_; simp
  | op o e st =>
    cases st with
    | fast =>
      simp only [Results.stepTask]
      cases hf : Results.fastPath σ o out with
      | none => refine fresh_add h _ _ ?_; simp
      | some x =>
        obtain ⟨τ, ev⟩ := x
        obtain ⟨h1, h2⟩ := fresh_fast h hf
        exact fresh_add h1 _ _ (not_opened_one _ h2)
    | slow =>
      simp only [Results.stepTask]
      split
      · refine fresh_add (fresh_slow h out) _ _ ?_; simp
      · exact fresh_add (fresh_slow h out) _ _ (not_opened_one _ (failed_not_opened o))
    | second =>
      simp only [Results.stepTask]
      cases hf : Results.fastPath σ o out with
      | none => exact fresh_add h _ _ (not_opened_one _ (failed_not_opened o))
      | some x =>
        obtain ⟨τ, ev⟩ := x
        obtain ⟨h1, h2⟩ := fresh_fast h hf
        exact fresh_add h1 _ _ (not_opened_one _ h2)

theorem fresh_step {σ : Res} (h : Fresh σ) (a : Results.Act) : Fresh (step σ a) := by
  cases a with
  | results line e =>
    have h' : Fresh { σ with processing := σ.processing + 1, nextId := σ.nextId + 1 } := ⟨h.unused, h.opened⟩
    refine fresh_add h' _ _ ?_; simp
  | summary line e =>
    have h' : Fresh { σ with processing := σ.processing + 1, nextId := σ.nextId + 1 } := ⟨h.unused, h.opened⟩
    refine fresh_add h' _ _ ?_; simp
  | request =>
    simp only [step]
    split
    · have h' : Fresh { σ with nextRead := σ.nextRead + 1 } := ⟨h.unused, h.opened⟩
      refine fresh_add h' _ _ ?_; simp
    · refine fresh_add h _ _ ?_; simp
  | resume i out =>
    simp only [step]
    split
    · exact h
    · have h' : Fresh { σ with tasks := σ.tasks.eraseIdx i } := ⟨h.unused, h.opened⟩
      exact fresh_task h' _ _
  | offload c now acc o =>
    simp only [step, Results.offload]
    split
    · rename_i hc
      cases o
      · have h' : Fresh { σ with remote := Results.store σ.noop σ.remote σ.disk, disk := [], fd := some .offloaded } :=
          ⟨fun e => by simp at e, h.opened⟩
        refine fresh_add h' _ _ ?_; simp
      · refine fresh_add h _ _ ?_; simp
      · have h' : Fresh { σ with remote := Results.store σ.noop σ.remote σ.disk } :=
          ⟨fun e => by simp [hc.1] at e, h.opened⟩
        refine fresh_add h' _ _ ?_; simp
      · have h' : Fresh { σ with remote := Results.store σ.noop σ.remote σ.disk, disk := [] } :=
          ⟨fun e => by simp [hc.1] at e, h.opened⟩
        refine fresh_add h' _ _ ?_; simp
    · refine fresh_add h _ _ ?_; simp

theorem fresh_run (noop : Bool) (acts : List Results.Act) : Fresh (run (init noop [] none) acts) := by
  unfold run
  have h0 : Fresh (init noop [] none) := ⟨fun _ => ⟨rfl, by cases noop <;> rfl⟩, by simp [init]⟩
  revert h0
  generalize init noop [] none = σ
  induction acts generalizing σ with
  | nil => exact fun h => h
  | cons a acts ih => exact fun h => ih _ (fresh_step h a)

/-- What a client can be sent is all that was recorded before it asked. -/
theorem recorded_stream (noop : Bool) (acts : List Results.Act) (hsafe : ∀ a ∈ acts, Safe a) (a b d : List Ev) (r : Nat) (bytes : Bytes)
    (h : (run (init noop [] none) acts).events = a ++ .asked r :: b ++ .stream r bytes :: d)
    (hok : writesOk (a ++ b)) :
    ∃ recs : List (Nat × Bytes), bytes = recs.flatMap (fun p => p.2 ++ [10]) ∧ (recs.map (·.1)).Nodup ∧
      (∀ p ∈ recs, p ∈ planned (a ++ b)) ∧ (∀ p ∈ planned a, p.1 ∈ recs.map (·.1)) ∧
      (∀ id ∈ acked a, id ∈ recs.map (·.1)) := by
  obtain ⟨_, -, hk⟩ := Results.run_ok noop [] none acts hsafe
  have hasked := hk a (.asked r) (b ++ .stream r bytes :: d) (by simpa using h)
  obtain ⟨base, hbase, hb⟩ := hk _ _ _ h
  obtain ⟨_, _, hnd, hack, hch⟩ := C17_acknowledged_batches_are_read_partial noop [] none acts hsafe a b d r bytes h
  have hbase0 : base = [] := by
    apply (fresh_run noop acts).opened
    rw [h]
    have : base ∈ bases (a ++ .asked r :: b) := by rw [hbase]; simp
    unfold bases at this
    rw [List.mem_filterMap] at this
    obtain ⟨ev, hm, he⟩ := this
    cases ev <;> simp at he
    subst he
    exact List.mem_append.2 (.inl hm)
  have hwab : writes (a ++ .asked r :: b) = writes (a ++ b) := by simp [writes]
  have hb : bytes = ((writes (a ++ b)).map (·.2.1)).flatten := by rw [hb, content, hbase0, hwab]; rfl
  have key : ∀ ws : List (Nat × Bytes × Bool), (∀ w ∈ ws, w ∈ writes (a ++ b)) →
      ∃ recs : List (Nat × Bytes), recs.map (·.1) = ws.map (·.1) ∧ (∀ p ∈ recs, p ∈ planned (a ++ b)) ∧
        (ws.map (·.2.1)).flatten = recs.flatMap (fun p => p.2 ++ [10]) := by
    intro ws
    induction ws with
    | nil => exact fun _ => ⟨[], rfl, by simp, rfl⟩
    | cons w ws ih =>
      intro hws
      obtain ⟨recs, h1, h2, h3⟩ := ih fun w hw => hws w (List.mem_cons_of_mem _ hw)
      have hw := hws w List.mem_cons_self
      obtain ⟨line, hl, he⟩ := hch w hw (hok w hw)
      refine ⟨(w.1, line) :: recs, by simp [h1], ?_, ?_⟩
      · intro p hp
        rcases List.mem_cons.1 hp with rfl | hp
        · exact hl
        · exact h2 p hp
      · rw [List.map_cons, List.flatten_cons, h3, he, List.flatMap_cons]
  obtain ⟨recs, h1, h2, h3⟩ := key _ fun _ hw => hw
  refine ⟨recs, by rw [hb, h3], by rw [h1]; exact hnd, h2, ?_, ?_⟩
  · intro p hp
    rw [h1]
    show p.1 ∈ written (a ++ b)
    rw [Results.written_append]
    exact List.mem_append_left _ (hasked.mem_iff.2 (List.mem_map.2 ⟨p, hp, rfl⟩))
  · intro id hid
    rw [h1]
    exact hack id hid

theorem fetch_after_pending {L : Type} (c : Codec L) (pre : List Attempt) (t : Attempt) (post : List Attempt) (conn : Conn)
    (hpre : ∀ q ∈ pre ++ [t], (∃ k, 1 ≤ k ∧ k ≤ 5 ∧ q.connects k = true) ∧ q.sent = true)
    (hp : ∀ q ∈ pre, q.reply = some .pending) (ht : t.reply = some (.streaming conn)) :
    fetch c (pre ++ t :: post) = readResults c conn := by
  induction pre with
  | nil =>
    obtain ⟨h1, h2⟩ := hpre t (by simp)
    rw [List.nil_append, fetch, (connect_iff _).2 h1]
    dsimp only
    rw [if_pos h2, ht]
  | cons q pre ih =>
    obtain ⟨h1, h2⟩ := hpre q (by simp)
    rw [List.cons_append, fetch, (connect_iff _).2 h1]
    dsimp only
    rw [if_pos h2, hp q List.mem_cons_self]
    dsimp only
    exact ih (fun z hz => hpre z (List.mem_cons_of_mem _ hz)) (fun z hz => hp z (List.mem_cons_of_mem _ hz))

/-- **C98**, part. Let recordings of lines be begun and a client then ask, as often as it is told to wait, until it is
answered with a stream, of which all comes in. Then it gets one line for each recording begun before its last request,
among them all that were acknowledged, each once, and no line that was not given to be recorded. (In one life of the
queue, if no write to the file fails and the offload job is not left half done, as in C17, and below 4 GiB.) -/
theorem C98_fetched_partial {L : Type} (c : Codec L) (lineOf : Nat → L) (noop : Bool) (acts : List Results.Act)
    (hsafe : ∀ a ∈ acts, Safe a) (a b d : List Ev) (r : Nat) (bytes : Bytes)
    (h : (run (init noop [] none) acts).events = a ++ .asked r :: b ++ .stream r bytes :: d)
    (hok : writesOk (a ++ b))
    (henc : ∀ p ∈ planned (a ++ b), c.Lawful (lineOf p.1) ∧ onWire p.2 = c.encode (lineOf p.1))
    (hsz : bytes.length < 2 ^ 32)
    (pre : List Attempt) (t : Attempt) (post : List Attempt) (broken : Bool)
    (hpre : ∀ q ∈ pre ++ [t], (∃ k, 1 ≤ k ∧ k ≤ 5 ∧ q.connects k = true) ∧ q.sent = true)
    (hp : ∀ q ∈ pre, q.reply = some .pending)
    (ht : t.reply = some (.streaming ⟨Wire.streamBytes bytes.length (onWire bytes), broken⟩)) :
    ∃ ids : List Nat, fetch c (pre ++ t :: post) = .ok (ids.map lineOf) ∧ ids.Nodup ∧
      (∀ p ∈ planned a, p.1 ∈ ids) ∧ (∀ id ∈ acked a, id ∈ ids) ∧ (∀ id ∈ ids, ∃ p ∈ planned (a ++ b), p.1 = id) := by
  obtain ⟨recs, h1, h2, h3, h4, h5⟩ := recorded_stream noop acts hsafe a b d r bytes h hok
  have hfile : onWire bytes = fileOf c ((recs.map (·.1)).map lineOf) := by
    rw [h1]
    clear h1 h2 h4 h5
    induction recs with
    | nil => rfl
    | cons p recs ih =>
      have he := (henc p (h3 p List.mem_cons_self)).2
      have := ih fun q hq => h3 q (List.mem_cons_of_mem _ hq)
      unfold onWire at this he ⊢
      rw [List.flatMap_cons, List.map_append, this, List.map_cons, List.map_cons, fileOf_cons, List.map_append, he,
        List.append_assoc]
      rfl
  have hlen : bytes.length = (fileOf c ((recs.map (·.1)).map lineOf)).length := by
    rw [← hfile, onWire, List.length_map]
  refine ⟨recs.map (·.1), ?_, h2, h4, h5, ?_⟩
  · rw [fetch_after_pending c pre t post _ hpre hp ht, hfile, hlen]
    apply readResults_whole
    · intro l hl
      simp only [List.mem_map] at hl
      obtain ⟨_, ⟨p, hp, rfl⟩, rfl⟩ := hl
      exact (henc p (h3 p hp)).1
    · rw [← hlen]; exact hsz
  · intro id hid
    obtain ⟨p, hp, rfl⟩ := List.mem_map.1 hid
    exact ⟨p, h3 p hp, rfl⟩

/-- **C98** does not hold as it stands: when the truncation after an offload cannot be synced (C17), a client that asks for
results the queue has acknowledged and written is sent an empty stream, and reads it without an error. -/
theorem C98_full_statement_fails {L : Type} (c : Codec L) :
    ∃ acts a, (run (init false [] none) acts).events = a ++ [.asked 0, .stream 0 []] ∧ .acked 0 ∈ a ∧
      .wrote 0 [1, 2, 10] true ∈ a ∧
      fetch c [⟨fun _ => true, true, some (.streaming ⟨Wire.streamBytes 0 (onWire []), false⟩)⟩] = .ok [] := by
  refine ⟨Sample.recorded ++ [.resume 0 {}, .offload (some 5) 20 10 .syncFails, .request, .resume 0 {}],
    ((run (init false [] none) (Sample.recorded ++
      [.resume 0 {}, .offload (some 5) 20 10 .syncFails, .request, .resume 0 {}])).events.dropLast).dropLast,
    by decide, by decide, by decide, ?_⟩
  have := fetch_after_pending c [] ⟨fun _ => true, true, some (.streaming ⟨Wire.streamBytes 0 (onWire []), false⟩)⟩ []
    ⟨Wire.streamBytes 0 (onWire []), false⟩ (by intro q hq; simp at hq; subst hq; exact ⟨⟨1, by decide, by decide, rfl⟩, rfl⟩)
    (by simp) rfl
  rw [List.nil_append] at this
  rw [this]
  exact readResults_whole (c := c) [] (by simp) (Nat.two_pow_pos 32) false

theorem perm_of_same {α : Type} {l l' : List α} (hn : l.Nodup) (hn' : l'.Nodup) (h : ∀ x, x ∈ l ↔ x ∈ l') : l.Perm l' :=
  (List.perm_ext_iff_of_nodup hn hn').2 h

/-- **C98**, part. If no recording is begun between the request and its answer, the client gets exactly the lines of the recordings
begun before, each once. -/
theorem C98_fetched_all_partial {L : Type} (c : Codec L) (lineOf : Nat → L) (noop : Bool) (acts : List Results.Act)
    (hsafe : ∀ a ∈ acts, Safe a) (a b d : List Ev) (r : Nat) (bytes : Bytes)
    (h : (run (init noop [] none) acts).events = a ++ .asked r :: b ++ .stream r bytes :: d)
    (hok : writesOk (a ++ b)) (hb : planned b = [])
    (henc : ∀ p ∈ planned a, c.Lawful (lineOf p.1) ∧ onWire p.2 = c.encode (lineOf p.1))
    (hsz : bytes.length < 2 ^ 32)
    (pre : List Attempt) (t : Attempt) (post : List Attempt) (broken : Bool)
    (hpre : ∀ q ∈ pre ++ [t], (∃ k, 1 ≤ k ∧ k ≤ 5 ∧ q.connects k = true) ∧ q.sent = true)
    (hp : ∀ q ∈ pre, q.reply = some .pending)
    (ht : t.reply = some (.streaming ⟨Wire.streamBytes bytes.length (onWire bytes), broken⟩)) :
    ∃ lines, fetch c (pre ++ t :: post) = .ok lines ∧ lines.Perm ((planned a).map fun p => lineOf p.1) := by
  have hpab : planned (a ++ b) = planned a := by
    have : planned (a ++ b) = planned a ++ planned b := by simp [planned]
    rw [this, hb, List.append_nil]
  obtain ⟨ids, hfetch, hnd, hin, _, hout⟩ := C98_fetched_partial c lineOf noop acts hsafe a b d r bytes h hok
    (by rw [hpab]; exact henc) hsz pre t post broken hpre hp ht
  rw [hpab] at hout
  obtain ⟨hinv, -, hk⟩ := Results.run_ok noop [] none acts hsafe
  have hpn : ((planned a).map (·.1)).Nodup := by
    have hpl := hinv.acc.planned
    have : (planned (run (init noop [] none) acts).events).map (·.1)
        = (planned a).map (·.1) ++ (planned (.asked r :: b ++ .stream r bytes :: d)).map (·.1) := by
      rw [h, List.append_assoc, ← List.map_append]
      simp [planned]
    rw [this] at hpl
    exact (List.nodup_append.1 (hpl ▸ List.nodup_range)).1
  have hperm : ids.Perm ((planned a).map (·.1)) := perm_of_same hnd hpn fun x => by
    constructor
    · intro hx
      obtain ⟨p, hp, e⟩ := hout x hx
      exact List.mem_map.2 ⟨p, hp, e⟩
    · intro hx
      obtain ⟨p, hp, rfl⟩ := List.mem_map.1 hx
      exact hin p hp
  refine ⟨ids.map lineOf, hfetch, ?_⟩
  have := hperm.map lineOf
  rwa [List.map_map] at this

/-- A report is made of the lines recorded, in some order. -/
theorem report_recorded (c : Codec Report.Line) (lineOf : Nat → Report.Line) (noop : Bool) (acts : List Results.Act)
    (hsafe : ∀ a ∈ acts, Safe a) (a b d : List Ev) (r : Nat) (bytes : Bytes)
    (h : (run (init noop [] none) acts).events = a ++ .asked r :: b ++ .stream r bytes :: d)
    (hok : writesOk (a ++ b)) (hb : planned b = [])
    (henc : ∀ p ∈ planned a, c.Lawful (lineOf p.1) ∧ onWire p.2 = c.encode (lineOf p.1))
    (hsz : bytes.length < 2 ^ 32)
    (pre : List Attempt) (t : Attempt) (post : List Attempt) (broken : Bool)
    (hpre : ∀ q ∈ pre ++ [t], (∃ k, 1 ≤ k ∧ k ≤ 5 ∧ q.connects k = true) ∧ q.sent = true)
    (hp : ∀ q ∈ pre, q.reply = some .pending)
    (ht : t.reply = some (.streaming ⟨Wire.streamBytes bytes.length (onWire bytes), broken⟩))
    (sort : List Report.Group → List Report.Group) (hs : Report.IsSort sort) (rs : List Report.Reporter)
    (hf : ∀ r ∈ rs, r.Fine) (all : List Report.Line) (hall : all = (planned a).map fun p => lineOf p.1)
    (works : List Nat) (hn : works.Nodup) (hw : ∀ w, w ∈ works ↔ ∃ g ∈ Report.received all, g.workId = w)
    (hsum : Report.summaries all = [works.length]) :
    ∃ lines code, report c sort rs (pre ++ t :: post) = .ended (Report.process sort rs lines) ∧
      (Report.process sort rs lines).result = .ok code ∧ (Report.received lines).Perm (Report.received all) := by
  obtain ⟨lines, hfetch, hlp⟩ := C98_fetched_all_partial c lineOf noop acts hsafe a b d r bytes h hok hb henc hsz pre t post broken
    hpre hp ht
  rw [← hall] at hlp
  have hrp : (Report.received lines).Perm (Report.received all) := hlp.flatMap_right _
  have hsp : Report.summaries lines = [works.length] := by
    have : (Report.summaries lines).Perm (Report.summaries all) := hlp.filterMap _
    rw [hsum] at this
    exact List.perm_singleton.1 this
  have hw' : ∀ w, w ∈ works ↔ ∃ g ∈ Report.received lines, g.workId = w := by
    intro w
    rw [hw]
    constructor
    · rintro ⟨g, hg, e⟩; exact ⟨g, hrp.mem_iff.2 hg, e⟩
    · rintro ⟨g, hg, e⟩; exact ⟨g, hrp.mem_iff.1 hg, e⟩
  obtain ⟨code, hcode⟩ := (C48_succeeds_iff sort hs rs hf lines works hn hw').2 (by rw [hsp]; rfl)
  exact ⟨lines, code, by rw [report, hfetch], hcode, hrp⟩

theorem sorted_the_same (sort : List Report.Group → List Report.Group) (hs : Report.IsSort sort) {gs gs' : List Report.Group}
    (hp : gs.Perm gs') (h1 : Report.OneRun gs') : sort gs = sort gs' := by
  refine C40_independent_of_arrival sort sort hs hs _ _ hp ?_
  refine (h1.perm hp).one.imp ?_
  intro x y hxy hk
  exact hxy ⟨hk.1, hk.2.2⟩

/-- **C98**, part. If moreover the recordings begun before the request are those of one run of a suite (as in C48) with the
summary and results of every test of the manifest, and no other is begun before the answer, then the report is complete,
and it ends with exit code 0 iff every test passed in one of its attempts and no crash is left without a result. -/
theorem C98_report_partial (c : Codec Report.Line) (lineOf : Nat → Report.Line) (noop : Bool) (acts : List Results.Act)
    (hsafe : ∀ a ∈ acts, Safe a) (a b d : List Ev) (r : Nat) (bytes : Bytes)
    (h : (run (init noop [] none) acts).events = a ++ .asked r :: b ++ .stream r bytes :: d)
    (hok : writesOk (a ++ b)) (hb : planned b = [])
    (henc : ∀ p ∈ planned a, c.Lawful (lineOf p.1) ∧ onWire p.2 = c.encode (lineOf p.1))
    (hsz : bytes.length < 2 ^ 32)
    (pre : List Attempt) (t : Attempt) (post : List Attempt) (broken : Bool)
    (hpre : ∀ q ∈ pre ++ [t], (∃ k, 1 ≤ k ∧ k ≤ 5 ∧ q.connects k = true) ∧ q.sent = true)
    (hp : ∀ q ∈ pre, q.reply = some .pending)
    (ht : t.reply = some (.streaming ⟨Wire.streamBytes bytes.length (onWire bytes), broken⟩))
    (sort : List Report.Group → List Report.Group) (hs : Report.IsSort sort) (rs : List Report.Reporter)
    (hf : ∀ r ∈ rs, r.Fine) (all : List Report.Line) (hall : all = (planned a).map fun p => lineOf p.1)
    (works : List Nat) (hn : works.Nodup) (hw : ∀ w, w ∈ works ↔ ∃ g ∈ Report.received all, g.workId = w)
    (hsum : Report.summaries all = [works.length]) (h1 : Report.SingleRun (Report.received all)) :
    ∃ o code, report c sort rs (pre ++ t :: post) = .ended o ∧ o.result = .ok code ∧
      (code = 0 ↔ (Summary.unresolved (Report.history (sort (Report.received all))) = [] ∧
        ∀ id, Summary.failedAlways (Summary.resultsOf (Report.history (Report.received all)) id) = false)) := by
  obtain ⟨lines, code, hrep, hcode, hrp⟩ := report_recorded c lineOf noop acts hsafe a b d r bytes h hok hb henc hsz pre t post
    broken hpre hp ht sort hs rs hf all hall works hn hw hsum
  refine ⟨Report.process sort rs lines, code, hrep, hcode, ?_⟩
  rw [C48_exit_code_one_run sort hs rs _ (h1.perm hrp) code hcode]
  have hsort : sort (Report.received lines) = sort (Report.received all) := sorted_the_same sort hs hrp h1.toOneRun
  rw [hsort]
  have hfa : ∀ id, Summary.failedAlways (Summary.resultsOf (Report.history (sort (Report.received all))) id)
      = Summary.failedAlways (Summary.resultsOf (Report.history (Report.received all)) id) := by
    intro id
    have key : Summary.failedAlways (Summary.resultsOf (Report.history (sort (Report.received all))) id) = false ↔
        Summary.failedAlways (Summary.resultsOf (Report.history (Report.received all)) id) = false := by
      rw [failedAlways_iff, failedAlways_iff]
      simp only [(hs.perm (Report.received all)).mem_iff]
    cases hx : Summary.failedAlways (Summary.resultsOf (Report.history (Report.received all)) id) with
    | false => exact key.2 hx
    | true =>
      cases hy : Summary.failedAlways (Summary.resultsOf (Report.history (sort (Report.received all))) id) with
      | true => rfl
      | false => rw [key.1 hy] at hx; cases hx
  simp only [hfa]

/-! ## A case -/

/-- The texts of the lines of `fetchLines` are recorded, the first by way of the slow path; the file is offloaded, and the
client asks. -/
def recordedActs : List Results.Act :=
  [.results [1, 9] true, .results [2, 9] true] ++ List.replicate 20 (.resume 0 {}) ++
  [.results [3, 9] true] ++ List.replicate 20 (.resume 0 {}) ++ [.offload (some 5) 20 10 .ok, .request, .resume 0 {}]

def recordedEvents : List Ev :=
  [.planned 0 [1, 9], .planned 1 [2, 9], .acked 0, .acked 1, .opened [], .wrote 0 [1, 9, 10] true, .wrote 1 [2, 9, 10] true,
   .finished 0 true, .finished 1 true, .stored true, .planned 2 [3, 9], .acked 2, .wrote 2 [3, 9, 10] true,
   .finished 2 true, .stored true, .offload true]

def recordedLine : Nat → Report.Line
  | 0 => .results [fetchFirst]
  | 1 => .summary 1
  | _ => .results [fetchSecond]

def recordedAttempts : List Attempt :=
  [⟨fun _ => true, true, some .pending⟩,
   ⟨fun k => k == 2, true, some (.streaming ⟨[0, 0, 0, 9, 1, 9, 10, 2, 9, 10, 3, 9, 10], false⟩)⟩]

/-- The client asks twice, and the report ends with exit code 0: the test failed and then passed. -/
example : ∃ o, report fetchCodec sortGroups [quiet] recordedAttempts = .ended o ∧ o.result = .ok 0 := by
  have hall : fetchLines = (planned recordedEvents).map fun p => recordedLine p.1 := by decide
  obtain ⟨o, code, h1, h2, h3⟩ := C98_report_partial fetchCodec recordedLine false recordedActs (by decide) recordedEvents [] [] 0
    [1, 9, 10, 2, 9, 10, 3, 9, 10] (by decide) (by unfold writesOk; decide) (by decide)
    (by
      intro p hp
      have hp : p ∈ [(0, [1, 9]), (1, [2, 9]), (2, [3, 9])] := hp
      have hl := fetchCodec_lawful
      simp only [List.mem_cons, List.not_mem_nil, or_false] at hp
      rcases hp with rfl | rfl | rfl
      · exact ⟨hl _ (by simp [recordedLine, fetchLines]), by decide⟩
      · exact ⟨hl _ (by simp [recordedLine, fetchLines]), by decide⟩
      · exact ⟨hl _ (by simp [recordedLine, fetchLines]), by decide⟩)
    (by decide) [⟨fun _ => true, true, some .pending⟩]
    ⟨fun k => k == 2, true, some (.streaming ⟨[0, 0, 0, 9, 1, 9, 10, 2, 9, 10, 3, 9, 10], false⟩)⟩ [] false
    (by
      intro q hq
      have hq : q ∈ recordedAttempts := hq
      simp only [recordedAttempts, List.mem_cons, List.not_mem_nil, or_false] at hq
      rcases hq with rfl | rfl
      · exact ⟨⟨1, by omega, by omega, rfl⟩, rfl⟩
      · exact ⟨⟨2, by omega, by omega, rfl⟩, rfl⟩)
    (by simp) rfl sortGroups Report.isSort_mergeSort [quiet] (by simp [quiet, Report.Reporter.Fine]) fetchLines hall [1] (by simp)
    (by
      intro w
      constructor
      · intro h
        rw [List.mem_singleton.1 h]
        exact ⟨fetchFirst, by decide, rfl⟩
      · rintro ⟨g, hg, rfl⟩
        have hg : g ∈ [fetchFirst, fetchSecond] := hg
        simp only [List.mem_cons, List.not_mem_nil, or_false] at hg
        rcases hg with rfl | rfl <;> simp [fetchFirst, fetchSecond])
    rfl fetchLines_fit.2.1
  refine ⟨o, h1, ?_⟩
  rw [h2, h3.2 ?_]
  refine ⟨?_, ?_⟩
  · rw [fetch_sorted sortGroups Report.isSort_mergeSort]
    rfl
  · intro id
    rw [failedAlways_iff]
    rintro ⟨g, hg, t, ht, rfl, _⟩
    refine ⟨fetchSecond, by decide, passedAt "t" 20, by simp [fetchSecond], ?_, by simp [passedAt], rfl⟩
    have hg : g ∈ [fetchFirst, fetchSecond] := hg
    simp only [List.mem_cons, List.not_mem_nil, or_false] at hg
    rcases hg with rfl | rfl
    · simp only [fetchFirst, List.mem_singleton] at ht; rw [ht]; rfl
    · simp only [fetchSecond, List.mem_singleton] at ht; rw [ht]

end Abq.Props
