import Verif.Proof.ReportServed
import Verif.Props.WholeQueue
import Verif.Props.ReportWait

/-!
# C153: a report has all results of a run soon after the last of them is recorded

The client of C149 and the queue of C144, in time. `history t` is what the scheduler of the queue has chosen by the time `t`, and `world`
what a client that asks for the results of the run gets to see, as `FromQueue` says.
-/

namespace Abq.Props
open Abq.Recording Abq.Fetch Abq.Spec.ReportServed
open Abq.ReportWait (wait)
open Abq.Spec.ReportWait (AnsweredIn)
open Abq.Results (Bytes)
open Abq.Results.Spec (planned writesOk begun over)
open Abq.Retries (TestSpec)
open Abq.Whole
variable {T : Type}

section
variable {enc : Report.Line → Bytes} {noop : Bool} {history : Nat → List (Recording.Act T)} {rid : RunId}

theorem seenBy_mono (hg : Grows history) {s t : Nat} (h : s ≤ t) : seenBy enc noop history s <+: seenBy enc noop history t := by
  obtain ⟨more, hm⟩ := hg s t h
  have grow : ∀ (acts : List (Recording.Act T)) (σ : State T), σ.log <+: (σ.run enc acts).log := by
    intro acts
    induction acts with
    | nil => exact fun _ => List.prefix_refl _
    | cons a acts ih =>
      intro σ
      obtain ⟨new, hl, -⟩ := step_log enc σ a
      exact List.IsPrefix.trans ⟨new, hl.symm⟩ (ih (σ.step enc a))
  unfold seenBy
  rw [← hm, State.run, State.run, List.foldl_append]
  exact grow more _

/-- When a request comes to the file, all that is due has been begun to be recorded. -/
theorem served_before (hg : Grows history) (hq : ∀ t, due rid (seenBy enc noop history t) = due rid (seenBy enc noop history 0))
    (hall : (planned (fileEvents rid (seenBy enc noop history 0))).length = (due rid (seenBy enc noop history 0)).length)
    {now t : Nat} {before after : List (Obs T)} (h1 : seenBy enc noop history now <+: before)
    (h2 : seenBy enc noop history t = before ++ after) :
    due rid before = due rid (seenBy enc noop history 0) ∧ due rid after = [] ∧
    planned (fileEvents rid before) = planned (fileEvents rid (seenBy enc noop history 0)) := by
  obtain ⟨x, hx⟩ := (seenBy_mono (enc := enc) (noop := noop) hg (Nat.zero_le now)).trans h1
  have hd := hq t
  rw [h2, ← hx, due_append, due_append] at hd
  have hl := congrArg List.length hd
  simp only [List.length_append] at hl
  have hx0 : due rid x = [] := List.eq_nil_of_length_eq_zero (by omega)
  have ha0 : due rid after = [] := List.eq_nil_of_length_eq_zero (by omega)
  have hdb : due rid before = due rid (seenBy enc noop history 0) := by rw [← hx, due_append, hx0, List.append_nil]
  refine ⟨hdb, ha0, ?_⟩
  obtain ⟨hle, rest, hp⟩ := past_run enc noop (history t) rid before after h2
  have hle' := hp.length_eq
  rw [hdb, List.length_append, List.length_take, Nat.min_eq_left hle] at hle'
  rw [← hx, fileEvents_append, planned_append'] at hle' ⊢
  rw [List.length_append] at hle'
  have : planned (fileEvents rid x) = [] := List.eq_nil_of_length_eq_zero (by omega)
  rw [this, List.append_nil]

end

/-- C153: let all runners of a run be done when a client begins to wait, and the recording of all that the queue ever takes for the run have
been begun by then. If all of it has been recorded by `ready`, turns are answered within `d`, and the time the client was given is not up
before, it has the results two turns and the pause between them after that, at the latest: the size of the manifest and every batch of
results that was taken, in some order, and nothing else. (As in C144: in one life of the queue, if no write to the file fails and no
offload of it is left half done, and below 4 GiB.) -/
theorem C153_in_time (c : Codec Report.Line) (enc : Report.Line → Bytes) (noop : Bool) (history : Nat → List (Recording.Act T)) (rid : RunId)
    (tie : Bool) (limit : Nat) (world : Nat → ReportWait.Turn) (hg : Grows history) (hw : FromQueue enc noop history rid world)
    (hq : ∀ t, due rid (seenBy enc noop history t) = due rid (seenBy enc noop history 0))
    (hall : (planned (fileEvents rid (seenBy enc noop history 0))).length = (due rid (seenBy enc noop history 0)).length)
    (ready d : Nat) (hlim : ready + 2 * d + 2000 < limit) (hd : ∀ n, n < limit → AnsweredIn (world n) d)
    (hready : ∀ id ∈ begun (fileEvents rid (seenBy enc noop history ready)), id ∈ over (fileEvents rid (seenBy enc noop history ready)))
    (hsafe : ∀ t, ∀ x ∈ history t, x.Safe rid) (hok : ∀ t, writesOk (fileEvents rid (seenBy enc noop history t)))
    (henc : ∀ l ∈ due rid (seenBy enc noop history 0), c.Lawful l ∧ onWire (enc l) = c.encode l) :
    ∃ lines, (wait c tie limit world).result = .ok lines ∧ lines.Perm (due rid (seenBy enc noop history 0)) ∧
      (wait c tie limit world).ended ≤ ready + 2 * d + 2000 := by
  have answered : ∀ n, n < limit → (world n).reply ≠ none := fun n h => (hd n h).2.2
  have late : ∀ n, n < limit → ready ≤ n → (world n).reply ≠ some .pending := by
    intro n hn hr hp
    obtain ⟨before, h1, ⟨t, ⟨after, h2⟩, -⟩ | ⟨t, r, meanwhile, bytes, broken, -, -, h⟩ | ⟨t, r, meanwhile, -, h⟩⟩ := hw n
    · obtain ⟨e1, e2, e3⟩ := served_before hg hq hall h1 (by rw [← h2, List.append_assoc])
      obtain ⟨-, -, e3'⟩ := served_before hg hq hall (now := ready) (t := ready) (after := []) (List.prefix_refl _) (by simp)
      obtain ⟨fs, -, hf⟩ := files_run enc noop rid (history t) (hsafe t)
      have hev := (inv_run enc noop (history t)).events rid
      rw [hf, show ((init T noop).run enc (history t)).log = seenBy enc noop history t from rfl, ← h2, List.append_assoc, fileEvents_append]
        at hev
      refine ResultsLive.pending_not_over noop [] none fs (fileEvents rid before) (fileEvents rid after)
        (by rw [← hev]; simp [fileEvents]) fun id hid => ?_
      obtain ⟨x, hx⟩ := (seenBy_mono (enc := enc) (noop := noop) hg hr).trans h1
      rw [begun_planned, e3, ← e3', ← begun_planned] at hid
      have := hready id hid
      rw [← hx, fileEvents_append, ResultsLive.over_append]
      exact List.mem_append_left _ this
    · rw [h] at hp; cases hp
    · exact answered n hn h
  obtain ⟨n, conn, hn, h1, h2, h3⟩ := C149_served c tie limit world ready d hlim hd
    (by
      intro n hn
      obtain ⟨before, h1, ⟨t, -, h⟩ | ⟨t, r, meanwhile, bytes, broken, -, -, h⟩ | ⟨t, r, meanwhile, -, h⟩⟩ := hw n
      · exact .inl h
      · exact .inr ⟨_, h⟩
      · exact (answered n hn h).elim)
    late
  obtain ⟨before, hb, ⟨t, -, h⟩ | ⟨t, r, meanwhile, bytes, broken, ⟨after, hl⟩, hsz, h⟩ | ⟨t, r, meanwhile, -, h⟩⟩ := hw n
  · rw [h] at h1; cases h1
  · obtain ⟨⟨k, k1, k5, hk, -⟩, hs, -⟩ := hd n (by omega)
    have hl' : seenBy enc noop history t = before ++ .file rid (.asked r) :: meanwhile ++ .file rid (.stream r bytes) :: after := by
      rw [← hl]; simp
    obtain ⟨e1, e2, e3⟩ := served_before hg hq hall hb (by rw [hl', List.append_assoc])
    have hconn : ∃ k, 1 ≤ k ∧ k ≤ 5 ∧ (world n).connects k = true := ⟨k, k1, k5, hk⟩
    obtain ⟨lines, hf, hp⟩ := C144_served_all_partial c enc noop (history t) rid (hsafe t) before meanwhile after r bytes hl'
      (by
        intro w hw
        refine hok t w ?_
        rw [hl']
        simp only [fileEvents_append, Results.writes_append, List.mem_append, List.append_assoc, List.cons_append] at hw ⊢
        simp only [fileEvents, List.filterMap_cons, Results.Spec.writes] at hw ⊢
        grind)
      (by rw [e1, e3, hall])
      (by
        have := congrArg List.length e2
        simp only [List.cons_append] at this
        rw [← List.nil_append (Obs.file rid (.asked r) :: _)] at this
        refine List.eq_nil_of_length_eq_zero ?_
        simp only [due, List.filterMap_cons, List.filterMap_append, List.nil_append, List.length_append, List.length_nil] at this ⊢
        omega)
      (by rw [e1]; exact henc) hsz [] (world n).toAttempt [] broken
      (by intro q hq; simp only [List.nil_append, List.mem_singleton] at hq; rw [hq]; exact ⟨hconn, hs⟩)
      (fun _ h => nomatch h) h
    rw [List.nil_append, ReportWait.fetch_cons ((connect_iff _).2 hconn) hs] at hf
    rw [e1] at hp
    refine ⟨lines, ?_, hp, h3⟩
    rw [h2, ← hf]
    have : (world n).toAttempt.reply = some (.streaming conn) := h1
    rw [this]
  · rw [h] at h1; cases h1

/-- C153, with C145: and it makes a complete report of them, whose exit code is 0 iff each test of the manifest passed in one of its
attempts. -/
theorem C153_exit_code (history : Nat → List (Recording.Act TestSpec)) (rid : RunId) (flat : List (TestSpec × Nat)) (mx : Nat) (hmx : 1 ≤ mx)
    (runners : List EndToEnd.Runner) (ds : EndToEnd.Runner → List (Delivery.Act Retries.Results))
    (detail : Retries.Results → Report.Group) (name : Nat → String)
    (w : Arrived (calls (history 0)) rid flat mx runners ds detail name)
    (c : Codec Report.Line) (enc : Report.Line → Bytes) (noop : Bool)
    (htook : (batches rid (seenBy enc noop history 0)).Perm
      (runners.flatMap fun r => (sender ds r).received.map fun batch => batch.map detail))
    (tie : Bool) (limit : Nat) (world : Nat → ReportWait.Turn) (hg : Grows history) (hw : FromQueue enc noop history rid world)
    (hq : ∀ t, due rid (seenBy enc noop history t) = due rid (seenBy enc noop history 0))
    (hall : (planned (fileEvents rid (seenBy enc noop history 0))).length = (due rid (seenBy enc noop history 0)).length)
    (ready d : Nat) (hlim : ready + 2 * d + 2000 < limit) (hd : ∀ n, n < limit → AnsweredIn (world n) d)
    (hready : ∀ id ∈ begun (fileEvents rid (seenBy enc noop history ready)), id ∈ over (fileEvents rid (seenBy enc noop history ready)))
    (hsafe : ∀ t, ∀ x ∈ history t, x.Safe rid) (hok : ∀ t, writesOk (fileEvents rid (seenBy enc noop history t)))
    (henc : ∀ l ∈ due rid (seenBy enc noop history 0), c.Lawful l ∧ onWire (enc l) = c.encode l)
    (sort : List Report.Group → List Report.Group) (hs : Report.IsSort sort) (rs : List Report.Reporter) (hfine : ∀ r ∈ rs, r.Fine) :
    (wait c tie limit world).ended ≤ ready + 2 * d + 2000 ∧
    ∃ k o code gs, report c sort rs (((wait c tie limit world).begun.map fun n => (world n).toAttempt).take k) = .ended o ∧
      o.result = .ok code ∧ gs.Perm ((reported (calls (history 0)) rid mx runners).map detail) ∧
      o.reporters.map (·.log) = rs.map (fun r => r.log ++ Report.pushes gs ++ [.afterAll, .finish]) ∧
      (code = 0 ↔ ∀ t ∈ flat, ∃ x ∈ reported (calls (history 0)) rid mx runners, x.workId = t.1.workId ∧ Passed x) := by
  obtain ⟨lines, h1, h2, h3⟩ := C153_in_time c enc noop history rid tie limit world hg hw hq hall ready d hlim hd hready hsafe hok henc
  obtain ⟨more, k, e1, e2, -⟩ := C149_turns c tie limit world
  refine ⟨h3, k, ?_⟩
  rw [e1]
  exact report_of_lines (history 0) rid flat mx hmx runners ds detail name w c enc noop htook _ lines (by rw [← e2, h1]) h2 sort hs rs hfine

/-! ## Two cases -/

/-- A request is dealt with. -/
def servedTrip : List (Recording.Act T) := [.call (.request "run" .readCell), .handle 0, .task "run" 0 {}]

/-- A first request, after which all is recorded. -/
def servedRecorded (start : List (Recording.Act T)) : List (Recording.Act T) :=
  start ++ [.call (.request "run" .readCell), .handle 0] ++ List.replicate 20 (.task "run" 0 {})

/-- From `start` on, all is recorded in the second millisecond. There is one request in each. -/
def servedHistory (start : List (Recording.Act T)) : Nat → List (Recording.Act T)
  | 0 => start
  | 1 => start ++ [.call (.request "run" .readCell), .handle 0]
  | t + 2 => servedRecorded start ++ (List.replicate (t + 1) servedTrip).flatten

/-- The first request is put off, and any other is answered, after 30 milliseconds. -/
def servedWorld (bytes : Bytes) (n : Nat) : ReportWait.Turn :=
  { connects := fun _ => true, sent := true, tryTime := fun _ => 10, exchange := 20
    reply := some (if n = 0 then .pending else .streaming ⟨Wire.streamBytes bytes.length (onWire bytes), false⟩) }

/-- The queue when all is recorded and nobody asks. -/
structure servedIdle (bytes : Bytes) (τ : State T) : Prop where
  registry : (τ.registry.get "run").map RunState.readCell = some .readFromCell
  handlers : τ.handlers = []
  tasks : (τ.files "run").tasks = []
  processing : (τ.files "run").processing = 0
  fd : (τ.files "run").fd = some .opened
  disk : (τ.files "run").disk = bytes

section
variable {enc : Report.Line → Bytes} {bytes : Bytes} {start : List (Recording.Act T)} {ls : List Report.Line}

/-- A client asks, with no other handler about. -/
theorem served_ask {τ : State T} {s : RunState T} (hs : τ.registry.get "run" = some s) (hr : s.readCell = .readFromCell)
    (h1 : τ.handlers = []) :
    (τ.registry.step (.request "run" .readCell)).get "run" = some s ∧ τ.step enc (.call (.request "run" .readCell)) =
      { τ with
        registry := τ.registry.step (.request "run" .readCell), handlers := [.read "run"]
        log := τ.log ++ [.registry (.read "run" .readFromCell)] } := by
  have e : (τ.registry.step (.request "run" .readCell)).events = τ.registry.events ++ [.read "run" .readFromCell] := by
    simp only [Runs.step, Req.writes, Bool.false_and, Bool.false_eq_true, if_false, Runs.apply, hs, Runs.reqEff, Runs.exec, hr]
  refine ⟨?_, by simp [State.step, State.call, e, h1, spawn]⟩
  simp only [Runs.step, Req.writes, Bool.false_and, Bool.false_eq_true, if_false]
  rw [Replay.get_apply _ _ _ _ (by simp [Runs.reqEff, Runs.exec, hs])]
  simp [Runs.reqEff, Runs.exec, hs]

theorem servedIdle_trip {τ : State T} (h : servedIdle bytes τ) :
    servedIdle bytes (τ.run enc servedTrip) ∧ (τ.run enc servedTrip).log =
      τ.log ++ [.registry (.read "run" .readFromCell), .file "run" (.asked (τ.files "run").nextRead),
        .file "run" (.stream (τ.files "run").nextRead bytes)] := by
  obtain ⟨s, hs, hr⟩ := Option.map_eq_some_iff.mp h.registry
  obtain ⟨e', c1⟩ := served_ask (enc := enc) hs hr h.handlers
  have h2 := h.tasks
  have h3 := h.processing
  have h4 := h.fd
  have h5 := h.disk
  have c : τ.run enc servedTrip =
      ((τ.step enc (.call (.request "run" .readCell))).step enc (.handle 0)).step enc (.task "run" 0 {}) := rfl
  rw [c, c1]
  refine ⟨⟨?_, ?_, ?_, ?_, ?_, ?_⟩, ?_⟩ <;>
    simp [State.step, State.handle, State.file, Results.step, Results.Res.add, Results.stepTask, Results.fastPath, Results.runOp,
      Results.after, h2, h3, h4, h5, e', hr]

/-- The queue after so many requests. -/
def servedAfter (enc : Report.Line → Bytes) (start : List (Recording.Act T)) (k : Nat) : State T :=
  (init T false).run enc (servedRecorded start ++ (List.replicate k servedTrip).flatten)

theorem servedAfter_succ (k : Nat) : servedAfter enc start (k + 1) = (servedAfter enc start k).run enc servedTrip := by
  unfold servedAfter
  rw [List.replicate_succ', List.flatten_append, ← List.append_assoc]
  simp [State.run, List.foldl_append]

theorem servedAfter_idle (h : servedIdle bytes (servedAfter enc start 0)) (k : Nat) : servedIdle bytes (servedAfter enc start k) := by
  induction k with
  | zero => exact h
  | succ k ih => rw [servedAfter_succ]; exact (servedIdle_trip ih).1

theorem servedAfter_log (h : servedIdle bytes (servedAfter enc start 0)) (k : Nat) : (servedAfter enc start (k + 1)).log =
    (servedAfter enc start k).log ++ [.registry (.read "run" .readFromCell),
      .file "run" (.asked ((servedAfter enc start k).files "run").nextRead),
      .file "run" (.stream ((servedAfter enc start k).files "run").nextRead bytes)] := by
  rw [servedAfter_succ]; exact (servedIdle_trip (servedAfter_idle h k)).2

theorem servedHistory_grows : Grows (servedHistory start) := by
  have one : ∀ t, servedHistory start t <+: servedHistory start (t + 1) := by
    intro t
    match t with
    | 0 => exact List.prefix_append _ _
    | 1 => exact ⟨List.replicate 20 (.task "run" 0 {}) ++ servedTrip, by simp [servedHistory, servedRecorded]⟩
    | t + 2 => exact ⟨servedTrip, by
        simp only [servedHistory]
        rw [List.replicate_succ' (n := t + 1), List.flatten_append, ← List.append_assoc]; simp⟩
  intro s t h
  obtain ⟨k, rfl⟩ := Nat.exists_eq_add_of_le h
  clear h
  induction k with
  | zero => exact List.prefix_refl _
  | succ k ih => exact ih.trans (one (s + k))

theorem servedSeen (t : Nat) : seenBy enc false (servedHistory start) (t + 2) = (servedAfter enc start (t + 1)).log := rfl

/-- What is to be checked of `start`. -/
structure ServedCase (enc : Report.Line → Bytes) (bytes : Bytes) (start : List (Recording.Act T)) (ls : List Report.Line) : Prop where
  idle : servedIdle bytes (servedAfter enc start 0)
  due0 : due "run" (seenBy enc false (servedHistory start) 0) = ls
  due1 : due "run" (seenBy enc false (servedHistory start) 1) = ls
  due2 : due "run" (servedAfter enc start 0).log = ls
  ok0 : writesOk (fileEvents "run" (seenBy enc false (servedHistory start) 0))
  ok1 : writesOk (fileEvents "run" (seenBy enc false (servedHistory start) 1))
  ok2 : writesOk (fileEvents "run" (servedAfter enc start 0).log)
  safe : ∀ x ∈ servedRecorded start, x.Safe "run"
  ready : ∀ id ∈ begun (fileEvents "run" (servedAfter enc start 0).log), id ∈ over (fileEvents "run" (servedAfter enc start 0).log)
  done : (((init T false).run enc start).registry.get "run").map RunState.readCell = some .readFromCell
  handlers : ((init T false).run enc start).handlers = []
  busy : (((init T false).run enc start).files "run").processing ≠ 0
  small : bytes.length < 2 ^ 32

theorem ServedCase.all (h : ServedCase enc bytes start ls) (t : Nat) :
    due "run" (seenBy enc false (servedHistory start) t) = ls ∧ writesOk (fileEvents "run" (seenBy enc false (servedHistory start) t)) := by
  match t with
  | 0 => exact ⟨h.due0, h.ok0⟩
  | 1 => exact ⟨h.due1, h.ok1⟩
  | t + 2 =>
    rw [servedSeen]
    have : ∀ k, due "run" (servedAfter enc start k).log = ls ∧ writesOk (fileEvents "run" (servedAfter enc start k).log) := by
      intro k
      induction k with
      | zero => exact ⟨h.due2, h.ok2⟩
      | succ k ih =>
        rw [servedAfter_log h.idle]
        refine ⟨by rw [due_append, ih.1]; simp [due], ?_⟩
        intro w hw
        rw [fileEvents_append, Results.writes_append, List.mem_append] at hw
        rcases hw with hw | hw
        · exact ih.2 w hw
        · simp [fileEvents, Results.Spec.writes] at hw
    exact this (t + 1)

theorem ServedCase.putOff (h : ServedCase enc bytes start ls) : seenBy enc false (servedHistory start) 1 =
    seenBy enc false (servedHistory start) 0 ++ [.registry (.read "run" .readFromCell), .file "run" .pending] := by
  obtain ⟨s, hs, hr⟩ := Option.map_eq_some_iff.mp h.done
  obtain ⟨-, c1⟩ := served_ask (enc := enc) hs hr h.handlers
  have c : seenBy enc false (servedHistory start) 1 =
      ((((init T false).run enc start).step enc (.call (.request "run" .readCell))).step enc (.handle 0)).log := by
    simp [seenBy, servedHistory, State.run, List.foldl_append]
  have hb := h.busy
  rw [c, c1, show seenBy enc false (servedHistory start) 0 = ((init T false).run enc start).log from rfl]
  generalize (init T false).run enc start = τ at hb ⊢
  simp [State.step, State.handle, State.file, Results.step, Results.Res.add, hb]

theorem ServedCase.queue (h : ServedCase enc bytes start ls) : FromQueue enc false (servedHistory start) "run" (servedWorld bytes) := by
  intro now
  match now with
  | 0 => exact ⟨_ ++ [.registry (.read "run" .readFromCell)], List.prefix_append _ _, .inl ⟨1, ⟨[], by rw [h.putOff]; simp⟩, rfl⟩⟩
  | now + 1 =>
    refine ⟨(servedAfter enc start now).log ++ [.registry (.read "run" .readFromCell)], List.IsPrefix.trans ?_ (List.prefix_append _ _),
      .inr (.inl ⟨now + 2, ((servedAfter enc start now).files "run").nextRead, [], bytes, false, ⟨[], ?_⟩, h.small, rfl⟩)⟩
    · cases now with
      | zero =>
        have : servedHistory start 1 <+: servedRecorded start := List.prefix_append _ _
        have := seenBy_mono (enc := enc) (noop := false)
          (history := fun t => if t = 0 then servedHistory start 1 else servedRecorded start)
          (by intro s t hst; by_cases hs : s = 0 <;> by_cases ht : t = 0 <;> simp_all) (Nat.zero_le 1)
        simpa [seenBy, servedAfter] using this
      | succ k => exact List.prefix_refl _
    · rw [servedSeen, servedAfter_log h.idle]; simp

theorem servedWorld_answered (n : Nat) : AnsweredIn (servedWorld bytes n) 30 :=
  ⟨⟨1, by omega, by omega, rfl, fun j h1 h2 => by omega, Nat.le_of_eq rfl⟩, rfl, by simp [servedWorld]⟩

theorem ServedCase.recorded (h : ServedCase enc bytes start ls) :
    ∀ id ∈ begun (fileEvents "run" (seenBy enc false (servedHistory start) 2)),
      id ∈ over (fileEvents "run" (seenBy enc false (servedHistory start) 2)) := by
  rw [servedSeen, servedAfter_log h.idle]
  have e : ∀ r, begun (fileEvents "run" [Obs.registry (T := T) (.read "run" .readFromCell), .file "run" (.asked r),
      .file "run" (.stream r bytes)]) = [] := by intro r; simp [fileEvents, begun]
  intro id hid
  rw [fileEvents_append, ResultsLive.begun_append, e, List.append_nil] at hid
  rw [fileEvents_append, ResultsLive.over_append]
  exact List.mem_append_left _ (h.ready id hid)

theorem ServedCase.isSafe (h : ServedCase enc bytes start ls) (t : Nat) : ∀ x ∈ servedHistory start t, x.Safe "run" := by
  intro x hx
  have hx : x ∈ servedRecorded start ∨ x ∈ servedTrip (T := T) := by
    match t with
    | 0 => exact .inl (List.mem_append_left _ (List.mem_append_left _ hx))
    | 1 => exact .inl (List.mem_append_left _ hx)
    | t + 2 =>
      rcases List.mem_append.1 hx with hx | hx
      · exact .inl hx
      · obtain ⟨l, hl, hx⟩ := List.mem_flatten.1 hx
        rw [List.eq_of_mem_replicate hl] at hx
        exact .inr hx
  rcases hx with hx | hx
  · exact h.safe x hx
  · simp only [servedTrip, List.mem_cons, List.not_mem_nil, or_false] at hx
    rcases hx with rfl | rfl | rfl <;> trivial

end

/-- A run with one test, two attempts at which were reported. All runners are done. Its file has not been written to. -/
def servedStart : List (Recording.Act Nat) :=
  recordingStart ++ recordingWork ++
  [.report "run" [fetchFirst], .handle 0, .report "run" [fetchSecond], .handle 0, .call (.request "run" (.complete (Sample.w 1) 1)),
   .handle 0]

set_option maxRecDepth 20000 in
theorem servedStart_case : ServedCase recordingText [1, 9, 10, 3, 9, 10, 2, 9, 10] servedStart
    [.summary 1, .results [fetchFirst], .results [fetchSecond]] :=
  ⟨⟨by decide, by decide, by decide, by decide, by decide, by decide⟩, by decide, by decide, by decide, by unfold writesOk; decide,
    by unfold writesOk; decide, by unfold writesOk; decide, by decide, by decide, by decide, by decide, by decide, by decide⟩

set_option maxRecDepth 20000 in
/-- The hypotheses are met: the recordings were begun, but not over, when the client begins to wait. It has all lines after two seconds. -/
example : (∃ id ∈ begun (fileEvents "run" (seenBy recordingText false (servedHistory servedStart) 1)),
      id ∉ over (fileEvents "run" (seenBy recordingText false (servedHistory servedStart) 1))) ∧
    ∃ lines, (wait fetchCodec false 300000 (servedWorld [1, 9, 10, 3, 9, 10, 2, 9, 10])).result = .ok lines ∧
      lines.Perm [.summary 1, .results [fetchFirst], .results [fetchSecond]] ∧
      (wait fetchCodec false 300000 (servedWorld [1, 9, 10, 3, 9, 10, 2, 9, 10])).ended ≤ 2062 := by
  refine ⟨⟨0, by decide, by decide⟩, ?_⟩
  have h := servedStart_case
  have := C153_in_time fetchCodec recordingText false (servedHistory servedStart) "run" false 300000 _ servedHistory_grows h.queue
    (fun t => by rw [(h.all t).1, h.due0]) (by decide) 2 30 (by decide) (fun n _ => servedWorld_answered n) h.recorded h.isSafe
    (fun t => (h.all t).2) (fun l hl => recordingText_lawful l (by
      rw [h.due0] at hl
      exact (by decide : ∀ l ∈ [Report.Line.summary 1, .results [fetchFirst], .results [fetchSecond]], l ∈ fetchLines) l hl))
  rw [h.due0] at this
  exact this

/-- The runners of `wholeRunners` are done. Nothing has been written to the file. -/
def servedWhole : List (Recording.Act TestSpec) :=
  e2eQueue.map .call ++
  [.report "run" wholeBatchA, .report "run" wholeBatchB, .handle 0, .handle 0, .handle 0,
   .call (.request "run" (.complete (e2eWorker 1) 1)), .call (.request "run" (.complete (e2eWorker 2) 1))]

set_option maxRecDepth 20000 in
theorem servedWhole_arrived : Arrived (calls servedWhole) "run" e2eTests 2 (wholeRunners .passes) wholeSends wholeDetail wholeName :=
  arrived_extra (whole_arrived .passes) (by decide) (by decide) rfl

set_option maxRecDepth 20000 in
theorem servedWhole_case : ServedCase wholeText [1, 9, 10, 3, 9, 10, 2, 9, 10] servedWhole
    [.summary 2, wholeOfA, wholeOfB] :=
  ⟨⟨by decide, by decide, by decide, by decide, by decide, by decide⟩, by decide, by decide, by decide, by unfold writesOk; decide,
    by unfold writesOk; decide, by unfold writesOk; decide, by decide, by decide, by decide, by decide, by decide, by decide⟩

set_option maxRecDepth 20000 in
/-- The client reports exit code 0 after two seconds. -/
example : (wait wholeCodec true 10000 (servedWorld [1, 9, 10, 3, 9, 10, 2, 9, 10])).ended ≤ 2062 ∧
    ∃ ts o, Fetch.report wholeCodec sortGroups [quiet] ts = .ended o ∧ o.result = .ok 0 := by
  have h := servedWhole_case
  obtain ⟨h1, k, o, code, gs, g1, g2, -, -, g3⟩ := C153_exit_code (servedHistory servedWhole) "run" e2eTests 2 (by decide) _ _ _ _
    servedWhole_arrived wholeCodec wholeText false
    (by
      have e1 : batches "run" (seenBy wholeText false (servedHistory servedWhole) 0) = [wholeBatchA, wholeBatchB] := by decide
      have e2 : ((wholeRunners .passes).flatMap fun r => (sender wholeSends r).received.map fun batch => batch.map wholeDetail) =
          [wholeBatchA, wholeBatchB] := by decide
      rw [e1, e2])
    true 10000 _ servedHistory_grows h.queue (fun t => by rw [(h.all t).1, h.due0]) (by decide) 2 30 (by decide)
    (fun n _ => servedWorld_answered n) h.recorded h.isSafe (fun t => (h.all t).2)
    (by
      intro l hl
      rw [h.due0] at hl
      simp only [List.mem_cons, List.not_mem_nil, or_false] at hl
      rcases hl with rfl | rfl | rfl
      all_goals exact ⟨⟨by decide, by decide, by decide, by decide⟩, by decide⟩)
    sortGroups Report.isSort_mergeSort [quiet] (by simp [quiet, Report.Reporter.Fine])
  refine ⟨h1, _, o, g1, ?_⟩
  rw [g2, g3.2 ?_]
  have : reported (calls (servedHistory servedWhole 0)) "run" 2 (wholeRunners .passes) = reported e2eQueue "run" 2 (wholeRunners .passes) := by
    decide
  rw [this, whole_reported]
  simp [e2eTests, Passed, wholeResult]

end Abq.Props
