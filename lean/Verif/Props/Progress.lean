import Verif.Proof.Progress
import Verif.Props.WholeQueue
import Verif.Proof.Replay

/-!
# C148: the results of a run that is over are served in the end

The registry and the files of results together, as in C144. `σ.at enc f n` is the queue after `n` choices of the endless schedule `f`,
from any state `σ` that can be reached.
-/

namespace Abq.Props
open Abq.Recording Abq.Fetch Abq.Whole
open Abq.Retries (TestSpec)
open Abq.Results (Bytes)
open Abq.Results.Spec (planned writesOk)
open Abq.Results.Spec (begun over admitted served)
variable {T : Type}

/-- C148: once the queue takes nothing more for a run, there is a time from which on all that it took for it, the size of the manifest and
every batch of results, has been recorded once, whether that succeeded or not. -/
theorem C148_recorded (enc : Report.Line → Bytes) (noop : Bool) (acts : List (Recording.Act T)) (f : Nat → Recording.Act T) (rid : RunId)
    (hq : TakesNoMore enc ((init T noop).run enc acts) f rid) (hr : RecordersGoOn enc ((init T noop).run enc acts) f rid)
    (hf : FileGoesOn enc ((init T noop).run enc acts) f rid) :
    ∃ N, ∀ n, N ≤ n →
      let log := (((init T noop).run enc acts).at enc f n).log
      ((planned (fileEvents rid log)).map (·.2)).Perm ((due rid log).map enc) ∧
      ∀ id ∈ begun (fileEvents rid log), id ∈ over (fileEvents rid log) := by
  have hi := inv_run (T := T) enc noop acts
  obtain ⟨N, hN⟩ := all_over hi (books_all enc noop acts rid) hq hr hf
  refine ⟨N, fun n hn => ?_⟩
  obtain ⟨h1, h2⟩ := hN n hn
  have hI := at_inv (f := f) hi n
  have hp := hI.due rid
  rw [h1, List.append_nil] at hp
  refine ⟨?_, ?_⟩
  · rw [hI.events, hI.lines]
    exact (hp.map enc).symm
  · rw [hI.events]
    exact h2

/-- C148: and if clients go on asking for the results while all runners are done, one of them is let in at a time when all that the queue
ever takes for the run has been recorded, and it is dealt with in the end. (What it then gets is all of that, by
`C144_served_all_partial`.) -/
theorem C148_served (enc : Report.Line → Bytes) (noop : Bool) (acts : List (Recording.Act T)) (f : Nat → Recording.Act T) (rid : RunId)
    (hq : TakesNoMore enc ((init T noop).run enc acts) f rid) (hr : RecordersGoOn enc ((init T noop).run enc acts) f rid)
    (hf : FileGoesOn enc ((init T noop).run enc acts) f rid) (hrd : ReadersGoOn enc ((init T noop).run enc acts) f rid)
    (hask : AskedForEver enc ((init T noop).run enc acts) f rid) :
    let log := fun n => (((init T noop).run enc acts).at enc f n).log
    ∃ m r, log (m + 1) = log m ++ [.file rid (.asked r)] ∧
      (planned (fileEvents rid (log m))).length = (due rid (log m)).length ∧
      (∀ id ∈ begun (fileEvents rid (log m)), id ∈ over (fileEvents rid (log m))) ∧
      (∀ n, due rid (log n) = due rid (log m)) ∧
      ∃ N, ∀ n, N ≤ n → r ∈ served (fileEvents rid (log n)) := by
  intro log
  have hi := inv_run (T := T) enc noop acts
  have hb := books_all (T := T) enc noop acts rid
  obtain ⟨N, hN⟩ := all_over hi hb hq hr hf
  obtain ⟨m0, hm0, hf0, hread⟩ := hask N
  have hin := asked_spawns (enc := enc) hread
  rw [← hf0, ← at_succ] at hin
  obtain ⟨m, hm, i, hfm, hh⟩ := hrd (m0 + 1) hin
  obtain ⟨h1, h2⟩ := hN m (by omega)
  have hI := at_inv (f := f) hi m
  have hB := at_books (enc := enc) (f := f) hb m
  have hp := (hI.due rid).length_eq
  rw [h1, List.append_nil] at hp
  have hl := congrArg List.length (hI.lines rid)
  simp only [List.length_map] at hl
  have hproc : ((((init T noop).run enc acts).at enc f m).files rid).processing = 0 := by
    rw [hB.processing, List.length_eq_zero_iff, List.eq_nil_iff_forall_not_mem]
    intro id hid
    have hid' := h2 id (hB.recs.mem_iff.mp (List.mem_append_right _ hid))
    have hn : (begun ((((init T noop).run enc acts).at enc f m).files rid).events).Nodup := by rw [hB.begun]; exact List.nodup_range
    exact (List.nodup_append.mp (hB.recs.nodup_iff.mpr hn)).2.2 id hid' id hid rfl
  have hstep : (((init T noop).run enc acts).at enc f (m + 1)).log = (((init T noop).run enc acts).at enc f m).log ++
      [.file rid (.asked ((((init T noop).run enc acts).at enc f m).files rid).nextRead)] := by
    rw [at_succ, hfm]
    simp only [State.step, hh, State.handle, State.file, Results.step, hproc, if_true, Results.Res.add, List.drop_left,
      List.map_cons, List.map_nil]
  have hI' := at_inv (f := f) hi (m + 1)
  have hk : ResultsLive.Known ((((init T noop).run enc acts).at enc f (m + 1)).files rid)
      (.request ((((init T noop).run enc acts).at enc f m).files rid).nextRead) := by
    show _ ∈ admitted _
    rw [← hI'.events, hstep, fileEvents_append, ResultsLive.admitted_append]
    exact List.mem_append_right _ (by simp [fileEvents, admitted])
  obtain ⟨M, hmM, hM⟩ := at_ends (enc := enc) (f := f) hb hf hk
  refine ⟨m, _, hstep, ?_, ?_, fun n => (hq n).trans (hq m).symm, M, fun n hn => ?_⟩
  · show (planned (fileEvents rid _)).length = _
    rw [hI.events, hl, hp]
  · show ∀ id ∈ begun (fileEvents rid _), id ∈ over (fileEvents rid _)
    rw [hI.events]; exact h2
  · show _ ∈ served (fileEvents rid _)
    rw [(at_inv (f := f) hi n).events]
    exact ResultsLive.served_of_left (at_books hb n) (at_known (j := .request _) (by omega) hk) (hM n hn)

/-- C148: with it, if every write to the file succeeds and no offload is left half done, the client gets all that the queue ever takes for
the run and nothing else: the lines that come out of its connection are those, in some order. Or the file cannot be read, and the
connection is closed. -/
theorem C148_whole (c : Codec Report.Line) (enc : Report.Line → Bytes) (noop : Bool) (acts : List (Recording.Act T))
    (f : Nat → Recording.Act T) (rid : RunId)
    (hq : TakesNoMore enc ((init T noop).run enc acts) f rid) (hr : RecordersGoOn enc ((init T noop).run enc acts) f rid)
    (hf : FileGoesOn enc ((init T noop).run enc acts) f rid) (hrd : ReadersGoOn enc ((init T noop).run enc acts) f rid)
    (hask : AskedForEver enc ((init T noop).run enc acts) f rid)
    (hsafe : ∀ x ∈ acts, x.Safe rid) (hsafe' : ∀ n, (f n).Safe rid)
    (hok : ∀ n, writesOk (fileEvents rid (((init T noop).run enc acts).at enc f n).log))
    (henc : ∀ l ∈ due rid ((init T noop).run enc acts).log, c.Lawful l ∧ onWire (enc l) = c.encode l) :
    ∃ n r, .file rid (.readFailed r) ∈ (((init T noop).run enc acts).at enc f n).log ∨
      ∃ bytes, .file rid (.stream r bytes) ∈ (((init T noop).run enc acts).at enc f n).log ∧
        (bytes.length < 2 ^ 32 → ∀ (pre : List Attempt) (t : Attempt) (post : List Attempt) (broken : Bool),
          (∀ q ∈ pre ++ [t], (∃ k, 1 ≤ k ∧ k ≤ 5 ∧ q.connects k = true) ∧ q.sent = true) →
          (∀ q ∈ pre, q.reply = some .pending) →
          t.reply = some (.streaming ⟨Wire.streamBytes bytes.length (onWire bytes), broken⟩) →
          ∃ lines, fetch c (pre ++ t :: post) = .ok lines ∧ lines.Perm (due rid ((init T noop).run enc acts).log)) := by
  obtain ⟨m, r, h1, h2, -, -, N, hN⟩ := C148_served enc noop acts f rid hq hr hf hrd hask
  dsimp only at h1 h2 hN
  have hi := inv_run (T := T) enc noop acts
  have hb := books_all (T := T) enc noop acts rid
  obtain ⟨more, hmore⟩ := at_log (enc := enc) (σ := (init T noop).run enc acts) (f := f) (Nat.le_max_left (m + 1) N)
  refine ⟨max (m + 1) N, r, ?_⟩
  have hin := hN _ (Nat.le_max_right (m + 1) N)
  have hlog := hmore
  rw [h1] at hlog
  have hnot : r ∉ served (fileEvents rid (((init T noop).run enc acts).at enc f m).log) := by
    intro hc
    have hB := at_books (enc := enc) (f := f) hb m
    have hB' := at_books (enc := enc) (f := f) hb (m + 1)
    rw [(at_inv (f := f) hi m).events] at hc
    have ha := hB.reads.mem_iff.mp (List.mem_append_left _ hc)
    have hn : (admitted ((((init T noop).run enc acts).at enc f (m + 1)).files rid).events).Nodup := by
      rw [hB'.admitted]; exact List.nodup_range
    rw [← (at_inv (f := f) hi (m + 1)).events, h1, fileEvents_append, ResultsLive.admitted_append,
      (at_inv (f := f) hi m).events] at hn
    exact (List.nodup_append.mp hn).2.2 r ha r (by simp [fileEvents, admitted]) rfl
  have hin' : r ∈ served (fileEvents rid more) := by
    rw [hlog, fileEvents_append, fileEvents_append, ResultsLive.served_append, ResultsLive.served_append] at hin
    rcases List.mem_append.mp hin with h | h
    · rcases List.mem_append.mp h with h | h
      · exact (hnot h).elim
      · simp [fileEvents, served] at h
    · exact h
  obtain ⟨ev, hev, he⟩ := List.mem_filterMap.mp hin'
  have hmem := mem_fileEvents hev
  have hmem' : Obs.file rid ev ∈ (((init T noop).run enc acts).at enc f (max (m + 1) N)).log := by
    rw [hmore]; exact List.mem_append_right _ hmem
  cases ev with
  | readFailed r' =>
    cases he
    exact .inl hmem'
  | stream r' bytes =>
    cases he
    refine .inr ⟨bytes, hmem', fun hsz pre t post broken hpre hp ht => ?_⟩
    obtain ⟨b, d, rfl⟩ := List.append_of_mem hmem
    have hrun : ((init T noop).run enc acts).at enc f (max (m + 1) N) =
        (init T noop).run enc (acts ++ (List.range (max (m + 1) N)).map f) := by
      simp [State.at, State.run, List.foldl_append]
    have hdm := hq m
    have hdue : due rid b = [] := by
      have := hq (max (m + 1) N)
      rw [hlog, due_append, due_append, due_append, hdm] at this
      have hl := congrArg List.length this
      simp only [List.length_append] at hl
      exact List.eq_nil_of_length_eq_zero (by omega)
    have := C144_served_all_partial c enc noop (acts ++ (List.range (max (m + 1) N)).map f) rid
      (by
        intro x hx
        rcases List.mem_append.mp hx with hx | hx
        · exact hsafe x hx
        · obtain ⟨n, -, rfl⟩ := List.mem_map.mp hx
          exact hsafe' n)
      (((init T noop).run enc acts).at enc f m).log b d r bytes
      (by rw [← hrun, hlog]; simp [List.append_assoc])
      (by
        intro w hw
        refine hok (max (m + 1) N) w ?_
        rw [hlog]
        simp only [fileEvents_append, Results.writes_append, List.mem_append, List.append_assoc, List.cons_append,
          List.nil_append] at hw ⊢
        simp only [fileEvents, List.filterMap_cons, Results.Spec.writes] at hw ⊢
        grind)
      h2 hdue (by rw [hdm]; exact henc) hsz pre t post broken hpre hp ht
    rw [hdm] at this
    exact this
  | _ => cases he

/-- C148, with C145: let the runners of a run have ended and their batches have been taken (`Arrived`), but not yet been recorded. If
clients go on asking, one of them makes a complete report in the end, whose exit code is 0 iff each test of the manifest passed in one
of its attempts. Or the file cannot be read. -/
theorem C148_exit_code (acts : List (Recording.Act TestSpec)) (f : Nat → Recording.Act TestSpec) (rid : RunId)
    (flat : List (TestSpec × Nat)) (mx : Nat) (hmx : 1 ≤ mx) (runners : List EndToEnd.Runner)
    (ds : EndToEnd.Runner → List (Delivery.Act Retries.Results)) (detail : Retries.Results → Report.Group) (name : Nat → String)
    (w : Arrived (calls acts) rid flat mx runners ds detail name)
    (c : Codec Report.Line) (enc : Report.Line → Bytes) (noop : Bool)
    (htook : (batches rid ((init TestSpec noop).run enc acts).log).Perm
      (runners.flatMap fun r => (sender ds r).received.map fun batch => batch.map detail))
    (hq : TakesNoMore enc ((init TestSpec noop).run enc acts) f rid) (hr : RecordersGoOn enc ((init TestSpec noop).run enc acts) f rid)
    (hf : FileGoesOn enc ((init TestSpec noop).run enc acts) f rid) (hrd : ReadersGoOn enc ((init TestSpec noop).run enc acts) f rid)
    (hask : AskedForEver enc ((init TestSpec noop).run enc acts) f rid)
    (hsafe : ∀ x ∈ acts, x.Safe rid) (hsafe' : ∀ n, (f n).Safe rid)
    (hok : ∀ n, writesOk (fileEvents rid (((init TestSpec noop).run enc acts).at enc f n).log))
    (henc : ∀ l ∈ due rid ((init TestSpec noop).run enc acts).log, c.Lawful l ∧ onWire (enc l) = c.encode l)
    (sort : List Report.Group → List Report.Group) (hs : Report.IsSort sort) (rs : List Report.Reporter) (hfine : ∀ r ∈ rs, r.Fine) :
    ∃ n r, .file rid (.readFailed r) ∈ (((init TestSpec noop).run enc acts).at enc f n).log ∨
      ∃ bytes, .file rid (.stream r bytes) ∈ (((init TestSpec noop).run enc acts).at enc f n).log ∧
        (bytes.length < 2 ^ 32 → ∀ (pre : List Attempt) (t : Attempt) (post : List Attempt) (broken : Bool),
          (∀ q ∈ pre ++ [t], (∃ k, 1 ≤ k ∧ k ≤ 5 ∧ q.connects k = true) ∧ q.sent = true) →
          (∀ q ∈ pre, q.reply = some .pending) →
          t.reply = some (.streaming ⟨Wire.streamBytes bytes.length (onWire bytes), broken⟩) →
          ∃ o code gs, report c sort rs (pre ++ t :: post) = .ended o ∧ o.result = .ok code ∧
            gs.Perm ((reported (calls acts) rid mx runners).map detail) ∧
            o.reporters.map (·.log) = rs.map (fun r => r.log ++ Report.pushes gs ++ [.afterAll, .finish]) ∧
            (code = 0 ↔ ∀ t ∈ flat, ∃ x ∈ reported (calls acts) rid mx runners, x.workId = t.1.workId ∧ Passed x)) := by
  obtain ⟨n, r, h⟩ := C148_whole c enc noop acts f rid hq hr hf hrd hask hsafe hsafe' hok henc
  refine ⟨n, r, h.imp id ?_⟩
  rintro ⟨bytes, hb, h⟩
  refine ⟨bytes, hb, fun hsz pre t post broken hpre hp ht => ?_⟩
  obtain ⟨lines, hfetch, hl⟩ := h hsz pre t post broken hpre hp ht
  exact report_of_lines acts rid flat mx hmx runners ds detail name w c enc noop htook _ lines hfetch hl sort hs rs hfine

/-- C148: a scheduler that serves handlers, and the tasks of the file of the run, first come, first served, is one as the theorems ask
for, whatever comes in. -/
theorem C148_first_come (enc : Report.Line → Bytes) (σ : State T) (f : Nat → Recording.Act T) (rid : RunId)
    (h0 : ∀ n i, f n = .handle i → i = 0) (hh : ∀ n, ∃ m, n ≤ m ∧ f m = .handle 0)
    (h1 : ∀ n i out, f n = .task rid i out → i = 0) (ht : ∀ n, ∃ m, n ≤ m ∧ ∃ out, f m = .task rid 0 out) :
    RecordersGoOn enc σ f rid ∧ ReadersGoOn enc σ f rid ∧ FileGoesOn enc σ f rid := by
  refine ⟨fun n hn => ?_, fun n hn => handlers_fair h0 hh hn, file_fair h1 ht⟩
  obtain ⟨l, hl⟩ := List.exists_mem_of_ne_nil _ hn
  obtain ⟨h, hm, he⟩ := List.mem_filterMap.mp hl
  obtain ⟨m, hm, i, hf, hi⟩ := handlers_fair (enc := enc) (σ := σ) h0 hh hm
  refine ⟨m, hm, i, h, hf, hi, ?_⟩
  intro hc
  have : l ∈ waiting rid [h] := List.mem_filterMap.mpr ⟨h, List.mem_singleton.mpr rfl, he⟩
  rw [hc] at this
  cases this

/-- Handlers and tasks are served in turn, first come, first served, while a client asks again and again. -/
def progressTurns {T : Type} (n : Nat) : Recording.Act T :=
  if n % 3 = 0 then .handle 0 else if n % 3 = 1 then .task "run" 0 {} else .call (.request "run" .readCell)

/-- None of that changes what the registry knows about the run, or what the queue took for it. -/
theorem progressTurns_quiet (enc : Report.Line → Bytes) (τ : State T) (n : Nat) (s : RunState T) (h : τ.registry.get "run" = some s) :
    (τ.step enc (progressTurns n)).registry.get "run" = some s ∧ due "run" (τ.step enc (progressTurns n)).log = due "run" τ.log := by
  have file : ∀ (υ : State T) (r : RunId) (b : Results.Act), υ.registry = τ.registry → υ.log = τ.log →
      (υ.file r b).registry.get "run" = some s ∧ due "run" (υ.file r b).log = due "run" τ.log := by
    intro υ r b hr hl
    refine ⟨by simpa only [State.file, hr] using h, ?_⟩
    simp only [State.file, hl, due, List.filterMap_append, List.filterMap_map]
    refine Eq.trans (congrArg (_ ++ ·) (List.filterMap_eq_nil_iff.mpr ?_)) (List.append_nil _)
    intro _ _
    rfl
  unfold progressTurns
  split
  · simp only [State.step]
    split
    · exact ⟨h, rfl⟩
    · rename_i hd hi
      cases hd <;> exact file _ _ _ rfl rfl
  split
  · exact file _ _ _ rfl rfl
  · refine ⟨?_, ?_⟩
    · simp only [State.step, State.call, Runs.step, Req.writes, Bool.false_and, Bool.false_eq_true, if_false]
      rw [Replay.get_apply _ _ _ _ (by simp [Runs.reqEff, Runs.exec, h])]
      simp [Runs.reqEff, Runs.exec, h]
    · have e : (τ.registry.step (.request "run" .readCell)).events = τ.registry.events ++ [.read "run" s.readCell] := by
        simp only [Runs.step, Req.writes, Bool.false_and, Bool.false_eq_true, if_false, Runs.apply, h, Runs.reqEff, Runs.exec]
      simp only [State.step, State.call, e, List.drop_left, due, List.filterMap_append]
      exact List.append_nil _

theorem progressTurns_at (enc : Report.Line → Bytes) {σ : State T} {s : RunState T} (h : σ.registry.get "run" = some s) (n : Nat) :
    (σ.at enc progressTurns n).registry.get "run" = some s ∧ due "run" (σ.at enc progressTurns n).log = due "run" σ.log := by
  induction n with
  | zero => exact ⟨h, rfl⟩
  | succ n ih =>
    rw [at_succ]
    have := progressTurns_quiet enc _ n s ih.1
    exact ⟨this.1, this.2.trans ih.2⟩

/-- The file is open, and no write to it has failed. -/
def progressFine (ρ : Results.Res) : Prop := ρ.fd = some .opened ∧ writesOk ρ.events

theorem progressFine_more {ρ τ : Results.Res} (h : progressFine ρ) (hf : τ.fd = some .opened) {evs : List Results.Ev}
    (he : τ.events = ρ.events ++ evs) (hw : writesOk evs) : progressFine τ := by
  refine ⟨hf, ?_⟩
  intro w hin
  rw [he, Results.writes_append, List.mem_append] at hin
  exact hin.elim (h.2 w) (hw w)

/-- It stays so as long as nothing fails. -/
theorem progressFine_step {ρ : Results.Res} (h : progressFine ρ) (a : Results.Act) (ha : ∀ i out, a = .resume i out → out = {})
    (ho : ∀ c now accessed o, a ≠ .offload c now accessed o) : progressFine (Results.step ρ a) := by
  have quiet : ∀ ev, Results.Spec.writes [ev] = [] → writesOk [ev] := by
    intro ev he w hw
    rw [he] at hw
    cases hw
  have nil : writesOk [] := by intro w hw; cases hw
  have h1 := h.1
  cases a with
  | results line e => exact progressFine_more h h1 (evs := [.planned ρ.nextId line]) rfl (quiet _ rfl)
  | summary line e => exact progressFine_more h h1 (evs := [.planned ρ.nextId line]) rfl (quiet _ rfl)
  | request =>
    simp only [Results.step]
    split
    · exact progressFine_more h h1 (evs := [.asked ρ.nextRead]) rfl (quiet _ rfl)
    · exact progressFine_more h h1 (evs := [.pending]) rfl (quiet _ rfl)
  | offload c now accessed o => exact (ho c now accessed o rfl).elim
  | resume i out =>
    have := ha i out rfl
    subst this
    simp only [Results.step]
    split
    · exact h
    rename_i t ht
    have h' : progressFine { ρ with tasks := ρ.tasks.eraseIdx i } := h
    generalize { ρ with tasks := ρ.tasks.eraseIdx i } = τ at h' ⊢
    have h1 := h'.1
    have ev : ∀ o, writesOk [(Results.runOp τ.noop τ.disk τ.remote .ok o).2.2] := by
      intro o
      cases o with
      | dump id line =>
        intro w hw
        simp [Results.runOp, Results.Spec.writes] at hw
        rw [hw]
      | toRemote => exact quiet _ rfl
      | read r => exact quiet _ rfl
    cases t with
    | ack id line e => exact progressFine_more h' h1 (evs := [.acked id]) rfl (quiet _ rfl)
    | op o e st =>
      cases st with
      | fast =>
        simp only [Results.stepTask, Results.fastPath, h1]
        exact progressFine_more h' (by first | rfl | exact h1) rfl (ev o)
      | slow =>
        simp only [Results.stepTask, Results.slowPath, h1, if_true]
        exact progressFine_more h' h1 rfl nil
      | second =>
        simp only [Results.stepTask, Results.fastPath, h1]
        exact progressFine_more h' (by first | rfl | exact h1) rfl (ev o)
    | finish id e => exact progressFine_more h' h1 (evs := [.finished id e]) rfl (quiet _ rfl)

theorem progressFine_at (enc : Report.Line → Bytes) {σ : State T} (h : progressFine (σ.files "run")) (n : Nat) :
    progressFine ((σ.at enc progressTurns n).files "run") := by
  induction n with
  | zero => exact h
  | succ n ih =>
    have file : ∀ (υ : State T) (r : RunId) (b : Results.Act), progressFine (υ.files "run") → (∀ i out, b = .resume i out → out = {}) →
        (∀ c now accessed o, b ≠ .offload c now accessed o) → progressFine ((υ.file r b).files "run") := by
      intro υ r b hu h1 h2
      simp only [State.file]
      split
      · rename_i hr
        rw [← hr]
        exact progressFine_step hu b h1 h2
      · exact hu
    rw [at_succ]
    unfold progressTurns
    split
    · simp only [State.step]
      split
      · exact ih
      · rename_i hd hi
        cases hd <;> exact file _ _ _ ih (fun _ _ h => nomatch h) (fun _ _ _ _ h => nomatch h)
    split
    · exact file _ _ _ ih (fun _ _ h => by cases h; rfl) (fun _ _ _ _ h => nomatch h)
    · exact ih

/-- With these turns all that the theorems ask of the schedule is met, once all runners are done and the file is open. -/
theorem progressTurns_fair (enc : Report.Line → Bytes) (noop : Bool) {σ : State T} (hinv : Recording.Inv enc noop σ)
    (h : (σ.registry.get "run").map RunState.readCell = some .readFromCell) (hfine : progressFine (σ.files "run")) :
    TakesNoMore enc σ progressTurns "run" ∧ RecordersGoOn enc σ progressTurns "run" ∧ FileGoesOn enc σ progressTurns "run" ∧
    ReadersGoOn enc σ progressTurns "run" ∧ AskedForEver enc σ progressTurns "run" ∧ (∀ n, (progressTurns (T := T) n).Safe "run") ∧
    ∀ n, writesOk (fileEvents "run" (σ.at enc progressTurns n).log) := by
  have fair := C148_first_come enc σ progressTurns "run"
    (by
      intro n i h
      unfold progressTurns at h
      split at h
      · cases h; rfl
      split at h <;> cases h)
    (fun n => ⟨3 * n, by omega, by simp [progressTurns]⟩)
    (by
      intro n i out h
      unfold progressTurns at h
      split at h
      · cases h
      split at h
      · cases h; rfl
      · cases h)
    (fun n => ⟨3 * n + 1, by omega, {}, by unfold progressTurns; rw [if_neg (by omega), if_pos (by omega)]⟩)
  obtain ⟨s, hs, hr⟩ := Option.map_eq_some_iff.mp h
  have hs := progressTurns_at enc hs
  refine ⟨fun n => (hs n).2, fair.1, fair.2.2, fair.2.1, fun n => ⟨3 * n + 2, by omega, ?_, ?_⟩, ?_, ?_⟩
  · unfold progressTurns; rw [if_neg (by omega), if_neg (by omega)]
  · rw [(hs _).1]; exact congrArg some hr
  · intro n
    unfold progressTurns
    split
    · trivial
    split <;> trivial
  · intro n
    rw [(at_inv (f := progressTurns) hinv n).events]
    exact (progressFine_at enc hfine n).2

set_option maxRecDepth 20000 in
/-- The hypotheses are met where `C144_full_statement_fails` leaves off: a client has been served too early, while the handler of the
manifest had not come to recording its size. Sooner or later a client gets both lines. -/
example : waiting "run" ((init Nat false).run recordingText recordingLate).handlers = [.summary 1] ∧
    due "run" ((init Nat false).run recordingText recordingLate).log = [.summary 1, .results [fetchFirst]] ∧
    ∃ n r, .file "run" (.readFailed r) ∈ (((init Nat false).run recordingText recordingLate).at recordingText progressTurns n).log ∨
      ∃ bytes, .file "run" (.stream r bytes) ∈ (((init Nat false).run recordingText recordingLate).at recordingText progressTurns n).log ∧
        (bytes.length < 2 ^ 32 → ∀ (pre : List Attempt) (t : Attempt) (post : List Attempt) (broken : Bool),
          (∀ q ∈ pre ++ [t], (∃ k, 1 ≤ k ∧ k ≤ 5 ∧ q.connects k = true) ∧ q.sent = true) →
          (∀ q ∈ pre, q.reply = some .pending) →
          t.reply = some (.streaming ⟨Wire.streamBytes bytes.length (onWire bytes), broken⟩) →
          ∃ lines, fetch fetchCodec (pre ++ t :: post) = .ok lines ∧
            lines.Perm (due "run" ((init Nat false).run recordingText recordingLate).log)) := by
  refine ⟨by decide, by decide, ?_⟩
  obtain ⟨h1, h2, h3, h4, h5, h6, h7⟩ := progressTurns_fair recordingText false (inv_run recordingText false recordingLate) (by decide)
    ⟨rfl, by unfold writesOk; decide⟩
  exact C148_whole fetchCodec recordingText false recordingLate progressTurns "run" h1 h2 h3 h4 h5 (by decide) h6 h7
    (fun l hl => recordingText_lawful l ((by decide : ∀ l ∈ due "run" _, l ∈ fetchLines) l hl))

/-- The runners of `wholeRunners` are done. One of their batches has been recorded, another is being recorded, and the handler of the
manifest has not come to recording its size. -/
def progressEarly : List (Recording.Act TestSpec) :=
  e2eQueue.map .call ++
  [.report "run" wholeBatchA, .report "run" wholeBatchB, .handle 1] ++ List.replicate 8 (.task "run" 0 {}) ++ [.handle 1, .task "run" 0 {},
   .call (.request "run" (.complete (e2eWorker 1) 1)), .call (.request "run" (.complete (e2eWorker 2) 1))]

set_option maxRecDepth 20000 in
theorem progressEarly_arrived : Arrived (calls progressEarly) "run" e2eTests 2 (wholeRunners .passes) wholeSends wholeDetail wholeName :=
  arrived_extra (whole_arrived .passes) (by decide) (by decide) rfl

set_option maxRecDepth 20000 in
/-- In the end some client reports exit code 0. -/
example : waiting "run" ((init TestSpec false).run wholeText progressEarly).handlers = [.summary 2] ∧
    (((init TestSpec false).run wholeText progressEarly).files "run").processing = 1 ∧
    ∃ n r, .file "run" (.readFailed r) ∈ (((init TestSpec false).run wholeText progressEarly).at wholeText progressTurns n).log ∨
      ∃ bytes, .file "run" (.stream r bytes) ∈ (((init TestSpec false).run wholeText progressEarly).at wholeText progressTurns n).log ∧
        (bytes.length < 2 ^ 32 → ∀ (pre : List Attempt) (t : Attempt) (post : List Attempt) (broken : Bool),
          (∀ q ∈ pre ++ [t], (∃ k, 1 ≤ k ∧ k ≤ 5 ∧ q.connects k = true) ∧ q.sent = true) →
          (∀ q ∈ pre, q.reply = some .pending) →
          t.reply = some (.streaming ⟨Wire.streamBytes bytes.length (onWire bytes), broken⟩) →
          ∃ o, Fetch.report wholeCodec sortGroups [quiet] (pre ++ t :: post) = .ended o ∧ o.result = .ok 0) := by
  refine ⟨by decide, by decide, ?_⟩
  obtain ⟨h1, h2, h3, h4, h5, h6, h7⟩ := progressTurns_fair wholeText false (inv_run wholeText false progressEarly) (by decide)
    ⟨rfl, by unfold writesOk; decide⟩
  obtain ⟨n, r, h⟩ := C148_exit_code progressEarly progressTurns "run" e2eTests 2 (by decide) _ _ _ _ progressEarly_arrived
    wholeCodec wholeText false
    (by
      have e1 : batches "run" ((init TestSpec false).run wholeText progressEarly).log = [wholeBatchA, wholeBatchB] := by decide
      have e2 : ((wholeRunners .passes).flatMap fun r => (sender wholeSends r).received.map fun batch => batch.map wholeDetail) =
          [wholeBatchA, wholeBatchB] := by decide
      rw [e1, e2])
    h1 h2 h3 h4 h5 (by decide) h6 h7
    (by
      intro l hl
      have hl : l ∈ [Report.Line.summary 2, wholeOfA, wholeOfB] :=
        (by decide : ∀ l ∈ due "run" ((init TestSpec false).run wholeText progressEarly).log,
          l ∈ [Report.Line.summary 2, wholeOfA, wholeOfB]) l hl
      simp only [List.mem_cons, List.not_mem_nil, or_false] at hl
      rcases hl with rfl | rfl | rfl
      all_goals exact ⟨⟨by decide, by decide, by decide, by decide⟩, by decide⟩)
    sortGroups Report.isSort_mergeSort [quiet] (by simp [quiet, Report.Reporter.Fine])
  refine ⟨n, r, h.imp id ?_⟩
  rintro ⟨bytes, hb, h⟩
  refine ⟨bytes, hb, fun hsz pre t post broken hpre hp ht => ?_⟩
  obtain ⟨o, code, gs, g1, g2, -, -, g3⟩ := h hsz pre t post broken hpre hp ht
  refine ⟨o, g1, ?_⟩
  rw [g2, g3.2 ?_]
  have : reported (calls progressEarly) "run" 2 (wholeRunners .passes) = reported e2eQueue "run" 2 (wholeRunners .passes) := by decide
  rw [this, whole_reported]
  simp [e2eTests, Passed, wholeResult]

end Abq.Props
