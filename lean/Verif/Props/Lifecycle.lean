import Verif.Proof.Lifecycle
import Verif.Props.Server
import Verif.Props.AllRunsLife
/-!
# C106: retiring a queue and shutting it down

For every schedule of calls on the `Abq` object, turns of the three loops, of the connections and of the continuations.
-/

namespace Abq.Props
open Abq Lifecycle Spec
variable {T R : Type}

/-- **C106.** A queue does not stop by itself: unless `shutdown` was called or the queue was dropped, all its servers accept
connections. -/
theorem C106_listens_until_told (auth : Auth.ServerAuth) (as : List (Lifecycle.Act T R)) (h1 : .shutdown ∉ as) (h2 : .drop ∉ as) :
    ∀ v, ((Lifecycle.start T R auth).run as).server.listening v = true := by
  have key : ∀ (s : Queue T R), s.server.shutdown = false → (s.run as).server.shutdown = false := by
    induction as with
    | nil => exact fun _ h => h
    | cons a as ih =>
      intro s hs
      refine ih (fun h => h1 (List.mem_cons_of_mem _ h)) (fun h => h2 (List.mem_cons_of_mem _ h)) (s.step a) ?_
      exact not_told s a hs (fun h => h1 (h ▸ List.mem_cons_self)) (fun h => h2 (h ▸ List.mem_cons_self))
  exact (lifeInv_run _ as (lifeInv_start auth)).quiet (key _ rfl)

/-- **C106.** Once `shutdown` has returned, no loop is left, and no connection is accepted any more, whatever happens then. -/
theorem C106_shut_down_accepts_nothing (auth : Auth.ServerAuth) (as bs : List (Lifecycle.Act T R))
    (h : ((Lifecycle.start T R auth).run as).stage = .returned) :
    (∀ v, ((Lifecycle.start T R auth).run as).server.listening v = false) ∧
    ∀ i, ((Lifecycle.start T R auth).run as).server.conns i = .absent →
      ((Lifecycle.start T R auth).run (as ++ bs)).server.conns i = .absent := by
  have hl := (lifeInv_run _ as (lifeInv_start auth)).last (.inl h)
  refine ⟨hl, fun i hi => ?_⟩
  rw [life_append]
  exact (deaf_run _ bs i hl hi).2

/-- **C106.** The queue that was shut down is shut down as soon as each loop had a turn and then the call was polled three times,
whatever else happens meanwhile, and whoever is connected. -/
theorem C106_shutdown_returns (auth : Auth.ServerAuth) (as bs cs : List (Lifecycle.Act T R))
    (hi : ((Lifecycle.start T R auth).run as).stage = .idle) (hd : ((Lifecycle.start T R auth).run as).dropped = false)
    (hb : ∀ v, .task (.stop v) ∈ bs) (hc : [Lifecycle.Act.poll, .poll, .poll].Sublist cs) (hs : .shutdown ∉ bs ++ cs) :
    ((Lifecycle.start T R auth).run (as ++ .shutdown :: bs ++ cs)).stage = .returned := by
  have hinv := lifeInv_run _ as (lifeInv_start (T := T) (R := R) auth)
  generalize hq : (Lifecycle.start T R auth).run as = q at hi hd hinv
  have he : q.exited = false := by
    cases h : q.exited with
    | false => rfl
    | true => rw [hinv.over h] at hi; cases hi
  have hstep : (q.step .shutdown).stage = .awaits .negotiator := by
    simp [Queue.step, he, Queue.busy, hi, hd]
  have hg : Going (q.step .shutdown) := ⟨lifeInv_step q _ hinv, .inl ⟨_, hstep⟩⟩
  have hs1 : Lifecycle.Act.shutdown ∉ bs := fun h => hs (List.mem_append_left _ h)
  have hs2 : Lifecycle.Act.shutdown ∉ cs := fun h => hs (List.mem_append_right _ h)
  have hgb := going_run (q.step .shutdown) bs hg hs1
  have hl : ∀ v, ((q.step .shutdown).run bs).server.listening v = false := fun v => going_stops _ bs v hg hs1 (hb v)
  rw [List.append_assoc, life_append, hq, List.cons_append]
  show ((q.step .shutdown).run (bs ++ cs)).stage = .returned
  rw [life_append]
  have hr : rank ((q.step .shutdown).run bs).stage ≤ 3 := by
    rcases hgb.stage with ⟨v, hv⟩ | hv <;> rw [hv]
    · cases v <;> decide
    · decide
  have h0 := going_polls 3 _ cs hgb hs2 hl hc hr
  rcases (going_run _ cs hgb hs2).stage with ⟨v, hv⟩ | hv
  · rw [hv] at h0
    cases v <;> cases h0
  · exact hv

/-- **C106.** `retire` only marks the queue: with all calls of it left out, the same happens in the servers, to the runs and to
the calls of `shutdown`. -/
theorem C106_retire_only_marks (auth : Auth.ServerAuth) (as bs : List (Lifecycle.Act T R)) (h : Unretired as bs) :
    ((Lifecycle.start T R auth).run as).server = ((Lifecycle.start T R auth).run bs).server ∧
    ((Lifecycle.start T R auth).run as).stage = ((Lifecycle.start T R auth).run bs).stage ∧
    ((Lifecycle.start T R auth).run bs).isRetired = false := by
  obtain ⟨h1, h2⟩ := unretired_run h _ _ (AlikeQueue.refl (Lifecycle.start T R auth))
  exact ⟨h1.server, h1.stage, h2⟩

/-- **C106.** A queue is retired once `retire` was called, and stays so. -/
theorem C106_stays_retired (auth : Auth.ServerAuth) (as bs : List (Lifecycle.Act T R))
    (hi : ((Lifecycle.start T R auth).run as).stage = .idle) (hd : ((Lifecycle.start T R auth).run as).dropped = false) :
    ((Lifecycle.start T R auth).run (as ++ .retire :: bs)).isRetired = true := by
  have hinv := lifeInv_run _ as (lifeInv_start (T := T) (R := R) auth)
  rw [life_append]
  generalize (Lifecycle.start T R auth).run as = q at hi hd hinv
  have he : q.exited = false := by
    cases h : q.exited with
    | false => rfl
    | true => rw [hinv.over h] at hi; cases hi
  exact retired_run (q.step .retire) bs (by simp [Queue.step, he, Queue.busy, hi, hd])

/-- **C106** (drained, partial). Once every run is over, the queue reports that it is drained at every later time at which no
decrement is outstanding, provided no run was added since. Missing: runs that are added after the queue was retired, and
cancellations of cancelled runs (`C106_full_statement_fails`, `C14_full_statement_fails`). -/
theorem C106_drained_for_good_partial (acts more : List (RunsAct T))
    (hover : ∀ rid p, phaseOf ((Runs.init : Runs T).run acts) rid = some p → p = .exhausted ∨ p = .cancelled)
    (hold : ∀ rid, phaseOf ((Runs.init : Runs T).run acts) rid = none → phaseOf ((Runs.init : Runs T).run (acts ++ more)) rid = none)
    (hrep : repeatedCancellations (Runs.init : Runs T) (acts ++ more) = 0)
    (hsub : pendingSubs ((Runs.init : Runs T).run (acts ++ more)) = 0)
    (hfew : activeRuns ((Runs.init : Runs T).run (acts ++ more)) < 2 ^ 64) :
    ((Runs.init : Runs T).run (acts ++ more)).isDrained = true := by
  refine (C14_drained_partial (acts ++ more) hrep hsub hfew).mpr ?_
  intro rid p hp
  cases hq : phaseOf ((Runs.init : Runs T).run acts) rid with
  | none => rw [hold rid hq] at hp; cases hp
  | some q =>
    obtain ⟨p', h1, h2⟩ := C09_phases_only_move_forward acts more rid q hq
    rw [hp] at h1
    cases h1
    rcases hover rid q hq with rfl | rfl <;> cases p <;> first | exact .inl rfl | exact .inr rfl | cases h2

/-- **C106** (nothing lost, partial). If all connections are closed when the process ends, then of the results that came in for
a run that takes results, all were kept. Missing: connections that are still being handled (`C106_full_statement_fails`):
`shutdown` does not wait for them. -/
theorem C106_nothing_lost_partial (auth : Auth.ServerAuth) (as : List (Lifecycle.Act T R))
    (hclosed : ∀ i, ((Lifecycle.start T R auth).run as).server.conns i = .absent ∨
      ((Lifecycle.start T R auth).run as).server.conns i = .closed)
    (i : Nat) (srv : Server.Srv) (e : Entity) (rid : RunId) (rs : R) (so : List (Server.Ev T R)) (b : Bool)
    (h : Server.logOf i ((Lifecycle.start T R auth).run as).server.log = .received srv e (.workerResult rid rs) :: so)
    (hcell : .called (.request rid .writeCell) [.write rid (.cell b)] ∈ so) : .persisted rid rs ∈ so := by
  obtain ⟨sas, hs⟩ := life_server (Lifecycle.start T R auth) as
  rw [hs] at h hclosed
  have hs0 : (Lifecycle.start T R auth).server = Server.start T R auth := rfl
  rw [hs0] at h hclosed
  rcases hclosed i with hc | hc
  · have hf := Server.fits_run (Server.start T R auth) sas i .absent
    rw [hc, h] at hf
    cases hf
  · exact C91_results_kept auth sas i srv e rid rs so b h hcell hc

/-- **C106.** When the process has ended, nothing happens any more. -/
theorem C106_end_is_final (s : Queue T R) (as : List (Lifecycle.Act T R)) (h : s.exited = true) : s.run as = s := by
  induction as with
  | nil => rfl
  | cons a as ih =>
    have : s.step a = s := by simp [Queue.step, h]
    show (s.step a).run as = s
    rw [this]; exact ih

/-- The calls and turns that shut a queue down and end the process. -/
def shutsDown : List (Lifecycle.Act Nat Unit) :=
  [.shutdown, .task (.stop .queue), .task (.stop .work), .task (.stop .negotiator), .poll, .poll, .poll]

/-- A run with two tests, both of which its worker has been given: the worker is running them. -/
def lifeGiven : List (Lifecycle.Act Nat Unit) :=
  (serverServes ++ ([.accept .work 2, .handshake 2 [], .receive 2 (some (Sample.w 1, .nextTests "run")), .exec 2,
    .ask 2 true, .resume 1 .notFound true, .resume 1 .notFound true,
    .ask 2 true, .resume 1 .notFound true, .resume 1 .notFound true, .resume 1 .notFound true,
    .resume 1 .notFound true, .resume 1 .notFound true] : List (Server.Act Nat Unit))).map .task

/-- A worker sends results, which are acknowledged. -/
def lifeAcknowledged : List (Lifecycle.Act Nat Unit) :=
  (serverServes ++ ([.accept .queue 9, .handshake 9 [], .receive 9 (some (Sample.w 1, .workerResult "run" ())), .exec 9,
    .write 9 true] : List (Server.Act Nat Unit))).map .task

/-- **C106 fails** in the code as one would understand retiring, draining and shutting down:
a retired queue takes new runs, and is drained no more;
a drained queue may have runners that have not reported the results of their tests;
and `shutdown` returns, and the process ends, before acknowledged results are stored, which they then never are. -/
theorem C106_full_statement_fails :
    (∃ as : List (Lifecycle.Act Nat Unit),
      ((Lifecycle.start Nat Unit .noAuth).run [.retire]).isRetired = true ∧
      ((Lifecycle.start Nat Unit .noAuth).run [.retire]).isDrained = true ∧
      phaseOf ((Lifecycle.start Nat Unit .noAuth).run (.retire :: as)).server.registry "run" = some .waiting ∧
      ((Lifecycle.start Nat Unit .noAuth).run (.retire :: as)).isDrained = false) ∧
    (∃ as : List (Lifecycle.Act Nat Unit),
      ((Lifecycle.start Nat Unit .noAuth).run as).isDrained = true ∧
      owes "run" (Sample.w 1).tag ((Lifecycle.start Nat Unit .noAuth).run as).server.registry.events = true) ∧
    (∃ as : List (Lifecycle.Act Nat Unit),
      ((Lifecycle.start Nat Unit .noAuth).run as).exited = true ∧
      Server.logOf 9 ((Lifecycle.start Nat Unit .noAuth).run as).server.log =
        [.received .queue (Sample.w 1) (.workerResult "run" ()),
          .called (.request "run" .writeCell) [.write "run" (.cell false)], .answered] ∧
      ∀ more, ((Lifecycle.start Nat Unit .noAuth).run (as ++ more)) = (Lifecycle.start Nat Unit .noAuth).run as) := by
  refine ⟨⟨serverJoins.map .task, rfl, rfl, by decide, by decide⟩, ⟨lifeGiven, by decide, by decide⟩,
    ⟨lifeAcknowledged ++ shutsDown ++ [.exit], by decide, rfl, fun more => ?_⟩⟩
  rw [life_append]
  exact C106_end_is_final _ more (by decide)

/-- A worker joins and the manifest comes in while the queue is told to shut down: the call returns nevertheless. -/
example : ((Lifecycle.start Nat Unit .noAuth).run (serverJoins.map .task ++ .shutdown ::
    ([.task (.stop .work), .task (.accept .queue 1), .task (.stop .queue), .poll, .task (.stop .negotiator)]) ++
    [.poll, .task (.handshake 1 []), .poll, .retire, .poll])).stage = .returned :=
  C106_shutdown_returns .noAuth _ _ _ (by decide) (by decide)
    (by intro v; cases v <;> simp) (by simp [List.sublist_cons_iff]) (by simp)

example : ((Lifecycle.start Nat Unit .noAuth).run lifeAcknowledged).server.conns 9 = .running [.persist "run" ()] := rfl

example : Unretired ([.retire, .poll, .retire, .shutdown] : List (Lifecycle.Act Nat Unit)) [.poll, .shutdown] :=
  .skip (.keep (fun h => nomatch h) (.skip (.keep (fun h => nomatch h) .nil)))

/-- Everything that came in was handled before the queue was shut down. -/
example : ((Lifecycle.start Nat Unit .noAuth).run (serverKeeps.map .task ++ shutsDown ++ [.exit])).exited = true ∧
    Server.logOf 9 ((Lifecycle.start Nat Unit .noAuth).run (serverKeeps.map .task ++ shutsDown ++ [.exit])).server.log =
      [.received .queue (Sample.w 1) (.workerResult "run" ()),
        .called (.request "run" .writeCell) [.write "run" (.cell false)], .unanswered, .persisted "run" ()] := ⟨by decide, rfl⟩

/-- A run is over, and a worker reports its completion then. -/
example : phaseOf ((Runs.init : Runs Nat).run Sample.persisted) "run" = some .exhausted ∧
    ((Runs.init : Runs Nat).run Sample.persisted).runs.length = 1 ∧
    ((Runs.init : Runs Nat).run (Sample.persisted ++ [.request "run" (.complete (Sample.w 1) 5)])).isDrained = true ∧
    ((Runs.init : Runs Nat).run (Sample.persisted ++ [.request "run" (.complete (Sample.w 1) 5)])).runs.length = 1 := by decide

/-- A queue that is dropped stops accepting as well. -/
example : ((Lifecycle.start Nat Unit .noAuth).run [.drop, .task (.stop .queue), .task (.accept .queue 0)]).server.conns 0 = .absent :=
  rfl

end Abq.Props
