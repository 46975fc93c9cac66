import Verif.Proof.Restart
import Verif.Proof.Timed

/-!
# C96: a run that came to its end is not started anew by a restarted queue
-/

namespace Abq.Props
open Abq Runs Restart Spec Spec.Restart WorkerSet
variable {T : Type}

/-- What a step adds to the log, and what holds when it stored a state. -/
theorem stored_now (st : Strategy) (w : World T) (acts' : List (RunsAct T))
    (hw : w.queue = (Runs.init : Runs T).run acts') (a : Restart.Act T) (chunk : List (Obs T))
    (hc : (w.step st a).log = w.log ++ chunk) (rid : RunId) (d : RunDoc) (A B : List (Obs T))
    (h : chunk = A ++ .stored rid d :: B) :
    (∀ o ∈ B, o = .queue (.storeFailed rid)) ∧ List.lookup rid (w.step st a).objects = some (.state d) ∧
      Kept d (proj (w.step st a).queue rid) := by
  have hmem : .stored rid d ∈ chunk := by rw [h]; simp
  have hnews : ∀ σ σ' : Runs T, (Obs.stored rid d) ∉ World.news σ σ' := by
    intro σ σ' hm
    obtain ⟨ev, h1, h2⟩ := List.mem_map.1 hm
    cases h2
  cases a with
  | join p =>
    have := List.append_cancel_left hc
    rw [← this] at hmem
    exact absurd hmem (hnews _ _)
  | request r req =>
    have := List.append_cancel_left hc
    rw [← this] at hmem
    exact absurd hmem (hnews _ _)
  | restart =>
    have := List.append_cancel_left hc
    rw [← this] at hmem
    simp at hmem
  | resume i fault ok =>
    simp only [World.step] at hc ⊢
    cases hp : w.queue.pending[i]? with
    | none =>
      rw [hp] at hc
      have hnil : chunk = [] := by
        have : w.log ++ [] = w.log ++ chunk := by rw [List.append_nil]; exact hc
        exact (List.append_cancel_left this).symm
      rw [hnil] at hmem
      exact absurd hmem List.not_mem_nil
    | some p =>
      rw [hp] at hc
      dsimp only at hc ⊢
      have hc' : World.storeObs st fault ok p ++ World.news w.queue (World.resume st w i fault ok p).queue =
          chunk := by
        have : w.log ++ (World.storeObs st fault ok p ++
            World.news w.queue (World.resume st w i fault ok p).queue) = w.log ++ chunk := by
          rw [← List.append_assoc]; exact hc
        exact List.append_cancel_left this
      have hso : .stored rid d ∈ World.storeObs st fault ok p := by
        rw [← hc'] at hmem
        rcases List.mem_append.1 hmem with hm | hm
        · exact hm
        · exact absurd hm (hnews _ _)
      cases p <;> simp only [World.storeObs] at hso
      case joinRemote q => split at hso <;> simp at hso
      case dumpState r d' =>
        split at hso
        · rename_i hcond
          obtain ⟨hnoop, hfault⟩ := hcond
          simp only [List.mem_singleton, Obs.stored.injEq] at hso
          obtain ⟨rfl, rfl⟩ := hso
          obtain ⟨y, hy, hst, hnx, hev⟩ : ∃ y : Eff T, contEff (w.queue.get rid)
              (load st (List.lookup rid w.objects) fault) (World.ioOk st fault ok (Pending.dumpState (T := T) rid d))
              (.dumpState rid d) = y ∧ y.state = w.queue.get rid ∧ y.next = [] ∧ ∀ e ∈ y.evs, e = .storeFailed rid := by
            simp only [contEff]
            split <;> exact ⟨_, rfl, rfl, rfl, by simp⟩
          have hs : (World.resume st w i fault ok (.dumpState rid d)).queue =
              { w.queue with pending := w.queue.pending.eraseIdx i }.apply rid y := by
            simp only [World.resume, Runs.step, hp, Pending.writes, Bool.false_and, Pending.rid, Bool.false_eq_true, if_false]
            rw [← hy]
          have hnn : World.news w.queue (World.resume st w i fault ok (.dumpState rid d)).queue = y.evs.map .queue := by
            rw [hs]
            exact news_apply w.queue { w.queue with pending := w.queue.pending.eraseIdx i } rid _ rfl
          rw [hnn] at hc'
          simp only [World.storeObs, ne_eq, hnoop, not_false_eq_true, hfault, and_self, if_true] at hc'
          rw [h] at hc'
          have hB : ∀ o ∈ B, o = .queue (.storeFailed rid) := by
            cases A with
            | nil =>
              simp only [List.cons_append, List.nil_append, List.cons.injEq] at hc'
              intro o ho
              rw [← hc'.2] at ho
              obtain ⟨e, he, rfl⟩ := List.mem_map.1 ho
              rw [hev e he]
            | cons o A =>
              simp only [List.cons_append, List.nil_append, List.cons.injEq] at hc'
              have : (Obs.stored rid d : Obs T) ∈ y.evs.map .queue := by rw [hc'.2]; simp
              obtain ⟨e, -, he⟩ := List.mem_map.1 this
              cases he
          refine ⟨hB, ?_, ?_⟩
          · show List.lookup rid (Restart.store st (fault && !ok) w.objects rid d) = _
            rw [hfault]
            cases st
            · exact absurd rfl hnoop
            · simp [Restart.store]
            · simp [Restart.store]
          · have hpl : Plans (proj w.queue rid) := by rw [hw]; exact plans_run acts' rid
            obtain ⟨a, b, h1, h2⟩ := eraseIdx_split hp
            have hps : (proj w.queue rid).ps = a.filter (fun q => q.rid == rid) ++ .dumpState rid d ::
                b.filter (fun q => q.rid == rid) := by
              simp [proj, h1, Pending.rid]
            have hend := hpl.fits d (by rw [hps]; simp [planOf])
            have hone := hpl.one
            rw [hps, List.filterMap_append, List.filterMap_cons] at hone
            simp only [planOf, List.length_append, List.length_cons] at hone
            have e1 : (a.filter (fun q => q.rid == rid)).filterMap planOf = [] :=
              List.length_eq_zero_iff.1 (by omega)
            have e2 : (b.filter (fun q => q.rid == rid)).filterMap planOf = [] :=
              List.length_eq_zero_iff.1 (by omega)
            rw [hs, proj_apply { w.queue with pending := w.queue.pending.eraseIdx i } rid _
              ⟨fun e he => by rw [hev e he]; rfl, by rw [hnx]; simp⟩ (fun h => hst.symm.trans h), if_pos rfl]
            refine ⟨Or.inr (by rw [show (Loc.app _ y).s = y.state from rfl, hst]; exact hend), ?_⟩
            simp only [Loc.app, proj, h2, hnx, List.append_nil, List.filter_append, List.filterMap_append,
              e1, e2]
        · exact absurd hso List.not_mem_nil
      all_goals exact absurd hso List.not_mem_nil

theorem step_log (st : Strategy) (w : World T) (a : Restart.Act T) :
    ∃ chunk, (w.step st a).log = w.log ++ chunk := by
  cases a with
  | join p => exact ⟨_, rfl⟩
  | request r req => exact ⟨_, rfl⟩
  | restart => exact ⟨_, rfl⟩
  | resume i fault ok =>
    simp only [World.step]
    split
    · exact ⟨[], by simp⟩
    · exact ⟨_, by simp only [World.resume, List.append_assoc]; rfl⟩

/-- What holds after the state of a run was stored, as long as the store can be reached where its
unreachability would be taken for the absence of the state. -/
theorem kept_run (st : Strategy) (objects : List (RunId × Object)) (acts : List (Restart.Act T))
    (rid : RunId) (d : RunDoc) (A B : List (Obs T))
    (h : ((World.init objects).run st acts).log = A ++ .stored rid d :: B)
    (hst : st = .s3 ∨ (st = .custom ∧ .unreachable rid ∉ B)) :
    List.lookup rid ((World.init objects).run st acts).objects = some (.state d) ∧
    Kept d (proj ((World.init objects).run st acts).queue rid) ∧
    ∀ p x, p.rid = rid → .queue (.joined p x) ∈ B →
      FitsEnded d p x ∧ (x = .fatal → .unreachable rid ∈ B) := by
  induction acts using Timed.snoc_induction generalizing A B with
  | nil => exact absurd h.symm (List.append_ne_nil_of_right_ne_nil _ (by simp))
  | snoc acts a ih =>
    have hrun : (World.init objects).run st (acts ++ [a]) =
        ((World.init objects).run st acts).step st a := by
      simp [World.run, List.foldl_append]
    rw [hrun] at h ⊢
    obtain ⟨acts', hw⟩ := reach (T := T) st objects acts
    generalize (World.init objects).run st acts = w at *
    obtain ⟨chunk, hc⟩ := step_log st w a
    -- the state was stored just now
    have now : ∀ A', chunk = A' ++ .stored rid d :: B →
        List.lookup rid (w.step st a).objects = some (.state d) ∧
        Kept d (proj (w.step st a).queue rid) ∧
        ∀ p x, p.rid = rid → .queue (.joined p x) ∈ B →
          FitsEnded d p x ∧ (x = .fatal → .unreachable rid ∈ B) := by
      intro A' hA'
      obtain ⟨h1, h2, h3⟩ := stored_now st w acts' hw a chunk hc rid d A' B hA'
      exact ⟨h2, h3, fun _ _ _ hm => nomatch h1 _ hm⟩
    rw [hc] at h
    rcases List.append_eq_append_iff.1 h with ⟨a', -, h2⟩ | ⟨c', h1, h2⟩
    · exact now a' h2
    · cases c' with
      | nil => exact now [] (by simpa using h2.symm)
      | cons o c' =>
        simp only [List.cons_append, List.cons.injEq] at h2
        obtain ⟨rfl, rfl⟩ := h2
        obtain ⟨i1, i2, i3⟩ := ih A c' h1 (hst.imp id (fun h => ⟨h.1, fun hm => h.2 (by simp [hm])⟩))
        obtain ⟨chunk', hc', hk⟩ := kept_step st w acts' hw a rid d i1 i2
        have : chunk' = chunk := List.append_cancel_left (hc'.symm.trans hc)
        subst this
        obtain ⟨k1, k2, -, k4⟩ := hk (hst.imp id (fun h => ⟨h.1, fun hm => h.2 (by simp [hm])⟩))
        refine ⟨k1, k2, ?_⟩
        intro p x hp hm
        rcases List.mem_append.1 hm with hm | hm
        · obtain ⟨j1, j2⟩ := i3 p x hp hm
          exact ⟨j1, fun h => List.mem_append_left _ (j2 h)⟩
        · obtain ⟨j1, j2⟩ := k4 p x hp hm
          exact ⟨j1, fun h => List.mem_append_right _ (j2 h)⟩

/-- C96: once the state of a run was stored in S3, every worker that joins the run afterwards, however
often the queue is restarted and whatever the store does, is answered as fits a run that came to its end
with that state; and it is told that the queue failed only if the store could not be reached. -/
theorem C96_stored_in_s3 (objects : List (RunId × Object)) (acts : List (Restart.Act T))
    (rid : RunId) (d : RunDoc) (A B : List (Obs T))
    (h : ((World.init objects).run .s3 acts).log = A ++ .stored rid d :: B) (p : JoinParams) (x : Assigned)
    (hp : p.rid = rid) (hm : .queue (.joined p x) ∈ B) :
    FitsEnded d p x ∧ (x = .fatal → .unreachable rid ∈ B) :=
  (kept_run .s3 objects acts rid d A B h (Or.inl rfl)).2.2 p x hp hm

/-- C96: the same with a store that is a command of the user, as long as the command does not fail to
load a state that it has. -/
theorem C96_stored_by_command_partial (objects : List (RunId × Object)) (acts : List (Restart.Act T))
    (rid : RunId) (d : RunDoc) (A B : List (Obs T))
    (h : ((World.init objects).run .custom acts).log = A ++ .stored rid d :: B)
    (hok : .unreachable rid ∉ B) (p : JoinParams) (x : Assigned)
    (hp : p.rid = rid) (hm : .queue (.joined p x) ∈ B) :
    FitsEnded d p x ∧ x ≠ .fatal := by
  obtain ⟨h1, h2⟩ := (kept_run .custom objects acts rid d A B h (Or.inr ⟨rfl, hok⟩)).2.2 p x hp hm
  exact ⟨h1, fun hx => hok (h2 hx)⟩

/-- C96: so no worker is told to start the run anew. -/
theorem C96_not_started_anew_partial (st : Strategy) (objects : List (RunId × Object))
    (acts : List (Restart.Act T)) (rid : RunId) (d : RunDoc) (A B : List (Obs T))
    (h : ((World.init objects).run st acts).log = A ++ .stored rid d :: B)
    (hst : st = .s3 ∨ (st = .custom ∧ .unreachable rid ∉ B)) : ∀ o ∈ B, ¬ StartedAnew rid o := by
  rintro o hm ⟨p, g, b, hp, rfl⟩
  obtain ⟨h1, -⟩ := (kept_run st objects acts rid d A B h hst).2.2 p _ hp hm
  rcases h1 with ⟨_, h⟩ | ⟨h, -⟩ | h <;> cases h

/-- A run of two tests, up to the answer that tells worker 2 that there are no more tests. -/
def endedActs : List (Restart.Act Nat) :=
  [.join (Sample.jp 1), .resume 0 false true, .join (Sample.jp 2), .resume 1 false true,
    .request "run" (.addManifest [(10, 0), (11, 0)] "md"),
    .request "run" (.nextWork (Sample.w 1)), .resume 1 false true, .resume 1 false true,
    .request "run" (.nextWork (Sample.w 2)), .resume 1 false true, .resume 1 false true,
    .resume 1 false true]

/-- The manifest and the state are stored; the queue is restarted, and workers 1 and 3 join. -/
def rejoinActs (fault : Bool) : List (Restart.Act Nat) :=
  endedActs ++ [.resume 3 false true, .restart, .join (Sample.jp 1), .resume 0 fault true,
    .resume 0 false true, .join (Sample.jp 3), .resume 0 false true]

/-- What workers were told that joined the run. -/
def toldJoin : Obs Nat → Option (Nat × Assigned)
  | .queue (.joined p a) => if p.rid = "run" then some (p.entity.id, a) else none
  | _ => none

/-- What happened to the run, in short. -/
def marks : Obs Nat → Option Nat
  | .stored "run" _ => some 1
  | .unreachable "run" => some 2
  | .restarted => some 3
  | .queue (.delivered "run" _ _ true) => some 4
  | _ => none

/-- The state is stored after the end was told, then the queue is restarted; worker 1 runs its tests
again, worker 3 is told that the run is over. -/
example : ((World.init []).run .s3 (rejoinActs false)).log.filterMap marks = [4, 1, 3] ∧
    ((World.init []).run .s3 (rejoinActs false)).log.filterMap toldJoin =
      [(1, .fresh true false), (2, .fresh false false), (1, .retry false), (3, .alreadyDone 0)] ∧
    ((World.init []).run .custom (rejoinActs false)).log.filterMap marks = [4, 1, 3] ∧
    ((World.init []).run .s3 (rejoinActs true)).log.filterMap toldJoin =
      [(1, .fresh true false), (2, .fresh false false), (1, .fatal)] := by decide

/-- A worker was told that the run is at its end, and later one was told to start it. -/
def Rerun (rid : RunId) (log : List (Obs T)) : Prop :=
  ∃ A o B o', log = A ++ o :: B ∧ ToldEnd rid o ∧ o' ∈ B ∧ StartedAnew rid o'

theorem rerun_of {log : List (Obs Nat)} (n : Nat) (h1 : (log[n]?).bind marks = some 4)
    (h2 : (1, Assigned.fresh true false) ∈ (log.drop (n + 1)).filterMap toldJoin) : Rerun "run" log := by
  cases ho : log[n]? with
  | none => rw [ho] at h1; cases h1
  | some o =>
    rw [ho] at h1
    obtain ⟨hn, hno⟩ := List.getElem?_eq_some_iff.1 ho
    obtain ⟨o', h3, h4⟩ := List.mem_filterMap.1 h2
    refine ⟨log.take n, o, log.drop (n + 1), o', ?_, ?_, h3, ?_⟩
    · rw [← hno, ← List.drop_eq_getElem_cons hn, List.take_append_drop]
    · simp only [Option.bind_some] at h1
      unfold marks at h1
      split at h1 <;> first | (simp at h1; done) | exact ⟨_, _, rfl⟩
    · unfold toldJoin at h4
      split at h4
      · rename_i p a
        split at h4
        · rename_i hr
          simp only [Option.some.injEq, Prod.mk.injEq] at h4
          exact ⟨p, true, false, hr, by rw [h4.2]⟩
        · cases h4
      · cases h4

/-- C96 in full is false: with a command as store, a single failure of the command makes a restarted
queue run a run again whose state is stored; and with any store, so does a restart between the moment the
last worker is told that there are no more tests and the moment the state is stored. -/
theorem C96_full_statement_fails :
    Rerun "run" ((World.init []).run .custom (rejoinActs true)).log ∧
    .state ⟨0, "md", [Sample.w 1, Sample.w 2], some "cmd"⟩ ∈
      ((World.init (T := Nat) []).run .custom (rejoinActs true)).objects.map Prod.snd ∧
    Rerun "run" ((World.init []).run .s3
      (endedActs ++ [.restart, .join (Sample.jp 1), .resume 0 false true])).log := by
  refine ⟨rerun_of 8 (by decide) (by decide), by decide, rerun_of 8 (by decide) (by decide)⟩

end Abq.Props
