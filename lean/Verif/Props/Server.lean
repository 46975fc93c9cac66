import Verif.Proof.ServerRegistry
import Verif.Props.AllRunsJoin
import Verif.Props.Auth
/-!
# C91, C92: the servers of the queue

For every schedule of accepts, handshakes, messages, failing and succeeding writes and continuations of the registry, on any
number of connections. What may happen on a connection is `Course` in `Verif/Spec/Server.lean`.
-/

namespace Abq.Props
open Abq Server Spec
variable {T R : Type}

/-! ## C91 -/

theorem ran_prefix {k : Kind T R} {so : List (Ev T R)} {p : List (Instr T R)} (h : Ran k so p) :
    ∃ c, Course k c ∧ so <+: c := by
  cases h with
  | plain => exact ⟨_, .plain (.inl rfl), List.nil_prefix⟩
  | ack0 => exact ⟨_, .ackLost, List.nil_prefix⟩
  | ack1 => exact ⟨_, .acked (evs := []) (fun _ => by simp), ⟨_, rfl⟩⟩
  | after0 => exact ⟨_, .after (evs := []) (fun _ => by simp) (.inl rfl), List.nil_prefix⟩
  | after1 h => exact ⟨_, .after h (.inl rfl), ⟨_, rfl⟩⟩
  | res0 => exact ⟨_, .refused (evs := []) (fun _ => by simp) (.inl rfl), List.nil_prefix⟩
  | res1 => exact ⟨_, .kept (.inl rfl), ⟨_, rfl⟩⟩
  | res2 h => exact ⟨_, .kept h, ⟨_, rfl⟩⟩
  | resNo h => exact ⟨_, .refused h (.inl rfl), ⟨_, rfl⟩⟩
  | stay => exact ⟨_, .stays (answers := []), List.nil_prefix⟩

/-- **C91.** On every connection, at every time, either no message has arrived, or the one message that did is of the server
that accepted the connection, and what happened since is the beginning of one of the courses for it, all of it once the
connection is closed. -/
theorem C91_course (auth : Auth.ServerAuth) (acts : List (Server.Act T R)) (i : Nat) :
    logOf i ((start T R auth).run acts).log = [] ∨
    ∃ srv e m so c, logOf i ((start T R auth).run acts).log = .received srv e m :: so ∧ m.srv = srv ∧
      Course (kindOf e m) c ∧ so <+: c ∧ (((start T R auth).run acts).conns i = .closed → so = c) := by
  have h := fits_run (start T R auth) acts i .absent
  generalize hl : logOf i ((start T R auth).run acts).log = l at h
  generalize ((start T R auth).run acts).conns i = p at h
  cases h with
  | absent | opened | reading | dead => exact .inl rfl
  | running hs hr =>
    obtain ⟨c, hc, hp⟩ := ran_prefix hr
    exact .inr ⟨_, _, _, _, c, rfl, hs, hc, hp, fun h => by cases h⟩
  | serving hs hk => exact .inr ⟨_, _, _, _, _, rfl, hs, hk ▸ .stays, List.prefix_refl _, fun h => by cases h⟩
  | done hs hc => exact .inr ⟨_, _, _, _, _, rfl, hs, hc, List.prefix_refl _, fun _ => rfl⟩

/-- **C91.** The runs are in the state that the calls in the log, in the order of the log, and continuations of these bring
about: no connection acts on a run in any other way, and each call came up with what the log says. So all that is proved of
the registry for every schedule of calls (C09 to C16 and more) holds behind the servers. -/
theorem C91_registry (auth : Auth.ServerAuth) (acts : List (Server.Act T R)) :
    ∃ ras, ((start T R auth).run acts).registry = Runs.init.run ras ∧
      ras.filter (fun a => !IsResume a) = (calls ((start T R auth).run acts).log).map Call.act ∧
      ∀ i a evs, (i, Ev.called a evs) ∈ ((start T R auth).run acts).log → ∃ pre post, ras = pre ++ a.act :: post ∧
        (Runs.init.run (pre ++ [a.act]) : Runs T).events = (Runs.init.run pre : Runs T).events ++ evs := by
  obtain ⟨ras, h⟩ := behind_run (behind_start (T := T) (R := R) auth) acts
  refine ⟨ras, h.eq, h.calls, ?_⟩
  intro i a evs hm
  obtain ⟨pre, post, e, -, hev⟩ := h.each i a evs hm
  exact ⟨pre, post, e, hev⟩

/-- How often the log of a connection has a call. -/
def callsIn (l : List (Ev T R)) : Nat := l.countP fun ev => match ev with | .called .. => true | _ => false

theorem course_calls {k : Kind T R} {c : List (Ev T R)} (h : Course k c) (hk : ∀ rid e, k ≠ .stays rid e) : callsIn c ≤ 1 := by
  have tried : ∀ x : Ev T R, Tried x → (match x with | .called .. => true | _ => false) = false := by
    rintro x (rfl | rfl) <;> rfl
  cases h with
  | plain hx => simp [callsIn, List.countP_cons, tried _ hx]
  | after _ hx => simp [callsIn, List.countP_cons, tried _ hx]
  | kept hx => simp [callsIn, List.countP_cons, tried _ hx]
  | refused _ hx => simp [callsIn, List.countP_cons, tried _ hx]
  | stays => exact absurd rfl (hk _ _)
  | staysNoRun => exact absurd rfl (hk _ _)
  | _ => simp [callsIn]

/-- **C91.** A request is carried out at most once (requests for tests, of which a connection may make many, apart). -/
theorem C91_once (auth : Auth.ServerAuth) (acts : List (Server.Act T R)) (i : Nat) (srv : Srv) (e : Entity) (m : Msg T R)
    (so : List (Ev T R)) (h : logOf i ((start T R auth).run acts).log = .received srv e m :: so)
    (hm : ∀ rid, m ≠ .nextTests rid) : callsIn so ≤ 1 := by
  rcases C91_course auth acts i with h' | ⟨srv', e', m', so', c, h', -, hc, hp, -⟩
  · rw [h] at h'; cases h'
  · rw [h] at h'
    cases h'
    refine Nat.le_trans (hp.sublist.countP_le) (course_calls hc ?_)
    intro rid e'' hk
    cases m with
    | nextTests rid => exact hm rid rfl
    | manifest rid flat md => cases flat <;> cases hk
    | _ => cases hk

/-- **C91.** Results of tests for a run that takes results are kept once the connection is done, whether or not their
acknowledgment could be written. -/
theorem C91_results_kept (auth : Auth.ServerAuth) (acts : List (Server.Act T R)) (i : Nat) (srv : Srv) (e : Entity) (rid : RunId)
    (rs : R) (so : List (Ev T R)) (b : Bool)
    (h : logOf i ((start T R auth).run acts).log = .received srv e (.workerResult rid rs) :: so)
    (hcell : .called (.request rid .writeCell) [.write rid (.cell b)] ∈ so)
    (hclosed : ((start T R auth).run acts).conns i = .closed) : .persisted rid rs ∈ so := by
  rcases C91_course auth acts i with h' | ⟨srv', e', m', so', c, h', -, hc, -, he⟩
  · rw [h] at h'; cases h'
  · rw [h] at h'
    cases h'
    have := he hclosed
    subst this
    have hk : kindOf e (Msg.workerResult rid rs : Msg T R) = .results rid rs := rfl
    rw [hk] at hc
    cases hc with
    | kept hx => simp
    | refused hne hx =>
      rw [List.mem_cons, List.mem_singleton] at hcell
      rcases hcell with hcell | hcell
      · injection hcell with _ h2
        exact absurd h2.symm (hne b)
      · rw [← hcell] at hx
        rcases hx with hx | hx <;> cases hx

theorem cancel_reaches (pre : List (RunsAct T)) (rid : RunId) (e : Entity) (reason : CancelReason) (evs : List (Event T))
    (hlock : (Runs.init.run pre : Runs T).readLocked rid = false)
    (hev : (Runs.init.run (pre ++ [.request rid (.cancel e reason)]) : Runs T).events = (Runs.init.run pre : Runs T).events ++ evs)
    (hne : ∀ r, evs ≠ [.noRun r true]) :
    phaseOf (Runs.init.run (pre ++ [.request rid (.cancel e reason)]) : Runs T) rid = some .cancelled ∨
    phaseOf (Runs.init.run (pre ++ [.request rid (.cancel e reason)]) : Runs T) rid = some .exhausted := by
  rw [Runs.run_append] at hev ⊢
  change (((Runs.init.run pre) : Runs T).step (.request rid (.cancel e reason))).events = _ at hev
  change phaseOf (((Runs.init.run pre) : Runs T).step (.request rid (.cancel e reason))) rid = _ ∨
    phaseOf (((Runs.init.run pre) : Runs T).step (.request rid (.cancel e reason))) rid = _
  have hstep := step_request ((Runs.init.run pre) : Runs T) rid (.cancel e reason) (fun _ => hlock)
  rw [hstep] at hev ⊢
  cases hs : (Runs.init.run pre : Runs T).get rid with
  | none =>
    rw [hs] at hev
    have : evs = [.noRun rid true] := (List.append_cancel_left hev).symm
    exact absurd this (hne rid)
  | some s =>
    unfold phaseOf
    rw [apply_get _ _ _ _ (by simp [Runs.reqEff, Runs.exec]), if_pos rfl]
    show Option.map phase (some (s.cancel e reason).1) = _ ∨ _
    cases s with
    | done x md seen m hh => exact .inr rfl
    | cancelled r => exact .inl rfl
    | _ => exact .inl rfl

/-- **C91.** A request to cancel a run that was acknowledged and whose handler has ended was carried out, or there was no such
run: from then on the run is cancelled, or all its tests had been handed out before. -/
theorem C91_cancelled (auth : Auth.ServerAuth) (acts more : List (Server.Act T R)) (i : Nat) (srv : Srv) (e : Entity) (rid : RunId)
    (so : List (Ev T R)) (h : logOf i ((start T R auth).run acts).log = .received srv e (.cancelRun rid) :: so)
    (hack : .answered ∈ so) (hclosed : ((start T R auth).run acts).conns i = .closed) (hrun : .panicked ∉ so) :
    phaseOf ((start T R auth).run (acts ++ more)).registry rid = some .cancelled ∨
    phaseOf ((start T R auth).run (acts ++ more)).registry rid = some .exhausted := by
  rcases C91_course auth acts i with h' | ⟨srv', e', m', so', c, h', -, hc, -, he⟩
  · rw [h] at h'; cases h'
  · rw [h] at h'
    cases h'
    have := he hclosed
    subst this
    have hk : kindOf e (Msg.cancelRun rid : Msg T R) = .ackFirst (.request rid (.cancel e .user)) := rfl
    rw [hk] at hc
    cases hc with
    | ackLost => simp at hack
    | ackedNoRun => simp at hrun
    | @acked _ evs hne =>
      have hmem : (i, Ev.called (.request rid (.cancel e .user)) evs) ∈ ((start T R auth).run acts).log := by
        have : Ev.called (.request rid (.cancel e .user)) evs ∈ logOf i ((start T R auth).run acts).log := by
          rw [h]; simp
        unfold logOf at this
        obtain ⟨⟨j, ev⟩, hm, hif⟩ := List.mem_filterMap.1 this
        dsimp only at hif
        split at hif
        · rename_i hj; subst hj; injection hif with hif; rw [← hif]; exact hm
        · cases hif
      have hlog : (i, Ev.called (.request rid (.cancel e .user)) evs) ∈ ((start T R auth).run (acts ++ more)).log := by
        have : ((start T R auth).run (acts ++ more)) = ((start T R auth).run acts).run more := List.foldl_append ..
        rw [this]
        have : Ev.called (.request rid (.cancel e .user)) evs ∈ logOf i (((start T R auth).run acts).run more).log :=
          (log_grows _ more i).subset (by rw [h]; simp)
        unfold logOf at this
        obtain ⟨⟨j, ev⟩, hm, hif⟩ := List.mem_filterMap.1 this
        dsimp only at hif
        split at hif
        · rename_i hj; subst hj; injection hif with hif; rw [← hif]; exact hm
        · cases hif
      obtain ⟨ras, hb⟩ := behind_run (behind_start (T := T) (R := R) auth) (acts ++ more)
      obtain ⟨pre, post, e1, hl, hev⟩ := hb.each i _ evs hlog
      have hfin : ras = (pre ++ [.request rid (.cancel e .user)]) ++ post := by
        rw [e1, List.append_assoc]; rfl
      rw [hb.eq, hfin]
      rcases cancel_reaches pre rid e .user evs (hl rid _ rfl rfl) hev hne with hp | hp
      · obtain ⟨p', h1, h2⟩ := C09_phases_only_move_forward _ post rid _ hp
        cases p' <;> first | exact .inl h1 | exact .inr h1 | simp [Phase.later] at h2
      · obtain ⟨p', h1, h2⟩ := C09_phases_only_move_forward _ post rid _ hp
        cases p' <;> first | exact .inl h1 | exact .inr h1 | simp [Phase.later] at h2

/-- **C91.** After its acknowledgment a request is carried out as soon as its task gets its turn and the run is not being
looked at. -/
theorem C91_next_turn (auth : Auth.ServerAuth) (acts : List (Server.Act T R)) (i : Nat) (srv : Srv) (e : Entity) (m : Msg T R)
    (rid : RunId) (r : Req T) (h : logOf i ((start T R auth).run acts).log = [.received srv e m, .answered])
    (hm : kindOf e m = .ackFirst (.request rid r))
    (hfree : ((start T R auth).run acts).registry.readLocked rid = false) :
    ∃ evs, .called (.request rid r) evs ∈ logOf i ((start T R auth).run (acts ++ [.exec i])).log := by
  have hf := fits_run (start T R auth) acts i .absent
  have hrun : (start T R auth).run (acts ++ [.exec i]) = ((start T R auth).run acts).step (.exec i) := List.foldl_append ..
  rw [hrun]
  generalize (start T R auth).run acts = s at hf h hfree
  generalize hp : s.conns i = p at hf
  generalize hq : logOf i s.log = l at hf
  rw [h] at hq
  have hb : s.blocked (.request rid r) = false := by
    show (r.writes && s.registry.readLocked rid) = false
    rw [hfree, Bool.and_false]
  cases hf with
  | absent | opened | reading | dead => cases hq
  | @serving _ _ _ _ _ answers hs hk =>
    injection hq with h1 h2
    cases answers <;> cases h2
  | running hs hr =>
    injection hq with h1 h2
    cases h1
    rw [hm] at hr
    subst h2
    cases hr with
    | ack1 =>
      unfold State.step
      dsimp only
      rw [hp]
      dsimp only
      unfold State.exec
      dsimp only
      rw [hb]
      simp only [Bool.false_eq_true, if_false]
      refine ⟨s.result (.request rid r), ?_⟩
      split
      · rw [logOf_note]
        refine List.mem_append_left _ ?_
        show _ ∈ logOf i (s.call i _).log
        exact (logOf_note _ _ _) ▸ (List.mem_append_right _ (List.mem_singleton.2 rfl))
      · show _ ∈ logOf i (s.call i _).log
        exact (logOf_note _ _ _) ▸ (List.mem_append_right _ (List.mem_singleton.2 rfl))
  | done hs hc =>
    injection hq with h1 h2
    cases h1
    rw [hm] at hc
    subst h2
    cases hc

/-! ### What is missing -/

/-- Worker 1 creates a run through the servers. -/
def serverJoins : List (Server.Act Nat Unit) :=
  [.accept .negotiator 0, .handshake 0 [], .receive 0 (some (Sample.w 1, .wantsToAttach (Sample.jp 1))), .exec 0, .write 0 true,
    .resume 0 .notFound true]

/-- Its manifest is taken. -/
def serverServes : List (Server.Act Nat Unit) :=
  serverJoins ++ [.accept .queue 1, .handshake 1 [], .receive 1 (some (Sample.w 1, .manifest "run" [(10, 0), (11, 0)] "md")),
    .write 1 true, .exec 1]

example : phaseOf ((start Nat Unit .noAuth).run serverServes).registry "run" = some .serving := by decide

/-- **C91 fails** in full: requests are acknowledged before they are carried out. A request to cancel a run that arrived is
dropped if its acknowledgment cannot be written; the manifest of a run, and the message that a worker ran all its tests, too.
And a request that was acknowledged may not have been carried out yet: after the acknowledgment of a cancellation the run is
still served. -/
theorem C91_full_statement_fails :
    (∃ (acts : List (Server.Act Nat Unit)) (e : Entity),
      logOf 9 ((start Nat Unit .noAuth).run acts).log = [.received .queue e (.cancelRun "run"), .unanswered] ∧
      ((start Nat Unit .noAuth).run acts).conns 9 = .closed ∧
      phaseOf ((start Nat Unit .noAuth).run acts).registry "run" = some .serving) ∧
    (∃ (acts : List (Server.Act Nat Unit)) (e : Entity),
      logOf 9 ((start Nat Unit .noAuth).run acts).log = [.received .queue e (.manifest "run" [(10, 0)] "md"), .unanswered] ∧
      ((start Nat Unit .noAuth).run acts).conns 9 = .closed ∧
      phaseOf ((start Nat Unit .noAuth).run acts).registry "run" = some .waiting) ∧
    (∃ (acts : List (Server.Act Nat Unit)) (e : Entity),
      logOf 9 ((start Nat Unit .noAuth).run acts).log = [.received .queue e (.cancelRun "run"), .answered] ∧
      logOf 8 ((start Nat Unit .noAuth).run acts).log =
        [.received .work e (.nextTests "run"), .called (.request "run" (.nextWork e)) [.pulled "run" e [⟨10, 1⟩]]] ∧
      ((start Nat Unit .noAuth).run acts).log.getLast? =
        some (8, .called (.request "run" (.nextWork e)) [.pulled "run" e [⟨10, 1⟩]])) := by
  refine ⟨⟨serverServes ++ [.accept .queue 9, .handshake 9 [], .receive 9 (some (Sample.w 1, .cancelRun "run")), .write 9 false],
      Sample.w 1, rfl, rfl, by decide⟩,
    ⟨serverJoins ++ [.accept .queue 9, .handshake 9 [], .receive 9 (some (Sample.w 1, .manifest "run" [(10, 0)] "md")),
      .write 9 false], Sample.w 1, rfl, rfl, by decide⟩,
    ⟨serverServes ++ [.accept .work 8, .handshake 8 [], .receive 8 (some (Sample.w 1, .nextTests "run")), .exec 8,
      .accept .queue 9, .handshake 9 [], .receive 9 (some (Sample.w 1, .cancelRun "run")), .write 9 true, .ask 8 true],
      Sample.w 1, rfl, rfl, rfl⟩⟩

/-- A cancellation through the servers, to its end. -/
def serverCancels : List (Server.Act Nat Unit) :=
  serverServes ++ [.accept .queue 9, .handshake 9 [], .receive 9 (some (Sample.w 1, .cancelRun "run")), .write 9 true, .exec 9]

example : logOf 9 ((start Nat Unit .noAuth).run serverCancels).log =
    [.received .queue (Sample.w 1) (.cancelRun "run"), .answered,
      .called (.request "run" (.cancel (Sample.w 1) .user)) [.cancel "run" (Sample.w 1) false]] := rfl
example : ((start Nat Unit .noAuth).run serverCancels).conns 9 = .closed := rfl
example : phaseOf ((start Nat Unit .noAuth).run serverCancels).registry "run" = some .cancelled := by decide
example : (calls ((start Nat Unit .noAuth).run serverCancels).log).length = 3 := rfl

/-- Results are kept although their acknowledgment is lost. -/
def serverKeeps : List (Server.Act Nat Unit) :=
  serverServes ++ [.accept .queue 9, .handshake 9 [], .receive 9 (some (Sample.w 1, .workerResult "run" ())), .exec 9,
    .write 9 false, .exec 9]

example : logOf 9 ((start Nat Unit .noAuth).run serverKeeps).log =
    [.received .queue (Sample.w 1) (.workerResult "run" ()), .called (.request "run" .writeCell) [.write "run" (.cell false)],
      .unanswered, .persisted "run" ()] := rfl
example : ((start Nat Unit .noAuth).run serverKeeps).conns 9 = .closed := rfl

/-! ## C92 -/

/-- **C92.** A connection of which no message arrives leaves no trace, whatever it does: everything but its own phase is as if
it had never been, the runs, all other connections, the servers and the whole log. -/
theorem C92_no_trace (auth : Auth.ServerAuth) (acts : List (Server.Act T R)) (i : Nat)
    (h : ∀ srv e m, (i, Ev.received srv e m) ∉ ((start T R auth).run acts).log) :
    let with' := (start T R auth).run acts
    let without := (start T R auth).run (acts.filter fun a => a.conn != some i)
    with'.registry = without.registry ∧ with'.log = without.log ∧ with'.listening = without.listening ∧
    with'.shutdown = without.shutdown ∧ ∀ j, j ≠ i → with'.conns j = without.conns j := by
  have hn : logOf i ((start T R auth).run acts).log = [] := by
    rcases C91_course auth acts i with h' | ⟨srv, e, m, so, c, h', -⟩
    · exact h'
    · have : Ev.received srv e m ∈ logOf i ((start T R auth).run acts).log := by rw [h']; simp
      unfold logOf at this
      obtain ⟨⟨j, ev⟩, hm, hif⟩ := List.mem_filterMap.1 this
      dsimp only at hif
      split at hif
      · rename_i hj; subst hj; injection hif with hif; rw [hif] at hm; exact absurd hm (h _ _ _)
      · cases hif
  obtain ⟨p, hp⟩ := run_unheard (start T R auth) i acts .absent .absent hn
  have h0 : (start T R auth).setConn i .absent = start T R auth := by
    have := setConn_id (start T R auth) i
    exact this
  rw [h0] at hp
  intro with' without
  have hw : with' = without.setConn i p := hp
  rw [hw]
  exact ⟨rfl, rfl, rfl, rfl, fun j hj => setConn_other _ hj _⟩

theorem auth_step (s : State T R) (a : Server.Act T R) : (s.step a).auth = s.auth := by
  cases a with
  | accept srv j =>
    unfold State.step
    dsimp only
    split
    · split <;> rfl
    · rfl
  | acceptError srv => rfl
  | handshake j stream =>
    unfold State.step
    dsimp only
    split
    · split <;> rfl
    · rfl
  | receive j m =>
    unfold State.step
    dsimp only
    split
    · split
      · split <;> rfl
      · rfl
    · rfl
  | exec j =>
    unfold State.step
    dsimp only
    split
    · unfold State.exec
      dsimp only
      split
      · split
        · rfl
        · split <;> rfl
      all_goals rfl
    · rfl
  | write j ok =>
    unfold State.step
    dsimp only
    split
    · unfold State.write
      split
      · split <;> rfl
      all_goals rfl
    · rfl
  | ask j ok =>
    unfold State.step
    dsimp only
    split
    · unfold State.ask
      dsimp only
      split
      · split <;> rfl
      · rfl
    · rfl
  | resume k ans ok => rfl
  | shutdown => rfl
  | stop srv =>
    unfold State.step
    dsimp only
    split <;> rfl

theorem unauthorised_run (s : State T R) (acts : List (Server.Act T R)) (i : Nat)
    (hs : (s.conns i = .absent ∨ (∃ srv, s.conns i = .opened srv) ∨ s.conns i = .closed) ∧ logOf i s.log = [])
    (hno : ∀ stream, Server.Act.handshake i stream ∈ acts → ∃ e, s.auth.verify stream = .error e) :
    logOf i (s.run acts).log = [] := by
  induction acts generalizing s with
  | nil => exact hs.2
  | cons a acts ih =>
    refine ih (s.step a) ?_ ?_
    · by_cases hc : a.conn = some i
      · cases a with
        | accept srv j =>
          cases hc
          unfold State.step
          dsimp only
          split
          · split
            · refine ⟨.inr (.inl ⟨srv, setConn_self ..⟩), hs.2⟩
            · exact hs
          · exact hs
        | handshake j stream =>
          cases hc
          obtain ⟨e, he⟩ := hno stream (List.mem_cons_self ..)
          unfold State.step
          dsimp only
          split
          · rw [he]
            exact ⟨.inr (.inr (setConn_self ..)), hs.2⟩
          · exact hs
        | receive j m =>
          cases hc
          unfold State.step
          dsimp only
          split
          · rename_i hx
            rcases hs.1 with h | ⟨_, h⟩ | h <;> rw [hx] at h <;> cases h
          · exact hs
        | exec j =>
          cases hc
          unfold State.step
          dsimp only
          split
          · rename_i hx
            rcases hs.1 with h | ⟨_, h⟩ | h <;> rw [hx] at h <;> cases h
          · exact hs
        | write j ok =>
          cases hc
          unfold State.step
          dsimp only
          split
          · rename_i hx
            rcases hs.1 with h | ⟨_, h⟩ | h <;> rw [hx] at h <;> cases h
          · exact hs
        | ask j ok =>
          cases hc
          unfold State.step
          dsimp only
          split
          · rename_i hx
            rcases hs.1 with h | ⟨_, h⟩ | h <;> rw [hx] at h <;> cases h
          · exact hs
        | _ => cases hc
      · obtain ⟨h1, h2⟩ := step_other s a i hc
        rw [h1, h2]; exact hs
    · intro stream hm
      rw [auth_step]
      exact hno stream (List.mem_cons_of_mem _ hm)

/-- **C92.** If the queue wants a token, a connection that presents neither the user's nor the admin's leaves no trace,
whatever else it sends and whenever. -/
theorem C92_unauthorised (u a : List Wire.Byte) (hu : Auth.IsToken u) (ha : Auth.IsToken a) (acts : List (Server.Act T R)) (i : Nat)
    (h : ∀ stream, Server.Act.handshake i stream ∈ acts → ¬ (Auth.Presents stream u ∨ Auth.Presents stream a)) :
    let with' := (start T R (.tokens u a)).run acts
    let without := (start T R (.tokens u a)).run (acts.filter fun a => a.conn != some i)
    with'.registry = without.registry ∧ with'.log = without.log ∧ with'.listening = without.listening ∧
    with'.shutdown = without.shutdown ∧ ∀ j, j ≠ i → with'.conns j = without.conns j := by
  refine C92_no_trace _ acts i ?_
  have hn := unauthorised_run (start T R (.tokens u a)) acts i ⟨.inl rfl, rfl⟩
    (fun stream hm => (C37_refused u a hu ha stream).2 (h stream hm))
  intro srv e m hm
  have : Ev.received srv e m ∈ logOf i ((start T R (.tokens u a)).run acts).log :=
    List.mem_filterMap.2 ⟨_, hm, by simp⟩
  rw [hn] at this
  exact List.not_mem_nil this

theorem listening_run (s : State T R) (acts : List (Server.Act T R)) (hs : s.shutdown = false) (hl : ∀ srv, s.listening srv = true)
    (hno : Server.Act.shutdown ∉ acts) : ∀ srv, (s.run acts).listening srv = true := by
  induction acts generalizing s with
  | nil => exact hl
  | cons a acts ih =>
    have key : (s.step a).shutdown = false ∧ ∀ srv, (s.step a).listening srv = true := by
      cases a with
      | accept srv j =>
        unfold State.step
        dsimp only
        split
        · split <;> exact ⟨hs, hl⟩
        · exact ⟨hs, hl⟩
      | acceptError srv => exact ⟨hs, hl⟩
      | handshake j stream =>
        unfold State.step
        dsimp only
        split
        · split <;> exact ⟨hs, hl⟩
        · exact ⟨hs, hl⟩
      | receive j m =>
        unfold State.step
        dsimp only
        split
        · split
          · split <;> exact ⟨hs, hl⟩
          · exact ⟨hs, hl⟩
        · exact ⟨hs, hl⟩
      | exec j =>
        unfold State.step
        dsimp only
        split
        · unfold State.exec
          dsimp only
          split
          · split
            · exact ⟨hs, hl⟩
            · split <;> exact ⟨hs, hl⟩
          all_goals exact ⟨hs, hl⟩
        · exact ⟨hs, hl⟩
      | write j ok =>
        unfold State.step
        dsimp only
        split
        · unfold State.write
          split
          · split <;> exact ⟨hs, hl⟩
          all_goals exact ⟨hs, hl⟩
        · exact ⟨hs, hl⟩
      | ask j ok =>
        unfold State.step
        dsimp only
        split
        · unfold State.ask
          dsimp only
          split
          · split <;> exact ⟨hs, hl⟩
          · exact ⟨hs, hl⟩
        · exact ⟨hs, hl⟩
      | resume k ans ok => exact ⟨hs, hl⟩
      | shutdown => exact absurd (List.mem_cons_self ..) hno
      | stop srv =>
        unfold State.step
        dsimp only
        rw [hs]
        exact ⟨hs, hl⟩
    exact ih (s.step a) key.1 key.2 (fun hm => hno (List.mem_cons_of_mem _ hm))

theorem auth_run (s : State T R) (acts : List (Server.Act T R)) : (s.run acts).auth = s.auth := by
  induction acts generalizing s with
  | nil => rfl
  | cons a acts ih => exact (ih _).trans (auth_step s a)

theorem conns_run_other (s : State T R) (acts : List (Server.Act T R)) (i : Nat) (h : ∀ a ∈ acts, a.conn ≠ some i) :
    (s.run acts).conns i = s.conns i ∧ logOf i (s.run acts).log = logOf i s.log := by
  induction acts generalizing s with
  | nil => exact ⟨rfl, rfl⟩
  | cons a acts ih =>
    obtain ⟨h1, h2⟩ := ih (s.step a) (fun b hb => h b (List.mem_cons_of_mem _ hb))
    obtain ⟨h3, h4⟩ := step_other s a i (h a (List.mem_cons_self ..))
    exact ⟨h1.trans h3, h2.trans h4⟩

/-- **C92.** As long as the queue is not shut down, whatever happened on any number of other connections, errors of accepts,
panics and clients that never go on included, a new connection that is let in is heard: each server still reads its message. -/
theorem C92_available (auth : Auth.ServerAuth) (acts : List (Server.Act T R)) (i : Nat) (hnew : ∀ a ∈ acts, a.conn ≠ some i)
    (hno : Server.Act.shutdown ∉ acts) (stream : List Wire.Byte) (x : Auth.Role × List Wire.Byte) (hv : auth.verify stream = .ok x)
    (e : Entity) (m : Msg T R) :
    logOf i ((start T R auth).run (acts ++ [.accept m.srv i, .handshake i stream, .receive i (some (e, m))])).log =
      [.received m.srv e m] := by
  have hl := listening_run (start T R auth) acts rfl (fun _ => rfl) hno m.srv
  obtain ⟨hc, hlog⟩ := conns_run_other (start T R auth) acts i hnew
  have ha := auth_run (start T R auth) acts
  have hrun : (start T R auth).run (acts ++ [.accept m.srv i, .handshake i stream, .receive i (some (e, m))]) =
      ((start T R auth).run acts).run [.accept m.srv i, .handshake i stream, .receive i (some (e, m))] := List.foldl_append ..
  rw [hrun]
  generalize (start T R auth).run acts = s at *
  have hc' : s.conns i = .absent := hc
  have hlog' : logOf i s.log = [] := hlog
  have ha' : s.auth = auth := ha
  have s1 : s.step (.accept m.srv i) = s.setConn i (.opened m.srv) := by
    unfold State.step
    dsimp only
    rw [hc']
    dsimp only
    rw [if_pos hl]
  have s2 : (s.setConn i (.opened m.srv)).step (.handshake i stream) = s.setConn i (.reading m.srv) := by
    unfold State.step
    dsimp only
    rw [setConn_self]
    dsimp only
    show (match s.auth.verify stream with | .ok _ => _ | .error _ => _) = _
    rw [ha', hv]
    exact setConn_setConn ..
  show logOf i (((s.step (.accept m.srv i)).step (.handshake i stream)).step (.receive i (some (e, m)))).log = _
  rw [s1, s2]
  unfold State.step
  dsimp only
  rw [setConn_self]
  dsimp only
  rw [if_pos rfl]
  show logOf i (s.note i _).log = _
  rw [logOf_note, hlog']
  rfl

/-- **C92.** What is on one connection is of no concern to another: a step on it neither changes what happened on the other
nor where the other is. -/
theorem C92_separate (auth : Auth.ServerAuth) (acts : List (Server.Act T R)) (a : Server.Act T R) (i j : Nat) (hij : j ≠ i)
    (ha : a.conn = some i) :
    ((start T R auth).run (acts ++ [a])).conns j = ((start T R auth).run acts).conns j ∧
    logOf j ((start T R auth).run (acts ++ [a])).log = logOf j ((start T R auth).run acts).log := by
  have hrun : (start T R auth).run (acts ++ [a]) = ((start T R auth).run acts).step a := List.foldl_append ..
  rw [hrun]
  exact step_other _ a j (by rw [ha]; intro h; injection h with h; exact hij h.symm)

/-- A client without a token, and one with it. -/
def serverGuarded : List (Server.Act Nat Unit) :=
  [.accept .queue 0, .accept .negotiator 1, .handshake 0 (Auth.ascii "GET / HTTP/1.1"),
    .receive 0 (some (Sample.w 1, .cancelRun "run")), .handshake 1 sampleToken,
    .receive 1 (some (Sample.w 1, .wantsToAttach (Sample.jp 1))), .exec 1, .write 0 true, .exec 0]

example : ((start Nat Unit (.tokens sampleToken sampleToken)).run serverGuarded).log.length = 2 := by decide
example : ¬ (Auth.Presents (Auth.ascii "GET / HTTP/1.1") sampleToken ∨ Auth.Presents (Auth.ascii "GET / HTTP/1.1") sampleToken) := by
  have : ∀ r, Auth.ascii "GET / HTTP/1.1" ≠ sampleToken ++ r := by
    intro r h
    have h1 := congrArg (fun l => l.take 1) h
    exact absurd (show ([71] : List Nat) = [sampleToken.headD 0] from h1) (by decide)
  rintro (⟨r, h⟩ | ⟨r, h⟩) <;> exact this r h

end Abq.Props
