import Verif.Spec.Server
/-!
# Invariants of the servers
-/

namespace Abq.Server
variable {T R : Type}

theorem logOf_append (i : Nat) (l l' : List (Nat × Ev T R)) : logOf i (l ++ l') = logOf i l ++ logOf i l' := by
  unfold logOf; exact List.filterMap_append ..

theorem logOf_self (i : Nat) (ev : Ev T R) : logOf i [(i, ev)] = [ev] := by simp [logOf]

theorem logOf_other {i j : Nat} (h : j ≠ i) (ev : Ev T R) : logOf j [(i, ev)] = [] := by
  simp [logOf, Ne.symm h]

/-- What is left to do after what happened. -/
inductive Ran : Kind T R → List (Ev T R) → List (Instr T R) → Prop where
  | plain : Ran .plain [] [.answer]
  | ack0 {a : Call T} : Ran (.ackFirst a) [] [.answer, .call a]
  | ack1 {a : Call T} : Ran (.ackFirst a) [.answered] [.call a]
  | after0 {a : Call T} : Ran (.answerAfter a) [] [.call a, .answer]
  | after1 {a : Call T} {evs : List (Event T)} : (∀ rid, evs ≠ [.noRun rid true]) → Ran (.answerAfter a) [.called a evs] [.answer]
  | res0 {rid : RunId} {rs : R} : Ran (.results rid rs) [] [.plan rid rs]
  | res1 {rid : RunId} {rs : R} {b : Bool} :
      Ran (.results rid rs) [.called (.request rid .writeCell) [.write rid (.cell b)]] [.answerAnyway, .persist rid rs]
  | res2 {rid : RunId} {rs : R} {b : Bool} {x : Ev T R} : Tried x →
      Ran (.results rid rs) [.called (.request rid .writeCell) [.write rid (.cell b)], x] [.persist rid rs]
  | resNo {rid : RunId} {rs : R} {evs : List (Event T)} : (∀ b, evs ≠ [.write rid (.cell b)]) →
      Ran (.results rid rs) [.called (.request rid .writeCell) evs] [.answerAnyway]
  | stay {rid : RunId} {e : Entity} : Ran (.stays rid e) [] [.serve rid e]

theorem ran_program (e : Entity) (m : Msg T R) : Ran (kindOf e m) [] (program e m) := by
  cases m with
  | manifest rid flat md =>
    cases flat with
    | nil => exact .ack0
    | cons t ts => exact .ack0
  | health | activeTestRuns | negotiatorInfo => exact .plain
  | cancelRun | manifestError | ranAllTests => exact .ack0
  | workerResult => exact .res0
  | nextTests => exact .stay
  | testResults | runStatus | initContext | retryManifest | wantsToAttach => exact .after0

/-- Phase and log of a connection fit. -/
inductive Fits : Phase T R → List (Ev T R) → Prop where
  | absent : Fits .absent []
  | opened {srv : Srv} : Fits (.opened srv) []
  | reading {srv : Srv} : Fits (.reading srv) []
  | dead : Fits .closed []
  | running {srv : Srv} {e : Entity} {m : Msg T R} {so : List (Ev T R)} {p : List (Instr T R)} :
      m.srv = srv → Ran (kindOf e m) so p → Fits (.running p) (.received srv e m :: so)
  | serving {srv : Srv} {e : Entity} {m : Msg T R} {rid : RunId} {e' : Entity} {answers : List (List (Event T))} :
      m.srv = srv → kindOf e m = .stays rid e' →
      Fits (.serving rid e') (.received srv e m :: answers.map fun evs => .called (.request rid (.nextWork e')) evs)
  | done {srv : Srv} {e : Entity} {m : Msg T R} {c : List (Ev T R)} :
      m.srv = srv → Course (kindOf e m) c → Fits .closed (.received srv e m :: c)

/-- How a call of the registry comes out. -/
theorem result_request (s : State T R) (rid : RunId) (r : Req T) (h : s.blocked (.request rid r) = false) :
    s.result (.request rid r) = (Runs.reqEff rid (s.registry.get rid) r).evs := by
  have : (r.writes && s.registry.readLocked rid) = false := h
  show (if (r.writes && s.registry.readLocked rid) = true then s.registry else _).events.drop _ = _
  rw [this]
  show (Runs.apply _ _ _).events.drop _ = _
  unfold Runs.apply
  dsimp only
  exact List.drop_left

theorem result_join (s : State T R) (p : JoinParams) : s.result (.join p) = [] := by
  have : (s.registry.step (.join p)).events = s.registry.events ++ (Runs.joinEff (s.registry.get p.rid) p).evs := rfl
  show (s.registry.step (.join p)).events.drop _ = []
  rw [this, List.drop_left]
  unfold Runs.joinEff
  cases s.registry.get p.rid <;> rfl

theorem exec_not_noRun (rid rid' : RunId) (s : RunState T) (r : Req T) (b : Bool) : (Runs.exec rid s r).evs ≠ [.noRun rid' b] := by
  cases r with
  | nextWork e =>
    unfold Runs.exec
    dsimp only
    cases (s.pull e).2 <;> simp
  | _ => simp [Runs.exec]

theorem result_noRun (s : State T R) (a : Call T) (hb : s.blocked a = false) :
    (s.panics a = true → ∃ rid, s.result a = [.noRun rid true]) ∧
    (s.panics a = false → ∀ rid, s.result a ≠ [.noRun rid true]) := by
  cases a with
  | request rid r =>
    rw [result_request s rid r hb]
    cases hg : s.registry.get rid with
    | none =>
      have hp : s.panics (.request rid r) = r.panicsUnknown := by
        show (r.panicsUnknown && (s.registry.get rid).isNone) = _
        rw [hg]; simp
      rw [hp]
      constructor
      · intro h
        exact ⟨rid, by simp [Runs.reqEff, h]⟩
      · intro h rid'
        simp [Runs.reqEff, h]
    | some st =>
      have hp : s.panics (.request rid r) = false := by
        show (r.panicsUnknown && (s.registry.get rid).isNone) = _
        rw [hg]; simp
      rw [hp]
      exact ⟨fun h => by simp at h, fun _ rid' => exec_not_noRun rid rid' st r true⟩
  | join p =>
    refine ⟨fun h => Bool.noConfusion h, fun _ rid => ?_⟩
    rw [result_join]
    simp

theorem result_cell (s : State T R) (rid : RunId) :
    (s.hasCell rid = true → ∃ b, s.result (.request rid .writeCell) = [.write rid (.cell b)]) ∧
    (s.hasCell rid = false → ∀ b, s.result (.request rid .writeCell) ≠ [.write rid (.cell b)]) := by
  rw [result_request s rid .writeCell rfl]
  unfold State.hasCell
  cases s.registry.get rid with
  | none => exact ⟨fun h => Bool.noConfusion h, fun _ b => by simp [Runs.reqEff]⟩
  | some st =>
    show (_ → ∃ b, [Event.write rid st.writeCell] = _) ∧ (_ → ∀ b, [Event.write rid st.writeCell] ≠ _)
    simp only [Option.map_some]
    cases st.writeCell with
    | cell b => exact ⟨fun _ => ⟨b, rfl⟩, fun h => Bool.noConfusion h⟩
    | waitingForManifest => exact ⟨fun h => Bool.noConfusion h, fun _ b => by simp⟩
    | runCancelled => exact ⟨fun h => Bool.noConfusion h, fun _ b => by simp⟩

theorem silent_shape (s : State T R) (a : Call T) (h : s.silent a = true) :
    ∃ rid, a = .request rid .status ∧ s.result a = [.noRun rid false] := by
  cases a with
  | join p => exact Bool.noConfusion h
  | request rid r =>
    cases r with
    | status =>
      refine ⟨rid, rfl, ?_⟩
      rw [result_request s rid .status rfl]
      have : (s.registry.get rid).isNone = true := h
      rw [Option.isNone_iff_eq_none] at this
      rw [this]; rfl
    | _ => exact Bool.noConfusion h

theorem setConn_other (s : State T R) {i j : Nat} (h : j ≠ i) (p : Phase T R) : (s.setConn i p).conns j = s.conns j := by
  simp [State.setConn, h]

theorem setConn_self (s : State T R) (i : Nat) (p : Phase T R) : (s.setConn i p).conns i = p := by
  simp [State.setConn]

/-- A step changes at most the connection it is about, and adds to its log only. -/
theorem step_other (s : State T R) (a : Act T R) (j : Nat) (h : a.conn ≠ some j) :
    (s.step a).conns j = s.conns j ∧ logOf j (s.step a).log = logOf j s.log := by
  have key : ∀ i : Nat, j ≠ i → ∀ (t : State T R) (p : Phase T R), (t.setConn i p).conns j = t.conns j :=
    fun i hi t p => setConn_other t hi p
  have key2 : ∀ i : Nat, j ≠ i → ∀ (t : State T R) (ev : Ev T R), logOf j (t.note i ev).log = logOf j t.log := by
    intro i hi t ev
    show logOf j (t.log ++ [(i, ev)]) = _
    rw [logOf_append, logOf_other hi, List.append_nil]
  cases a with
  | accept srv i =>
    have hj : j ≠ i := fun e => h (by rw [e]; rfl)
    unfold State.step
    dsimp only
    split <;> try exact ⟨rfl, rfl⟩
    split
    · exact ⟨key i hj _ _, rfl⟩
    · exact ⟨rfl, rfl⟩
  | acceptError srv => exact ⟨rfl, rfl⟩
  | handshake i stream =>
    have hj : j ≠ i := fun e => h (by rw [e]; rfl)
    unfold State.step
    dsimp only
    split <;> try exact ⟨rfl, rfl⟩
    split <;> exact ⟨key i hj _ _, rfl⟩
  | receive i m =>
    have hj : j ≠ i := fun e => h (by rw [e]; rfl)
    unfold State.step
    dsimp only
    split <;> try exact ⟨rfl, rfl⟩
    split
    · split
      · exact ⟨key i hj _ _, key2 i hj _ _⟩
      · exact ⟨key i hj _ _, rfl⟩
    · exact ⟨key i hj _ _, rfl⟩
  | exec i =>
    have hj : j ≠ i := fun e => h (by rw [e]; rfl)
    unfold State.step
    dsimp only
    split <;> try exact ⟨rfl, rfl⟩
    unfold State.exec
    dsimp only
    split
    · split
      · exact ⟨rfl, rfl⟩
      · split
        · exact ⟨key i hj _ _, (key2 i hj _ _).trans (key2 i hj _ _)⟩
        · exact ⟨key i hj _ _, key2 i hj _ _⟩
    · exact ⟨key i hj _ _, key2 i hj _ _⟩
    · exact ⟨key i hj _ _, key2 i hj _ _⟩
    · exact ⟨key i hj _ _, rfl⟩
    · exact ⟨rfl, rfl⟩
  | write i ok =>
    have hj : j ≠ i := fun e => h (by rw [e]; rfl)
    unfold State.step
    dsimp only
    split <;> try exact ⟨rfl, rfl⟩
    unfold State.write
    split
    · split <;> exact ⟨key i hj _ _, key2 i hj _ _⟩
    · exact ⟨key i hj _ _, key2 i hj _ _⟩
    · exact ⟨rfl, rfl⟩
  | ask i ok =>
    have hj : j ≠ i := fun e => h (by rw [e]; rfl)
    unfold State.step
    dsimp only
    split <;> try exact ⟨rfl, rfl⟩
    unfold State.ask
    dsimp only
    split
    · split
      · exact ⟨key i hj _ _, (key2 i hj _ _).trans (key2 i hj _ _)⟩
      · exact ⟨rfl, key2 i hj _ _⟩
    · exact ⟨key i hj _ _, rfl⟩
  | resume k ans ok => exact ⟨rfl, rfl⟩
  | shutdown => exact ⟨rfl, rfl⟩
  | stop srv =>
    unfold State.step
    dsimp only
    split <;> exact ⟨rfl, rfl⟩

theorem logOf_note (s : State T R) (i : Nat) (ev : Ev T R) : logOf i (s.note i ev).log = logOf i s.log ++ [ev] := by
  show logOf i (s.log ++ [(i, ev)]) = _
  rw [logOf_append, logOf_self]

/-- Phase and log fit after an instruction. -/
theorem fits_exec (s : State T R) (i : Nat) (p : List (Instr T R)) (hp : s.conns i = .running p)
    (h : Fits (s.conns i) (logOf i s.log)) : Fits ((s.exec i p).conns i) (logOf i (s.exec i p).log) := by
  have h0 := h
  rw [hp] at h
  generalize hl : logOf i s.log = l at h h0
  have hcall : ∀ a : Call T, logOf i (s.call i a).log = l ++ [.called a (s.result a)] := by
    intro a; rw [← hl]; exact logOf_note _ _ _
  cases h with
  | @running srv e m so p hs hr =>
    generalize hk : kindOf e m = k at hr
    cases hr with
    | plain | ack0 | after1 | res1 | resNo => rw [← hl] at h0; exact h0
    | @ack1 a =>
      unfold State.exec
      dsimp only
      cases hb : s.blocked a with
      | true => simp only [if_true]; rw [hl]; exact h0
      | false =>
        simp only [Bool.false_eq_true, if_false]
        obtain ⟨r1, r2⟩ := result_noRun s a hb
        cases hpn : s.panics a with
        | true =>
          obtain ⟨rid, hrid⟩ := r1 hpn
          simp only [if_true, Bool.true_or]
          show Fits ((State.setConn _ i _).conns i) _
          rw [setConn_self, logOf_note]
          show Fits _ (logOf i (s.call i a).log ++ _)
          rw [hcall, hrid]
          exact .done hs (hk ▸ .ackedNoRun)
        | false =>
          simp only [Bool.false_eq_true, if_false, Bool.false_or]
          rw [setConn_self]
          show Fits _ (logOf i (s.call i a).log)
          rw [hcall]
          have : (if s.silent a = true then Phase.closed else State.rest ([] : List (Instr T R))) = .closed := by
            split <;> rfl
          rw [this]
          exact .done hs (hk ▸ .acked (r2 hpn))
    | @after0 a =>
      unfold State.exec
      dsimp only
      cases hb : s.blocked a with
      | true => simp only [if_true]; rw [hl]; exact h0
      | false =>
        simp only [Bool.false_eq_true, if_false]
        obtain ⟨r1, r2⟩ := result_noRun s a hb
        cases hpn : s.panics a with
        | true =>
          obtain ⟨rid, hrid⟩ := r1 hpn
          simp only [if_true, Bool.true_or]
          show Fits ((State.setConn _ i _).conns i) _
          rw [setConn_self, logOf_note]
          show Fits _ (logOf i (s.call i a).log ++ _)
          rw [hcall, hrid]
          exact .done hs (hk ▸ .afterNoRun)
        | false =>
          simp only [Bool.false_eq_true, if_false, Bool.false_or]
          rw [setConn_self]
          show Fits _ (logOf i (s.call i a).log)
          rw [hcall]
          cases hsl : s.silent a with
          | true =>
            obtain ⟨rid, rfl, hres⟩ := silent_shape s a hsl
            simp only [if_true]
            rw [hres]
            exact .done hs (hk ▸ .silent)
          | false =>
            simp only [Bool.false_eq_true, if_false]
            exact .running hs (hk ▸ .after1 (r2 hpn))
    | @res0 rid rs =>
      unfold State.exec
      dsimp only
      rw [setConn_self]
      show Fits _ (logOf i (s.call i _).log)
      rw [hcall]
      obtain ⟨c1, c2⟩ := result_cell s rid
      cases hc : s.hasCell rid with
      | true =>
        obtain ⟨b, hb⟩ := c1 hc
        simp only [if_true]
        rw [hb]
        exact .running hs (hk ▸ .res1)
      | false =>
        simp only [Bool.false_eq_true, if_false]
        exact .running hs (hk ▸ .resNo (c2 hc))
    | @res2 rid rs b x hx =>
      unfold State.exec
      dsimp only
      rw [setConn_self]
      show Fits _ (logOf i (s.note i _).log)
      rw [logOf_note, hl]
      exact .done hs (hk ▸ .kept hx)
    | @stay rid e' =>
      unfold State.exec
      dsimp only
      rw [setConn_self]
      show Fits _ (logOf i s.log)
      rw [hl]
      exact .serving (answers := []) hs hk

theorem fits_write (s : State T R) (i : Nat) (ok : Bool) (p : List (Instr T R)) (hp : s.conns i = .running p)
    (h : Fits (s.conns i) (logOf i s.log)) : Fits ((s.write i ok p).conns i) (logOf i (s.write i ok p).log) := by
  have h0 := h
  rw [hp] at h
  generalize hl : logOf i s.log = l at h h0
  have hnote : ∀ ev : Ev T R, logOf i (s.note i ev).log = l ++ [ev] := by
    intro ev; rw [← hl]; exact logOf_note _ _ _
  have tried : Tried (T := T) (R := R) (if ok then .answered else .unanswered) := by
    cases ok
    · exact .inr rfl
    · exact .inl rfl
  cases h with
  | @running srv e m so p hs hr =>
    generalize hk : kindOf e m = k at hr
    cases hr with
    | ack1 | after0 | res0 | res2 | stay => rw [← hl] at h0; exact h0
    | plain =>
      unfold State.write
      cases ok
      · simp only [Bool.false_eq_true, if_false]
        rw [setConn_self]
        show Fits _ (logOf i (s.note i _).log)
        rw [hnote]
        exact .done hs (hk ▸ .plain (.inr rfl))
      · simp only [if_true]
        rw [setConn_self]
        show Fits _ (logOf i (s.note i _).log)
        rw [hnote]
        exact .done hs (hk ▸ .plain (.inl rfl))
    | ack0 =>
      unfold State.write
      cases ok
      · simp only [Bool.false_eq_true, if_false]
        rw [setConn_self]
        show Fits _ (logOf i (s.note i _).log)
        rw [hnote]
        exact .done hs (hk ▸ .ackLost)
      · simp only [if_true]
        rw [setConn_self]
        show Fits _ (logOf i (s.note i _).log)
        rw [hnote]
        exact .running hs (hk ▸ .ack1)
    | after1 he =>
      unfold State.write
      cases ok
      · simp only [Bool.false_eq_true, if_false]
        rw [setConn_self]
        show Fits _ (logOf i (s.note i _).log)
        rw [hnote]
        exact .done hs (hk ▸ .after he (.inr rfl))
      · simp only [if_true]
        rw [setConn_self]
        show Fits _ (logOf i (s.note i _).log)
        rw [hnote]
        exact .done hs (hk ▸ .after he (.inl rfl))
    | res1 =>
      unfold State.write
      dsimp only
      rw [setConn_self]
      show Fits _ (logOf i (s.note i _).log)
      rw [hnote]
      exact .running hs (hk ▸ .res2 tried)
    | resNo he =>
      unfold State.write
      dsimp only
      rw [setConn_self]
      show Fits _ (logOf i (s.note i _).log)
      rw [hnote]
      exact .done hs (hk ▸ .refused he tried)

theorem fits_ask (s : State T R) (i : Nat) (rid : RunId) (e : Entity) (ok : Bool) (hp : s.conns i = .serving rid e)
    (h : Fits (s.conns i) (logOf i s.log)) : Fits ((s.ask i rid e ok).conns i) (logOf i (s.ask i rid e ok).log) := by
  have h0 := h
  rw [hp] at h
  generalize hl : logOf i s.log = l at h h0
  have hcall : ∀ a : Call T, logOf i (s.call i a).log = l ++ [.called a (s.result a)] := by
    intro a; rw [← hl]; exact logOf_note _ _ _
  cases h with
  | @serving srv e0 m _ _ answers hs hk =>
    unfold State.ask
    dsimp only
    cases ok with
    | false =>
      simp only [Bool.false_eq_true, if_false]
      rw [setConn_self]
      show Fits _ (logOf i s.log)
      rw [hl]
      exact .done hs (hk ▸ .stays)
    | true =>
      simp only [if_true]
      obtain ⟨r1, -⟩ := result_noRun s (.request rid (.nextWork e)) rfl
      cases hpn : s.panics (.request rid (.nextWork e)) with
      | true =>
        obtain ⟨rid', hrid⟩ := r1 hpn
        simp only [if_true]
        rw [setConn_self]
        show Fits _ (logOf i ((s.call i _).note i _).log)
        rw [logOf_note, hcall, hrid, List.cons_append, List.cons_append, List.append_assoc]
        exact .done hs (hk ▸ .staysNoRun)
      | false =>
        simp only [Bool.false_eq_true, if_false]
        rw [hcall]
        show Fits (s.conns i) _
        rw [hp]
        have := Fits.serving (R := R) (answers := answers ++ [s.result (.request rid (.nextWork e))]) hs hk
        rwa [List.map_append] at this

theorem fits_step (s : State T R) (a : Act T R) (i : Nat) (h : Fits (s.conns i) (logOf i s.log)) :
    Fits ((s.step a).conns i) (logOf i (s.step a).log) := by
  by_cases hc : a.conn = some i
  · cases a with
    | accept srv j =>
      cases hc
      unfold State.step
      dsimp only
      split
      · rename_i he
        split
        · rw [setConn_self]
          show Fits _ (logOf i s.log)
          rw [he] at h
          cases h' : logOf i s.log with
          | nil => exact .opened
          | cons x xs => rw [h'] at h; cases h
        · exact h
      · exact h
    | handshake j stream =>
      cases hc
      unfold State.step
      dsimp only
      split
      · rename_i srv he
        have hn : logOf i s.log = [] := by
          rw [he] at h
          cases h' : logOf i s.log with
          | nil => rfl
          | cons x xs => rw [h'] at h; cases h
        split
        · rw [setConn_self]
          show Fits _ (logOf i s.log)
          rw [hn]
          exact .reading
        · rw [setConn_self]
          show Fits _ (logOf i s.log)
          rw [hn]
          exact .dead
      · exact h
    | receive j m =>
      cases hc
      unfold State.step
      dsimp only
      split
      · rename_i srv he
        have hn : logOf i s.log = [] := by
          rw [he] at h
          cases h' : logOf i s.log with
          | nil => rfl
          | cons x xs => rw [h'] at h; cases h
        split
        · rename_i e m
          split
          · rename_i hs
            rw [setConn_self]
            show Fits _ (logOf i (s.note i _).log)
            rw [logOf_note, hn]
            have hr := ran_program e m
            have : State.rest (program e m) = .running (program e m) := by
              cases hp : program e m with
              | nil => rw [hp] at hr; cases hk : kindOf e m <;> rw [hk] at hr <;> cases hr
              | cons x xs => rfl
            rw [this]
            exact .running hs hr
          · rw [setConn_self]
            show Fits _ (logOf i s.log)
            rw [hn]
            exact .dead
        · rw [setConn_self]
          show Fits _ (logOf i s.log)
          rw [hn]
          exact .dead
      · exact h
    | exec j =>
      cases hc
      unfold State.step
      dsimp only
      split
      · rename_i p he
        exact fits_exec s i p he h
      · exact h
    | write j ok =>
      cases hc
      unfold State.step
      dsimp only
      split
      · rename_i p he
        exact fits_write s i ok p he h
      · exact h
    | ask j ok =>
      cases hc
      unfold State.step
      dsimp only
      split
      · rename_i rid e he
        exact fits_ask s i rid e ok he h
      · exact h
    | _ => cases hc
  · obtain ⟨h1, h2⟩ := step_other s a i hc
    rw [h1, h2]
    exact h

theorem fits_run (s : State T R) (acts : List (Act T R)) (i : Nat) (h : Fits (s.conns i) (logOf i s.log)) :
    Fits ((s.run acts).conns i) (logOf i (s.run acts).log) := by
  induction acts generalizing s with
  | nil => exact h
  | cons a acts ih => exact ih _ (fits_step s a i h)

end Abq.Server
