import Verif.Proof.Server

/-!
# The servers and the registry behind them
-/

namespace Abq.Server
variable {T R : Type}

/-- What one step does to the registry: nothing, or it resumes a task, or it makes a call that is noted. -/
inductive Touches (s t : State T R) : Prop where
  | none : t.registry = s.registry → (∀ p ∈ t.log, p ∈ s.log ∨ ∀ a evs, p.2 ≠ .called a evs) →
      calls t.log = calls s.log → Touches s t
  | resume (k : Nat) (ans : RemoteAns) (ok : Bool) : t.registry = s.registry.step (.resume k ans ok) → t.log = s.log →
      Touches s t
  | call (i : Nat) (a : Call T) : s.blocked a = false → t.registry = s.registry.step a.act →
      (∀ p ∈ t.log, p ∈ s.log ∨ p = (i, .called a (s.result a)) ∨ ∀ a evs, p.2 ≠ .called a evs) →
      calls t.log = calls s.log ++ [a] → Touches s t

theorem calls_append (l l' : List (Nat × Ev T R)) : calls (l ++ l') = calls l ++ calls l' := by
  unfold calls; exact List.filterMap_append ..

theorem Touches.same {s t : State T R} (hr : t.registry = s.registry) (hl : t.log = s.log) : Touches s t :=
  .none hr (fun p hp => .inl (hl ▸ hp)) (by rw [hl])

theorem Touches.noted {s t : State T R} (i : Nat) (ev : Ev T R) (hr : t.registry = s.registry)
    (hl : t.log = s.log ++ [(i, ev)]) (he : ∀ a evs, ev ≠ .called a evs) : Touches s t := by
  refine .none hr ?_ ?_
  · intro p hp
    rw [hl, List.mem_append, List.mem_singleton] at hp
    rcases hp with hp | rfl
    · exact .inl hp
    · exact .inr he
  · rw [hl, calls_append]
    cases ev with
    | called a evs => exact absurd rfl (he a evs)
    | _ => exact List.append_nil _

theorem Touches.called {s t : State T R} (i : Nat) (a : Call T) (hb : s.blocked a = false)
    (hr : t.registry = s.registry.step a.act) (hl : t.log = s.log ++ [(i, .called a (s.result a))]) : Touches s t := by
  refine .call i a hb hr ?_ ?_
  · intro p hp
    rw [hl, List.mem_append, List.mem_singleton] at hp
    rcases hp with hp | rfl
    · exact .inl hp
    · exact .inr (.inl rfl)
  · rw [hl, calls_append]; rfl

theorem Touches.calledPanicked {s t : State T R} (i : Nat) (a : Call T) (hb : s.blocked a = false)
    (hr : t.registry = s.registry.step a.act)
    (hl : t.log = s.log ++ [(i, .called a (s.result a))] ++ [(i, .panicked)]) : Touches s t := by
  refine .call i a hb hr ?_ ?_
  · intro p hp
    rw [hl, List.mem_append, List.mem_append, List.mem_singleton, List.mem_singleton] at hp
    rcases hp with (hp | rfl) | rfl
    · exact .inl hp
    · exact .inr (.inl rfl)
    · exact .inr (.inr fun _ _ => by simp)
  · rw [hl, calls_append, calls_append]
    exact List.append_nil _

theorem touches_step (s : State T R) (a : Act T R) : Touches s (s.step a) := by
  cases a with
  | accept srv i =>
    unfold State.step
    dsimp only
    split
    · split <;> exact .same rfl rfl
    · exact .same rfl rfl
  | acceptError srv => exact .same rfl rfl
  | handshake i stream =>
    unfold State.step
    dsimp only
    split
    · split <;> exact .same rfl rfl
    · exact .same rfl rfl
  | receive i m =>
    unfold State.step
    dsimp only
    split
    · split
      · split
        · exact .noted i _ rfl rfl (fun _ _ => by simp)
        · exact .same rfl rfl
      · exact .same rfl rfl
    · exact .same rfl rfl
  | exec i =>
    unfold State.step
    dsimp only
    split
    · unfold State.exec
      dsimp only
      split
      · rename_i a _ _
        cases hb : s.blocked a with
        | true => exact .same rfl rfl
        | false =>
          simp only [Bool.false_eq_true, if_false]
          split
          · exact .calledPanicked i a hb rfl rfl
          · exact .called i a hb rfl rfl
      · exact .called i _ rfl rfl rfl
      · exact .noted i _ rfl rfl (fun _ _ => by simp)
      · exact .same rfl rfl
      · exact .same rfl rfl
    · exact .same rfl rfl
  | write i ok =>
    unfold State.step
    dsimp only
    split
    · unfold State.write
      split
      · split <;> exact .noted i _ rfl rfl (fun _ _ => by simp)
      · refine .noted i _ rfl rfl (fun _ _ => ?_)
        split <;> simp
      · exact .same rfl rfl
    · exact .same rfl rfl
  | ask i ok =>
    unfold State.step
    dsimp only
    split
    · unfold State.ask
      dsimp only
      split
      · split
        · exact .calledPanicked i _ rfl rfl rfl
        · exact .called i _ rfl rfl rfl
      · exact .same rfl rfl
    · exact .same rfl rfl
  | resume k ans ok => exact .resume k ans ok rfl rfl
  | shutdown => exact .same rfl rfl
  | stop srv =>
    unfold State.step
    dsimp only
    split <;> exact .same rfl rfl

theorem isResume_call (a : Call T) : IsResume a.act = false := by cases a <;> rfl

/-- How the registry came about. -/
structure Behind (s : State T R) (ras : List (RunsAct T)) : Prop where
  eq : s.registry = Runs.init.run ras
  calls : ras.filter (fun a => !IsResume a) = (calls s.log).map Call.act
  each : ∀ i a evs, (i, Ev.called a evs) ∈ s.log → ∃ pre post, ras = pre ++ a.act :: post ∧
    (∀ rid r, a = .request rid r → r.writes = true → (Runs.init.run pre : Runs T).readLocked rid = false) ∧
    ((Runs.init.run (pre ++ [a.act])) : Runs T).events = (Runs.init.run pre : Runs T).events ++ evs

theorem events_grow (r : Runs T) (a : Call T) : r.events <+: (r.step a.act).events := by
  cases a with
  | join p => exact ⟨_, rfl⟩
  | request rid q =>
    show r.events <+: (if (q.writes && r.readLocked rid) = true then r else _).events
    split
    · exact List.prefix_refl _
    · exact ⟨_, rfl⟩

theorem behind_step {s : State T R} {ras : List (RunsAct T)} (h : Behind s ras) (a : Act T R) :
    ∃ ras', Behind (s.step a) ras' := by
  cases touches_step s a with
  | none hr hl hc =>
    refine ⟨ras, hr.trans h.eq, by rw [hc]; exact h.calls, ?_⟩
    intro i a evs hm
    rcases hl _ hm with hm | hm
    · exact h.each i a evs hm
    · exact absurd rfl (hm a evs)
  | resume k ans ok hr hl =>
    refine ⟨ras ++ [.resume k ans ok], ?_, ?_, ?_⟩
    · rw [hr, h.eq, Runs.run, Runs.run, List.foldl_append]; rfl
    · rw [hl, List.filter_append, h.calls]; exact List.append_nil _
    · intro i a evs hm
      rw [hl] at hm
      obtain ⟨pre, post, e, hb, hev⟩ := h.each i a evs hm
      exact ⟨pre, post ++ [.resume k ans ok], by rw [e]; simp, hb, hev⟩
  | call i c hb hr hl hc =>
    have hrun : (Runs.init.run (ras ++ [c.act]) : Runs T) = s.registry.step c.act := by
      rw [h.eq, Runs.run, Runs.run, List.foldl_append]; rfl
    refine ⟨ras ++ [c.act], hr.trans hrun.symm, ?_, ?_⟩
    · rw [hc, List.map_append, List.filter_append, h.calls]
      congr 1
      rw [List.filter_cons, isResume_call]; rfl
    · intro j a evs hm
      rcases hl _ hm with hm | hm | hm
      · obtain ⟨pre, post, e, hb, hev⟩ := h.each j a evs hm
        exact ⟨pre, post ++ [c.act], by rw [e]; simp, hb, hev⟩
      · cases hm
        refine ⟨ras, [], rfl, ?_, ?_⟩
        · rintro rid r rfl hw
          have : (r.writes && s.registry.readLocked rid) = false := hb
          rw [hw, Bool.true_and] at this
          rw [← h.eq]; exact this
        · rw [hrun, ← h.eq]
          obtain ⟨t, ht⟩ := events_grow s.registry c
          show _ = _ ++ (s.registry.step c.act).events.drop _
          rw [← ht, List.drop_left]
      · exact absurd rfl (hm a evs)

theorem behind_start (auth : Auth.ServerAuth) : Behind (start T R auth) [] :=
  ⟨rfl, rfl, fun _ _ _ hm => absurd hm List.not_mem_nil⟩

theorem behind_run {s : State T R} {ras : List (RunsAct T)} (h : Behind s ras) (acts : List (Act T R)) :
    ∃ ras', Behind (s.run acts) ras' := by
  induction acts generalizing s ras with
  | nil => exact ⟨ras, h⟩
  | cons a acts ih =>
    obtain ⟨ras', h'⟩ := behind_step h a
    exact ih h'

/-! ## Steps on one connection and the others -/

theorem setConn_comm (s : State T R) {i j : Nat} (h : j ≠ i) (p q : Phase T R) :
    (s.setConn i p).setConn j q = (s.setConn j q).setConn i p := by
  unfold State.setConn
  dsimp only
  congr 1
  funext k
  by_cases h1 : k = j
  · subst h1; rw [if_pos rfl, if_neg h, if_pos rfl]
  · rw [if_neg h1]
    by_cases h2 : k = i
    · subst h2; rw [if_pos rfl, if_pos rfl]
    · rw [if_neg h2, if_neg h2, if_neg h1]

theorem step_setConn (s : State T R) (i : Nat) (p : Phase T R) (a : Act T R) (h : a.conn ≠ some i) :
    (s.setConn i p).step a = (s.step a).setConn i p := by
  cases a with
  | accept srv j =>
    have hj : j ≠ i := fun e => h (by rw [e]; rfl)
    unfold State.step
    dsimp only
    rw [setConn_other s hj]
    cases s.conns j <;> try rfl
    dsimp only
    show (if s.listening srv = true then _ else _) = _
    split
    · exact setConn_comm s hj _ _
    · rfl
  | acceptError srv => rfl
  | handshake j stream =>
    have hj : j ≠ i := fun e => h (by rw [e]; rfl)
    unfold State.step
    dsimp only
    rw [setConn_other s hj]
    cases s.conns j <;> try rfl
    dsimp only
    show (match s.auth.verify stream with | .ok _ => _ | .error _ => _) = _
    cases s.auth.verify stream <;> exact setConn_comm s hj _ _
  | receive j m =>
    have hj : j ≠ i := fun e => h (by rw [e]; rfl)
    unfold State.step
    dsimp only
    rw [setConn_other s hj]
    cases s.conns j <;> try rfl
    cases m with
    | none => exact setConn_comm s hj _ _
    | some em =>
      dsimp only
      split
      · exact setConn_comm (s.note j _) hj _ _
      · exact setConn_comm s hj _ _
  | exec j =>
    have hj : j ≠ i := fun e => h (by rw [e]; rfl)
    unfold State.step
    dsimp only
    rw [setConn_other s hj]
    cases s.conns j <;> try rfl
    rename_i prog
    show (s.setConn i p).exec j prog = (s.exec j prog).setConn i p
    cases prog with
    | nil => rfl
    | cons ins q =>
      cases ins with
      | answer | answerAnyway => rfl
      | call c =>
        unfold State.exec
        dsimp only
        show (if s.blocked c = true then _ else (if s.panics c = true then _ else _)) = _
        split
        · rfl
        · split
          · exact congrArg (fun t : State T R => t.note j .panicked) (setConn_comm (s.call j c) hj _ _)
          · exact setConn_comm (s.call j c) hj _ _
      | plan rid rs =>
        exact setConn_comm (s.call j (.request rid .writeCell)) hj p
          (.running (if s.hasCell rid then .answerAnyway :: .persist rid rs :: q else .answerAnyway :: q))
      | persist rid rs => exact setConn_comm (s.note j _) hj _ _
      | serve rid e => exact setConn_comm s hj _ _
  | write j ok =>
    have hj : j ≠ i := fun e => h (by rw [e]; rfl)
    unfold State.step
    dsimp only
    rw [setConn_other s hj]
    cases s.conns j <;> try rfl
    rename_i prog
    show (s.setConn i p).write j ok prog = (s.write j ok prog).setConn i p
    cases prog with
    | nil => rfl
    | cons ins q =>
      cases ins with
      | answer =>
        cases ok
        · exact setConn_comm (s.note j _) hj _ _
        · exact setConn_comm (s.note j _) hj _ _
      | answerAnyway => exact setConn_comm (s.note j _) hj _ _
      | _ => rfl
  | ask j ok =>
    have hj : j ≠ i := fun e => h (by rw [e]; rfl)
    unfold State.step
    dsimp only
    rw [setConn_other s hj]
    cases s.conns j <;> try rfl
    rename_i rid e
    show (s.setConn i p).ask j rid e ok = (s.ask j rid e ok).setConn i p
    unfold State.ask
    dsimp only
    cases ok with
    | false => exact setConn_comm s hj _ _
    | true =>
      simp only [if_true]
      have hp : (s.setConn i p).panics (.request rid (.nextWork e)) = s.panics (.request rid (.nextWork e)) := rfl
      rw [hp]
      split
      · exact setConn_comm ((s.call j (.request rid (.nextWork e))).note j .panicked) hj p .closed
      · rfl
  | resume k ans ok => rfl
  | shutdown => rfl
  | stop srv =>
    unfold State.step
    dsimp only
    show (if s.shutdown = true then _ else _) = _
    split <;> rfl

/-- Logs only grow. -/
theorem log_grows_step (s : State T R) (a : Act T R) (i : Nat) : logOf i s.log <+: logOf i (s.step a).log := by
  have grow : ∀ {t : State T R} {l : List (Nat × Ev T R)}, t.log = s.log ++ l → logOf i s.log <+: logOf i t.log :=
    fun {t l} h => ⟨logOf i l, by rw [h, logOf_append]⟩
  have same : ∀ {t : State T R}, t.log = s.log → logOf i s.log <+: logOf i t.log :=
    fun h => grow (l := []) (by rw [h, List.append_nil])
  cases a with
  | accept srv j =>
    unfold State.step
    dsimp only
    split
    · split <;> exact same rfl
    · exact same rfl
  | acceptError srv => exact same rfl
  | handshake j stream =>
    unfold State.step
    dsimp only
    split
    · split <;> exact same rfl
    · exact same rfl
  | receive j m =>
    unfold State.step
    dsimp only
    split
    · split
      · split
        · exact grow (l := [_]) rfl
        · exact same rfl
      · exact same rfl
    · exact same rfl
  | exec j =>
    unfold State.step
    dsimp only
    split
    · unfold State.exec
      dsimp only
      split
      · split
        · exact same rfl
        · split
          · exact grow (l := [_, _]) (List.append_assoc _ [_] [_])
          · exact grow (l := [_]) rfl
      · exact grow (l := [_]) rfl
      · exact grow (l := [_]) rfl
      · exact same rfl
      · exact same rfl
    · exact same rfl
  | write j ok =>
    unfold State.step
    dsimp only
    split
    · unfold State.write
      split
      · split <;> exact grow (l := [_]) rfl
      · exact grow (l := [_]) rfl
      · exact same rfl
    · exact same rfl
  | ask j ok =>
    unfold State.step
    dsimp only
    split
    · unfold State.ask
      dsimp only
      split
      · split
        · exact grow (l := [_, _]) (List.append_assoc _ [_] [_])
        · exact grow (l := [_]) rfl
      · exact same rfl
    · exact same rfl
  | resume k ans ok => exact same rfl
  | shutdown => exact same rfl
  | stop srv =>
    unfold State.step
    dsimp only
    split <;> exact same rfl

theorem log_grows (s : State T R) (acts : List (Act T R)) (i : Nat) : logOf i s.log <+: logOf i (s.run acts).log := by
  induction acts generalizing s with
  | nil => exact List.prefix_refl _
  | cons a acts ih => exact (log_grows_step s a i).trans (ih _)

theorem setConn_setConn (s : State T R) (i : Nat) (p q : Phase T R) : (s.setConn i p).setConn i q = s.setConn i q := by
  unfold State.setConn
  dsimp only
  congr 1
  funext k
  by_cases h : k = i
  · rw [if_pos h, if_pos h]
  · rw [if_neg h, if_neg h, if_neg h]

theorem setConn_id (s : State T R) (i : Nat) : s.setConn i (s.conns i) = s := by
  unfold State.setConn
  cases s
  congr 1
  funext k
  dsimp only
  by_cases h : k = i
  · rw [if_pos h, h]
  · rw [if_neg h]

/-- A step of a connection of which nothing was heard, and nothing is heard by the step, changes its phase only. -/
theorem step_unheard (s : State T R) (i : Nat) (a : Act T R) (hf : Fits (s.conns i) (logOf i s.log))
    (hc : a.conn = some i) (hn : logOf i (s.step a).log = []) : ∃ p, s.step a = s.setConn i p := by
  have hn0 : logOf i s.log = [] := by
    have := log_grows_step s a i
    rw [hn] at this
    exact List.prefix_nil.1 this
  have keep : ∃ p, s = s.setConn i p := ⟨_, (setConn_id s i).symm⟩
  rw [hn0] at hf
  cases a with
  | accept srv j =>
    cases hc
    unfold State.step
    dsimp only
    split
    · split
      · exact ⟨_, rfl⟩
      · exact keep
    · exact keep
  | handshake j stream =>
    cases hc
    unfold State.step
    dsimp only
    split
    · split <;> exact ⟨_, rfl⟩
    · exact keep
  | receive j m =>
    cases hc
    revert hn
    unfold State.step
    dsimp only
    split
    · split
      · split
        · intro hn
          have : logOf i (s.note i (.received _ _ _)).log = [] := hn
          rw [logOf_note] at this
          exact absurd this (by simp)
        · exact fun _ => ⟨_, rfl⟩
      · exact fun _ => ⟨_, rfl⟩
    · exact fun _ => keep
  | exec j =>
    cases hc
    unfold State.step
    dsimp only
    split
    · rename_i he; rw [he] at hf; cases hf
    · exact keep
  | write j ok =>
    cases hc
    unfold State.step
    dsimp only
    split
    · rename_i he; rw [he] at hf; cases hf
    · exact keep
  | ask j ok =>
    cases hc
    unfold State.step
    dsimp only
    split
    · rename_i he; rw [he] at hf; cases hf
    · exact keep
  | _ => cases hc

theorem run_unheard (s : State T R) (i : Nat) (acts : List (Act T R)) (p0 : Phase T R)
    (hf : Fits (s.conns i) (logOf i s.log)) (hn : logOf i (s.run acts).log = []) :
    ∃ p, s.run acts = ((s.setConn i p0).run (acts.filter fun a => a.conn != some i)).setConn i p := by
  induction acts generalizing s with
  | nil => exact ⟨s.conns i, by show s = (s.setConn i p0).setConn i _; rw [setConn_setConn, setConn_id]⟩
  | cons a acts ih =>
    have hn' : logOf i ((s.step a).run acts).log = [] := hn
    obtain ⟨p, hp⟩ := ih (s.step a) (fits_step s a i hf) hn'
    refine ⟨p, ?_⟩
    show (s.step a).run acts = _
    rw [hp, List.filter_cons]
    by_cases hc : a.conn = some i
    · have h1 : logOf i (s.step a).log = [] := by
        have := log_grows (s.step a) acts i
        rw [hn'] at this
        exact List.prefix_nil.1 this
      obtain ⟨q, hq⟩ := step_unheard s i a hf hc h1
      rw [if_neg (by simp [hc]), hq, setConn_setConn]
    · rw [if_pos (by simp [hc])]
      show _ = State.setConn (State.run (State.step (s.setConn i p0) a) _) i p
      rw [step_setConn s i p0 a hc]

end Abq.Server
