import Verif.Model.Lifecycle
import Verif.Proof.Server
import Verif.Spec.Lifecycle
/-!
# Invariants of the life of a queue
-/

namespace Abq.Lifecycle
variable {T R : Type}

theorem life_append (s : Queue T R) (as bs : List (Lifecycle.Act T R)) : s.run (as ++ bs) = (s.run as).run bs := by
  simp [Queue.run, List.foldl_append]

/-- The steps of the servers in a schedule. -/
theorem life_server (s : Queue T R) (as : List (Lifecycle.Act T R)) : ∃ sas, (s.run as).server = s.server.run sas := by
  induction as generalizing s with
  | nil => exact ⟨[], rfl⟩
  | cons a as ih =>
    obtain ⟨sas, h⟩ := ih (s.step a)
    have : ∃ pre, (s.step a).server = s.server.run pre := by
      unfold Queue.step
      split
      · exact ⟨[], rfl⟩
      · cases a with
        | task b =>
          cases b with
          | shutdown => exact ⟨[], rfl⟩
          | accept v i => exact ⟨[.accept v i], rfl⟩
          | acceptError v => exact ⟨[.acceptError v], rfl⟩
          | handshake i b => exact ⟨[.handshake i b], rfl⟩
          | receive i m => exact ⟨[.receive i m], rfl⟩
          | exec i => exact ⟨[.exec i], rfl⟩
          | write i ok => exact ⟨[.write i ok], rfl⟩
          | ask i ok => exact ⟨[.ask i ok], rfl⟩
          | resume k x ok => exact ⟨[.resume k x ok], rfl⟩
          | stop v => exact ⟨[.stop v], rfl⟩
        | retire => dsimp only; split <;> exact ⟨[], rfl⟩
        | shutdown =>
          dsimp only
          split
          · exact ⟨[], rfl⟩
          · cases s.stage with
            | idle => exact ⟨[.shutdown], rfl⟩
            | awaits v => exact ⟨[], rfl⟩
            | returned => exact ⟨[], rfl⟩
            | panicked => exact ⟨[], rfl⟩
        | poll =>
          dsimp only
          cases s.stage with
          | awaits v => dsimp only; split <;> exact ⟨[], rfl⟩
          | idle => exact ⟨[], rfl⟩
          | returned => exact ⟨[], rfl⟩
          | panicked => exact ⟨[], rfl⟩
        | drop =>
          dsimp only
          split
          · exact ⟨[], rfl⟩
          · exact ⟨[.shutdown], rfl⟩
        | exit => dsimp only; split <;> exact ⟨[], rfl⟩
    obtain ⟨pre, hp⟩ := this
    refine ⟨pre ++ sas, ?_⟩
    show ((s.step a).run as).server = _
    rw [h, hp]
    simp [Server.State.run, List.foldl_append]

/-- The loops and the message to them change by `stop` and `shutdown` only. -/
theorem server_loops (s : Server.State T R) (a : Server.Act T R) (h1 : a ≠ .shutdown) (h2 : ∀ v, a ≠ .stop v) :
    (s.step a).listening = s.listening ∧ (s.step a).shutdown = s.shutdown := by
  cases a with
  | accept v i =>
    simp only [Server.State.step]
    split
    · split <;> exact ⟨rfl, rfl⟩
    · exact ⟨rfl, rfl⟩
  | acceptError v => exact ⟨rfl, rfl⟩
  | handshake i b =>
    simp only [Server.State.step]
    split
    · split <;> exact ⟨rfl, rfl⟩
    · exact ⟨rfl, rfl⟩
  | receive i m =>
    simp only [Server.State.step]
    split
    · split
      · split <;> exact ⟨rfl, rfl⟩
      · exact ⟨rfl, rfl⟩
    · exact ⟨rfl, rfl⟩
  | exec i =>
    simp only [Server.State.step]
    split
    · rename_i p _
      unfold Server.State.exec
      split
      · split
        · exact ⟨rfl, rfl⟩
        · dsimp only
          split <;> exact ⟨rfl, rfl⟩
      all_goals exact ⟨rfl, rfl⟩
    · exact ⟨rfl, rfl⟩
  | write i ok =>
    simp only [Server.State.step]
    split
    · unfold Server.State.write
      split
      · split <;> exact ⟨rfl, rfl⟩
      all_goals exact ⟨rfl, rfl⟩
    · exact ⟨rfl, rfl⟩
  | ask i ok =>
    simp only [Server.State.step]
    split
    · unfold Server.State.ask
      split
      · dsimp only
        split <;> exact ⟨rfl, rfl⟩
      · exact ⟨rfl, rfl⟩
    · exact ⟨rfl, rfl⟩
  | resume k x ok => exact ⟨rfl, rfl⟩
  | shutdown => exact absurd rfl h1
  | stop v => exact absurd rfl (h2 v)

/-- How a turn of a task acts on the loops. -/
theorem server_task (s : Server.State T R) (a : Server.Act T R) (h1 : a ≠ .shutdown) :
    (s.step a).shutdown = s.shutdown ∧
    ((s.step a).listening = s.listening ∨
      s.shutdown = true ∧ ∃ v, a = .stop v ∧ (s.step a).listening = fun x => if x = v then false else s.listening x) := by
  cases a with
  | stop v =>
    simp only [Server.State.step]
    cases h : s.shutdown with
    | false => simp [h]
    | true => exact ⟨by simp [h], .inr ⟨rfl, v, rfl, by simp⟩⟩
  | accept v i => exact ⟨(server_loops s _ h1 (fun _ h => nomatch h)).2, .inl (server_loops s _ h1 (fun _ h => nomatch h)).1⟩
  | acceptError v => exact ⟨rfl, .inl rfl⟩
  | handshake i b => exact ⟨(server_loops s _ h1 (fun _ h => nomatch h)).2, .inl (server_loops s _ h1 (fun _ h => nomatch h)).1⟩
  | receive i m => exact ⟨(server_loops s _ h1 (fun _ h => nomatch h)).2, .inl (server_loops s _ h1 (fun _ h => nomatch h)).1⟩
  | exec i => exact ⟨(server_loops s _ h1 (fun _ h => nomatch h)).2, .inl (server_loops s _ h1 (fun _ h => nomatch h)).1⟩
  | write i ok => exact ⟨(server_loops s _ h1 (fun _ h => nomatch h)).2, .inl (server_loops s _ h1 (fun _ h => nomatch h)).1⟩
  | ask i ok => exact ⟨(server_loops s _ h1 (fun _ h => nomatch h)).2, .inl (server_loops s _ h1 (fun _ h => nomatch h)).1⟩
  | resume k x ok => exact ⟨rfl, .inl rfl⟩
  | shutdown => exact absurd rfl h1

/-- What holds of a queue at any time. -/
structure LifeInv (s : Queue T R) : Prop where
  told : s.server.shutdown = true ↔ s.stage ≠ .idle ∨ s.dropped = true
  quiet : s.server.shutdown = false → ∀ v, s.server.listening v = true
  second : s.stage = .awaits .queue → s.server.listening .negotiator = false
  third : s.stage = .awaits .work → s.server.listening .negotiator = false ∧ s.server.listening .queue = false
  last : s.stage = .returned ∨ s.stage = .panicked → ∀ v, s.server.listening v = false
  over : s.exited = true → s.stage = .returned

theorem life_task (s : Queue T R) (a : Server.Act T R) (h1 : a ≠ .shutdown) (he : s.exited = false) :
    s.step (.task a) = { s with server := s.server.step a } := by
  unfold Queue.step
  rw [if_neg (by rw [he]; exact Bool.false_ne_true)]
  cases a <;> first | rfl | exact absurd rfl h1

theorem lifeInv_start (auth : Auth.ServerAuth) : LifeInv (Lifecycle.start T R auth) where
  told := by simp [Lifecycle.start, Server.start]
  quiet := fun _ _ => rfl
  second := fun h => nomatch h
  third := fun h => nomatch h
  last := by rintro (h | h) <;> cases h
  over := fun h => nomatch h

theorem lifeInv_step (s : Queue T R) (a : Lifecycle.Act T R) (h : LifeInv s) : LifeInv (s.step a) := by
  cases he : s.exited with
  | true => simpa [Queue.step, he] using h
  | false =>
    cases a with
    | task b =>
      by_cases hb : b = .shutdown
      · subst hb
        simpa [Queue.step, he] using h
      · rw [life_task s b hb he]
        obtain ⟨h1, h2⟩ := server_task s.server b hb
        have down : ∀ v, s.server.listening v = false → (s.server.step b).listening v = false := by
          intro v hv
          rcases h2 with h2 | ⟨-, w, -, h2⟩
          · rw [h2]; exact hv
          · rw [h2]
            dsimp only
            split
            · rfl
            · exact hv
        exact {
          told := by show (s.server.step b).shutdown = true ↔ _; rw [h1]; exact h.told
          quiet := by
            intro hq v
            have hq : (s.server.step b).shutdown = false := hq
            rw [h1] at hq
            rcases h2 with h2 | ⟨ht, -⟩
            · show (s.server.step b).listening v = true
              rw [h2]; exact h.quiet hq v
            · rw [ht] at hq; cases hq
          second := fun hs => down _ (h.second hs)
          third := fun hs => ⟨down _ (h.third hs).1, down _ (h.third hs).2⟩
          last := fun hs v => down _ (h.last hs v)
          over := fun hx => nomatch he.symm.trans hx }
    | retire =>
      simp only [Queue.step, he, Bool.false_eq_true, if_false]
      split
      · exact h
      · exact ⟨h.told, h.quiet, h.second, h.third, h.last, fun hx => nomatch hx⟩
    | shutdown =>
      simp only [Queue.step, he, Bool.false_eq_true, if_false]
      split
      · exact h
      · rename_i hbusy
        split
        · exact ⟨by simp [Server.State.step], (by intro h; cases h), (by intro h; cases h), (by intro h; cases h),
            (by rintro (h | h) <;> cases h), fun hx => nomatch hx⟩
        · rename_i hst
          have hl : ∀ v, s.server.listening v = false := by
            cases hs : s.stage with
            | idle => exact absurd hs hst
            | awaits v => simp [Queue.busy, hs] at hbusy
            | returned => exact h.last (.inl hs)
            | panicked => exact h.last (.inr hs)
          have ht : s.server.shutdown = true := h.told.mpr (.inl hst)
          exact ⟨by simp [ht], (by rw [ht]; intro h; cases h), (by intro h; cases h), (by intro h; cases h), fun _ => hl,
            fun hx => nomatch hx⟩
    | poll =>
      simp only [Queue.step, he, Bool.false_eq_true, if_false]
      split
      · rename_i v hs
        split
        · exact h
        · rename_i hv
          have hv : s.server.listening v = false := by simpa using hv
          have ht : s.server.shutdown = true := h.told.mpr (.inl (by rw [hs]; intro h; cases h))
          refine ⟨?_, ?_, ?_, ?_, ?_, fun hx => nomatch hx⟩
          · show _ ↔ Queue.next v ≠ .idle ∨ _
            rw [ht]
            cases v <;> simp [Queue.next]
          · show s.server.shutdown = false → _
            rw [ht]; intro h; cases h
          · show Queue.next v = _ → _
            cases v with
            | negotiator => exact fun _ => hv
            | queue => intro h; cases h
            | work => intro h; cases h
          · show Queue.next v = _ → _
            cases v with
            | negotiator => intro h; cases h
            | queue => exact fun _ => ⟨h.second hs, hv⟩
            | work => intro h; cases h
          · show Queue.next v = _ ∨ Queue.next v = _ → _
            cases v with
            | negotiator => rintro (h | h) <;> cases h
            | queue => rintro (h | h) <;> cases h
            | work =>
              intro _ w
              cases w with
              | negotiator => exact (h.third hs).1
              | queue => exact (h.third hs).2
              | work => exact hv
      · exact h
    | drop =>
      simp only [Queue.step, he, Bool.false_eq_true, if_false]
      split
      · exact h
      · exact ⟨by simp [Server.State.step], (by intro h; cases h), h.second, h.third, h.last, fun hx => nomatch hx⟩
    | exit =>
      simp only [Queue.step, he, Bool.false_eq_true, if_false]
      split
      · rename_i hst
        exact ⟨h.told, h.quiet, h.second, h.third, h.last, fun _ => hst⟩
      · exact h

theorem lifeInv_run (s : Queue T R) (as : List (Lifecycle.Act T R)) (h : LifeInv s) : LifeInv (s.run as) := by
  induction as generalizing s with
  | nil => exact h
  | cons a as ih => exact ih _ (lifeInv_step s a h)

theorem not_told (s : Queue T R) (a : Act T R) (h : s.server.shutdown = false) (h1 : a ≠ .shutdown) (h2 : a ≠ .drop) :
    (s.step a).server.shutdown = false := by
  cases he : s.exited with
  | true => simpa [Queue.step, he] using h
  | false =>
    cases a with
    | task b =>
      by_cases hb : b = .shutdown
      · subst hb
        simpa [Queue.step, he] using h
      · rw [life_task s b hb he]
        exact (server_task s.server b hb).1.trans h
    | retire =>
      simp only [Queue.step, he, Bool.false_eq_true, if_false]
      split <;> exact h
    | poll =>
      simp only [Queue.step, he, Bool.false_eq_true, if_false]
      split
      · split <;> exact h
      · exact h
    | exit =>
      simp only [Queue.step, he, Bool.false_eq_true, if_false]
      split <;> exact h
    | shutdown => exact absurd rfl h1
    | drop => exact absurd rfl h2

/-- A connection that is not there does not come about without a loop. -/
theorem deaf_server (s : Server.State T R) (a : Server.Act T R) (i : Nat) (hl : ∀ v, s.listening v = false)
    (hi : s.conns i = .absent) : (∀ v, (s.step a).listening v = false) ∧ (s.step a).conns i = .absent := by
  constructor
  · intro v
    by_cases ha : a = .shutdown
    · subst ha; exact hl v
    · rcases (server_task s a ha).2 with h | ⟨-, w, -, h⟩
      · rw [h]; exact hl v
      · rw [h]
        dsimp only
        split
        · rfl
        · exact hl v
  · by_cases hc : a.conn = some i
    · cases a with
      | accept v j =>
        cases hc
        simp only [Server.State.step, hi, hl v, Bool.false_eq_true, if_false]
      | handshake j b => cases hc; simp only [Server.State.step, hi]
      | receive j m => cases hc; simp only [Server.State.step, hi]
      | exec j => cases hc; simp only [Server.State.step, hi]
      | write j ok => cases hc; simp only [Server.State.step, hi]
      | ask j ok => cases hc; simp only [Server.State.step, hi]
      | acceptError v => cases hc
      | resume k x ok => cases hc
      | shutdown => cases hc
      | stop v => cases hc
    · rw [(Server.step_other s a i hc).1]; exact hi

theorem deaf_run (s : Queue T R) (as : List (Act T R)) (i : Nat) (hl : ∀ v, s.server.listening v = false)
    (hi : s.server.conns i = .absent) :
    (∀ v, (s.run as).server.listening v = false) ∧ (s.run as).server.conns i = .absent := by
  obtain ⟨sas, h⟩ := life_server s as
  rw [h]
  clear h
  generalize s.server = t at hl hi
  induction sas generalizing t with
  | nil => exact ⟨hl, hi⟩
  | cons a sas ih =>
    obtain ⟨h1, h2⟩ := deaf_server t a i hl hi
    exact ih (t.step a) h1 h2

/-- How many polls `shutdown` needs at most. -/
def rank : Stage → Nat
  | .idle => 4
  | .awaits .negotiator => 3
  | .awaits .queue => 2
  | .awaits .work => 1
  | .returned => 0
  | .panicked => 0

/-- A call of `shutdown` is under way or has returned. -/
structure Going (s : Queue T R) : Prop where
  inv : LifeInv s
  stage : (∃ v, s.stage = .awaits v) ∨ s.stage = .returned

theorem listening_step (s : Queue T R) (a : Act T R) (v : Server.Srv) (h : s.server.listening v = false) :
    (s.step a).server.listening v = false := by
  cases he : s.exited with
  | true => simpa [Queue.step, he] using h
  | false =>
    cases a with
    | task b =>
      by_cases hb : b = .shutdown
      · subst hb
        simpa [Queue.step, he] using h
      · rw [life_task s b hb he]
        show (s.server.step b).listening v = false
        rcases (server_task s.server b hb).2 with h2 | ⟨-, w, -, h2⟩
        · rw [h2]; exact h
        · rw [h2]
          dsimp only
          split
          · rfl
          · exact h
    | retire =>
      simp only [Queue.step, he, Bool.false_eq_true, if_false]
      split <;> exact h
    | poll =>
      simp only [Queue.step, he, Bool.false_eq_true, if_false]
      split
      · split <;> exact h
      · exact h
    | exit =>
      simp only [Queue.step, he, Bool.false_eq_true, if_false]
      split <;> exact h
    | shutdown =>
      simp only [Queue.step, he, Bool.false_eq_true, if_false]
      split
      · exact h
      · split <;> exact h
    | drop =>
      simp only [Queue.step, he, Bool.false_eq_true, if_false]
      split <;> exact h

theorem listening_run (s : Queue T R) (as : List (Act T R)) (v : Server.Srv) (h : s.server.listening v = false) :
    (s.run as).server.listening v = false := by
  induction as generalizing s with
  | nil => exact h
  | cons a as ih => exact ih _ (listening_step s a v h)

/-- The stage of a call changes by polls only, until `shutdown` is called again. -/
theorem going_step (s : Queue T R) (a : Act T R) (h : Going s) (ha : a ≠ .shutdown) :
    Going (s.step a) ∧ rank (s.step a).stage ≤ rank s.stage ∧
    (a = .poll → (∀ v, s.server.listening v = false) → rank (s.step a).stage ≤ rank s.stage - 1) := by
  have hinv := lifeInv_step s a h.inv
  cases he : s.exited with
  | true =>
    have hs : s.step a = s := by simp [Queue.step, he]
    rw [hs]
    refine ⟨h, Nat.le_refl _, fun _ _ => ?_⟩
    rw [h.inv.over he]
    exact Nat.le_refl _
  | false =>
    have same : (s.step a).stage = s.stage → a ≠ .poll → Going (s.step a) ∧ rank (s.step a).stage ≤ rank s.stage ∧
        (a = .poll → (∀ v, s.server.listening v = false) → rank (s.step a).stage ≤ rank s.stage - 1) := by
      intro hs hp
      exact ⟨⟨hinv, by rw [hs]; exact h.stage⟩, Nat.le_of_eq (by rw [hs]), fun e => absurd e hp⟩
    cases a with
    | task b =>
      refine same ?_ (fun e => nomatch e)
      by_cases hb : b = .shutdown
      · subst hb
        simp [Queue.step, he]
      · rw [life_task s b hb he]
    | retire =>
      refine same ?_ (fun e => nomatch e)
      simp only [Queue.step, he, Bool.false_eq_true, if_false]
      split <;> rfl
    | drop =>
      refine same ?_ (fun e => nomatch e)
      simp only [Queue.step, he, Bool.false_eq_true, if_false]
      split <;> rfl
    | exit =>
      refine same ?_ (fun e => nomatch e)
      simp only [Queue.step, he, Bool.false_eq_true, if_false]
      split <;> rfl
    | shutdown => exact absurd rfl ha
    | poll =>
      rcases h.stage with ⟨v, hv⟩ | hr
      · cases hl : s.server.listening v with
        | true =>
          have hs : s.step .poll = s := by simp [Queue.step, he, hv, hl]
          rw [hs]
          exact ⟨h, Nat.le_refl _, fun _ hall => by rw [hall v] at hl; cases hl⟩
        | false =>
          have hs : s.step .poll = { s with stage := Queue.next v } := by simp [Queue.step, he, hv, hl]
          have hr : rank (s.step .poll).stage ≤ rank s.stage - 1 := by
            rw [hs, hv]
            cases v <;> exact Nat.le_refl _
          refine ⟨⟨hinv, ?_⟩, by omega, fun _ _ => hr⟩
          rw [hs]
          cases v
          · exact .inl ⟨_, rfl⟩
          · exact .inr rfl
          · exact .inl ⟨_, rfl⟩
      · have hs : s.step .poll = s := by simp [Queue.step, he, hr]
        rw [hs, hr]
        exact ⟨h, Nat.le_refl _, fun _ _ => Nat.le_refl _⟩

theorem going_run (s : Queue T R) (as : List (Act T R)) (h : Going s) (ha : .shutdown ∉ as) : Going (s.run as) := by
  induction as generalizing s with
  | nil => exact h
  | cons a as ih =>
    exact ih _ (going_step s a h (fun e => ha (e ▸ List.mem_cons_self))).1 (fun hm => ha (List.mem_cons_of_mem _ hm))

/-- A loop that has a turn while the queue is being shut down ends. -/
theorem going_stop (s : Queue T R) (v : Server.Srv) (h : Going s) : (s.step (.task (.stop v))).server.listening v = false := by
  cases he : s.exited with
  | true =>
    have hs : s.step (.task (.stop v)) = s := by simp [Queue.step, he]
    rw [hs]
    exact h.inv.last (.inl (h.inv.over he)) v
  | false =>
    rw [life_task s (.stop v) (fun e => nomatch e) he]
    have ht : s.server.shutdown = true := by
      refine h.inv.told.mpr (.inl ?_)
      rcases h.stage with ⟨w, hw⟩ | hw <;> rw [hw] <;> exact fun e => nomatch e
    show (s.server.step (.stop v)).listening v = false
    simp [Server.State.step, ht]

theorem going_stops (s : Queue T R) (as : List (Act T R)) (v : Server.Srv) (h : Going s) (ha : .shutdown ∉ as)
    (hm : .task (.stop v) ∈ as) : (s.run as).server.listening v = false := by
  induction as generalizing s with
  | nil => cases hm
  | cons a as ih =>
    rcases List.mem_cons.mp hm with hm | hm
    · subst hm
      exact listening_run (s.step (.task (.stop v))) as v (going_stop s v h)
    · exact ih _ (going_step s a h (fun e => ha (e ▸ List.mem_cons_self))).1 (fun hm => ha (List.mem_cons_of_mem _ hm)) hm

theorem going_polls (n : Nat) (s : Queue T R) (as : List (Act T R)) (h : Going s) (ha : .shutdown ∉ as)
    (hl : ∀ v, s.server.listening v = false) (hp : (List.replicate n (Act.poll : Act T R)).Sublist as) (hr : rank s.stage ≤ n) :
    rank (s.run as).stage = 0 := by
  induction as generalizing s n with
  | nil =>
    have : n = 0 := by
      cases n with
      | zero => rfl
      | succ n => exact nomatch hp
    exact Nat.le_zero.mp (this ▸ hr)
  | cons a as ih =>
    have hne : a ≠ .shutdown := fun e => ha (e ▸ List.mem_cons_self)
    have hra : Act.shutdown ∉ as := fun hm => ha (List.mem_cons_of_mem _ hm)
    obtain ⟨h1, h2, h3⟩ := going_step s a h hne
    have hl' : ∀ v, (s.step a).server.listening v = false := fun v => listening_step s a v (hl v)
    show rank ((s.step a).run as).stage = 0
    cases n with
    | zero => exact ih 0 (s.step a) h1 hra hl' (List.nil_sublist _) (by omega)
    | succ n =>
      rw [List.replicate_succ] at hp
      cases hp with
      | cons _ hp => exact ih (n + 1) (s.step a) h1 hra hl' (by rw [List.replicate_succ]; exact hp) (by omega)
      | cons_cons _ hp => exact ih n (s.step .poll) h1 hra hl' hp (by have := h3 rfl hl; omega)

/-- Two queues that differ at most in whether they are retired. -/
structure AlikeQueue (s t : Queue T R) : Prop where
  server : s.server = t.server
  stage : s.stage = t.stage
  dropped : s.dropped = t.dropped
  exited : s.exited = t.exited

theorem AlikeQueue.refl (s : Queue T R) : AlikeQueue s s := ⟨rfl, rfl, rfl, rfl⟩

theorem alike_step {s t : Queue T R} (h : AlikeQueue s t) (a : Act T R) (ha : a ≠ .retire) :
    AlikeQueue (s.step a) (t.step a) ∧ (t.step a).retired = t.retired := by
  obtain ⟨sv, r1, st, d, x⟩ := s
  obtain ⟨sv', r2, st', d', x'⟩ := t
  obtain ⟨h1, h2, h3, h4⟩ := h
  dsimp only at h1 h2 h3 h4
  subst h1 h2 h3 h4
  cases x with
  | true => exact ⟨⟨rfl, rfl, rfl, rfl⟩, rfl⟩
  | false =>
    cases a with
    | task c => cases c <;> exact ⟨⟨rfl, rfl, rfl, rfl⟩, rfl⟩
    | retire => exact absurd rfl ha
    | shutdown => cases st <;> cases d <;> exact ⟨⟨rfl, rfl, rfl, rfl⟩, rfl⟩
    | poll =>
      cases st with
      | awaits v =>
        simp only [Queue.step, Bool.false_eq_true, if_false]
        cases sv.listening v <;> exact ⟨⟨rfl, rfl, rfl, rfl⟩, rfl⟩
      | idle => exact ⟨⟨rfl, rfl, rfl, rfl⟩, rfl⟩
      | returned => exact ⟨⟨rfl, rfl, rfl, rfl⟩, rfl⟩
      | panicked => exact ⟨⟨rfl, rfl, rfl, rfl⟩, rfl⟩
    | drop => cases st <;> cases d <;> exact ⟨⟨rfl, rfl, rfl, rfl⟩, rfl⟩
    | exit => cases st <;> exact ⟨⟨rfl, rfl, rfl, rfl⟩, rfl⟩

theorem alike_retire {s t : Queue T R} (h : AlikeQueue s t) : AlikeQueue (s.step .retire) t := by
  simp only [Queue.step]
  split
  · exact h
  · split
    · exact h
    · exact ⟨h.server, h.stage, h.dropped, h.exited⟩

theorem unretired_run {as bs : List (Act T R)} (h : Unretired as bs) (s t : Queue T R) (hst : AlikeQueue s t) :
    AlikeQueue (s.run as) (t.run bs) ∧ (t.run bs).retired = t.retired := by
  induction h generalizing s t with
  | nil => exact ⟨hst, rfl⟩
  | skip _ ih => exact ih _ _ (alike_retire hst)
  | keep ha _ ih =>
    obtain ⟨h1, h2⟩ := alike_step hst _ ha
    obtain ⟨h3, h4⟩ := ih _ _ h1
    exact ⟨h3, h4.trans h2⟩

theorem retired_run (s : Queue T R) (as : List (Act T R)) (h : s.retired = true) : (s.run as).retired = true := by
  induction as generalizing s with
  | nil => exact h
  | cons a as ih =>
    refine ih _ ?_
    by_cases ha : a = .retire
    · subst ha
      simp only [Queue.step]
      split
      · exact h
      · split
        · exact h
        · rfl
    · exact (alike_step (AlikeQueue.refl s) a ha).2.trans h

end Abq.Lifecycle
