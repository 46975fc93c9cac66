import Verif.Spec.RunnerEnd
import Verif.Proof.PipelineProgress

/-! # Invariants of the end of a runner (C73, C74, C75) -/

namespace Abq.RunnerEnd
open Abq.Retries Abq.Fetch Abq.Fetch.Spec Abq.Pipe Abq.MsgBuf

theorem run_append (l : Life) (as bs : List Act) : l.run (as ++ bs) = (l.run as).run bs := by
  simp [Life.run, List.foldl_append]

theorem run_cons (l : Life) (a : Act) (as : List Act) : l.run (a :: as) = (l.step a).run as := rfl

/-- Until a restart fails the three tasks are as `Proof/Pipeline.lean` has them. -/
theorem pi_life_step {mx : Nat} {src : List (List Resp)} (wf : WellFormed src) {l : Life}
    (h : l.failed = false → PI mx src l.pipe) (a : Act) :
    (l.step a).failed = false → PI mx src (l.step a).pipe := by
  cases a with
  | pipe a => intro hf; exact pi_step wf (h hf) a
  | restartFails =>
    simp only [Life.step]
    split
    · split
      · intro hf; cases hf
      · exact h
    · exact h
  | notify =>
    simp only [Life.step]
    split
    · split
      · exact h
      · intro hf; exact h hf
    · exact h

theorem pi_life_run {mx : Nat} {src : List (List Resp)} (wf : WellFormed src) (as : List Act) {l : Life}
    (h : l.failed = false → PI mx src l.pipe) : (l.run as).failed = false → PI mx src (l.run as).pipe := by
  induction as generalizing l with
  | nil => exact h
  | cons a as ih => exact ih (pi_life_step wf h a)

theorem pi_life {mx : Nat} (hmx : 1 ≤ mx) {src : List (List Resp)} (wf : WellFormed src) (n : Nat) (as : List Act) :
    ((init src mx n).run as).failed = false → PI mx src ((init src mx n).run as).pipe :=
  pi_life_run wf as fun _ => pi_init mx hmx src wf n

/-! ## The runner's task has returned -/

theorem closed_step (p : Pipe) (a : Pipe.Act) (f : Bool) (h : p.runner = .closed f) : (Pipe.step p a).runner = .closed f := by
  cases a with
  | fetch =>
    simp only [Pipe.step, Pipe.fetch]
    repeat' split
    all_goals exact h
  | produce => exact h
  | consume => simp [Pipe.step, Pipe.consume, h]
  | result rs => simp [Pipe.step, Pipe.result, h]
  | crash => simp [Pipe.step, Pipe.crash, h]
  | timeout => simp [Pipe.step, Pipe.timeout, h]
  | send => simp [Pipe.step, Pipe.send, h]
  | take =>
    simp only [Pipe.step, Pipe.take]
    repeat' split
    all_goals first | exact h | (simp only [Pipe.handle]; exact h)

/-- The queue is told only after the runner's task is through, and not if a restart failed. -/
structure Told (l : Life) : Prop where
  failed : l.failed = true → (∃ f, l.pipe.runner = .closed f) ∧ l.notified = false
  notified : l.notified = true → ∃ f, l.pipe.runner = .closed f

theorem told_step {l : Life} (h : Told l) (a : Act) : Told (l.step a) := by
  cases a with
  | pipe a =>
    constructor
    · intro hf
      obtain ⟨⟨f, hr⟩, hn⟩ := h.failed hf
      exact ⟨⟨f, closed_step _ a f hr⟩, hn⟩
    · intro hn
      obtain ⟨f, hr⟩ := h.notified hn
      exact ⟨f, closed_step _ a f hr⟩
  | restartFails =>
    simp only [Life.step]
    split
    · rename_i w hw
      split
      · constructor
        · intro _
          refine ⟨⟨_, rfl⟩, ?_⟩
          cases hn : l.notified with
          | false => rfl
          | true =>
            obtain ⟨f, hr⟩ := h.notified hn
            rw [hw] at hr; cases hr
        · intro _; exact ⟨_, rfl⟩
      · exact h
    · exact h
  | notify =>
    simp only [Life.step]
    split
    · rename_i f hr
      split
      · exact h
      · rename_i hf
        exact ⟨fun e => absurd e hf, fun _ => ⟨f, hr⟩⟩
    · exact h

theorem told_run {l : Life} (h : Told l) (as : List Act) : Told (l.run as) := by
  induction as generalizing l with
  | nil => exact h
  | cons a as ih => exact ih (told_step h a)

theorem told_init (src : List (List Resp)) (mx n : Nat) : Told (init src mx n) :=
  ⟨by simp [init], by simp [init]⟩

/-- When the runner's task is through, everything given was received or flushed, and nothing more will be given. -/
theorem closed_flow {mx : Nat} {src : List (List Resp)} {p : Pipe} (h : PI mx src p) (f : Bool)
    (hr : p.runner = .closed f) :
    (p.out.sent.flatten ++ p.out.buffer ++ chanResults p.chan).map rkey = p.sys.given.map key ∧ p.buf.prod = .done := by
  have hfl := h.flow
  rw [hr] at hfl
  simp only [List.append_nil, inflight] at hfl
  rw [hfl, given_eq h.link]
  have hpl := h.place
  rw [hr] at hpl
  cases hbuf : h.buf with
  | live cur frames old B l =>
    have := l.asks
    cases f with
    | true => obtain ⟨acc, ha⟩ := hpl; rw [ha] at this; cases this
    | false => rw [show p.buf.cons = .gone from hpl] at this; cases this
  | flush acc f' =>
    rcases f'.state with h' | ⟨h', hd, hch⟩
    · cases f with
      | true => obtain ⟨acc, ha⟩ := hpl; rw [ha] at h'; cases h'
      | false => rw [show p.buf.cons = .gone from hpl] at h'; cases h'
    · refine ⟨?_, hd⟩
      congr 1
      rw [← f'.flow, h']
      simp [flushedOf, pending, hd, hch, itemsM]
  | gone g =>
    refine ⟨?_, g.done⟩
    congr 1
    rw [g.gone, g.all, items_expected]
    simp [flushedOf]

/-! ## What became of the results the native runner yielded -/

/-- `K` are the results of the native runner, in order; they are followed only by failures. -/
def Kept (K : List Results) (p : Pipe) : Prop :=
  match p.runner with
  | .receiving => allResults p = K
  | .running _ => allResults p = K
  | .sending .forceFlush => allResults p = K
  | .sending (.results r) => allResults p ++ [r] = K
  | .flushing _ => allResults p = K
  | .failing rs => (∃ F, allResults p = K ++ F ∧ ∀ r ∈ F, Failure r) ∧ ∀ r ∈ rs, Failure r
  | .closed _ => ∃ F, allResults p = K ++ F ∧ ∀ r ∈ F, Failure r

theorem kept_same {K : List Results} {p q : Pipe} (h : Kept K p) (hr : q.runner = p.runner)
    (hd : allResults q = allResults p) : Kept K q := by
  unfold Kept at *
  rw [hr, hd]
  exact h

theorem failure_of_failureResults (w : WorkerTest) (rem : List WorkerTest) : ∀ r ∈ failureResults w rem, Failure r := by
  intro r hr
  simp only [failureResults, List.mem_map] at hr
  obtain ⟨id, -, rfl⟩ := hr
  exact ⟨0, rfl⟩

theorem allResults_send (p : Pipe) (m : RMsg) (rn : Runner) :
    allResults { p with chan := p.chan ++ [m], runner := rn } = allResults p ++ chanResults [m] := by
  simp [allResults, chanResults_append]

theorem afterRecv_cases (b b' : Buf WorkerTest) :
    afterRecv b b' = .closed false ∨ (∃ w, afterRecv b b' = .running w) ∨ afterRecv b b' = .sending .forceFlush ∨
      afterRecv b b' = .receiving := by
  unfold afterRecv
  repeat' split
  all_goals simp

theorem kept_idle {K : List Results} {q : Pipe} (h : allResults q = K)
    (hr : q.runner = .closed false ∨ (∃ w, q.runner = .running w) ∨ q.runner = .sending .forceFlush ∨
      q.runner = .receiving) : Kept K q := by
  unfold Kept
  rcases hr with e | ⟨w, e⟩ | e | e <;> rw [e]
  · exact ⟨[], by rw [List.append_nil]; exact h, by simp⟩
  all_goals exact h

theorem kept_step {K : List Results} {l : Life} (h : Kept K l.pipe) (a : Pipe.Act) (ha : a ≠ .timeout) :
    Kept (K ++ answer l (.pipe a)) (Pipe.step l.pipe a) := by
  have nil : ∀ {p : Pipe}, Kept K p → Kept (K ++ []) p := by intro p hp; rwa [List.append_nil]
  generalize hp : l.pipe = p at *
  cases a with
  | fetch =>
    refine nil (kept_same h ?_ ?_)
    · simp only [Pipe.step, Pipe.fetch]; repeat' split
      all_goals rfl
    · simp only [Pipe.step, Pipe.fetch]; repeat' split
      all_goals rfl
  | produce => exact nil (kept_same h rfl rfl)
  | consume =>
    refine nil ?_
    simp only [Pipe.step, Pipe.consume]
    split
    · rename_i hr
      unfold Kept at h
      rw [hr] at h
      refine kept_idle (q := { p with buf := p.buf.consume, runner := afterRecv p.buf p.buf.consume }) h ?_
      rcases afterRecv_cases p.buf p.buf.consume with e | ⟨w, e⟩ | e | e <;> simp [e]
    · rename_i w hr
      unfold Kept at h
      rw [hr] at h
      have h : allResults p = K := h
      cases hc : p.buf.consume.cons with
      | flushed rem =>
        unfold Kept
        exact ⟨⟨[], by rw [List.append_nil]; exact h, by simp⟩, failure_of_failureResults w rem⟩
      | _ => unfold Kept; exact h
    · exact h
  | result rs =>
    cases hr : p.runner with
    | running w =>
      have e1 : Pipe.step p (.result rs) =
          { p with runner := .sending (.results ⟨w.spec.workId, w.runNumber, rs⟩) } := by simp only [Pipe.step, Pipe.result, hr]
      have e2 : answer l (.pipe (.result rs)) = [⟨w.spec.workId, w.runNumber, rs⟩] := by simp only [answer, hp, hr]
      rw [e1, e2]
      unfold Kept at h ⊢
      rw [hr] at h
      have h : allResults p = K := h
      exact congrArg (· ++ [_]) h
    | _ =>
      have e1 : Pipe.step p (.result rs) = p := by simp only [Pipe.step, Pipe.result, hr]
      have e2 : answer l (.pipe (.result rs)) = [] := by simp only [answer, hp, hr]
      rw [e1, e2]
      exact nil h
  | timeout => exact absurd rfl ha
  | crash =>
    refine nil ?_
    simp only [Pipe.step, Pipe.crash]
    split
    · rename_i w hr
      unfold Kept at h ⊢
      rw [hr] at h
      exact h
    · exact h
  | send =>
    refine nil ?_
    simp only [Pipe.step, Pipe.send]
    split
    · rename_i m hr
      split
      · unfold Kept at h ⊢
        rw [hr] at h
        cases m with
        | results r => rw [allResults_send]; exact h
        | forceFlush => rw [allResults_send]; simpa [chanResults] using h
      · exact h
    · rename_i r rs hr
      split
      · unfold Kept at h
        rw [hr] at h
        obtain ⟨⟨F, hF, hf⟩, hrs⟩ := h
        have hnew : ∃ F, allResults p ++ chanResults [.results r] = K ++ F ∧ ∀ r ∈ F, Failure r := by
          refine ⟨F ++ [r], by rw [hF, List.append_assoc]; rfl, ?_⟩
          intro x hx
          rcases List.mem_append.mp hx with hx | hx
          · exact hf x hx
          · simp only [List.mem_singleton] at hx
            subst hx
            exact hrs x (List.mem_cons_self ..)
        cases rs with
        | nil =>
          show Kept K { p with chan := p.chan ++ [.results r], runner := .closed true }
          unfold Kept
          simp only [allResults_send]
          exact hnew
        | cons x xs =>
          show Kept K { p with chan := p.chan ++ [.results r], runner := .failing (x :: xs) }
          unfold Kept
          simp only [allResults_send]
          exact ⟨hnew, fun y hy => hrs y (List.mem_cons_of_mem _ hy)⟩
      · exact h
    · exact h
  | take =>
    refine nil ?_
    simp only [Pipe.step, Pipe.take]
    split
    · rename_i r ms hc
      refine kept_same h rfl ?_
      have := (push_sent p.out r).1
      simp only [allResults, Pipe.handle, this, hc]
      simp [chanResults]
    · rename_i ms hc
      refine kept_same h rfl ?_
      have := (flush_sent p.out).1
      simp only [allResults, Pipe.handle, this, hc]
      simp [chanResults]
    · rename_i hc
      split
      · split
        · exact h
        · refine kept_same h rfl ?_
          have := (flush_sent p.out).1
          simp only [allResults, Pipe.handle, this]
      · exact h

/-- No more tests go to the native runner. -/
def Over (p : Pipe) : Prop := (∃ w, p.runner = .flushing w) ∨ (∃ rs, p.runner = .failing rs) ∨ ∃ f, p.runner = .closed f

theorem over_same {p q : Pipe} (h : Over p) (hr : q.runner = p.runner) : Over q := by
  unfold Over
  rw [hr]
  exact h

theorem over_step {p : Pipe} (h : Over p) (a : Pipe.Act) : Over (Pipe.step p a) := by
  cases a with
  | fetch =>
    refine over_same h ?_
    simp only [Pipe.step, Pipe.fetch]; repeat' split
    all_goals rfl
  | produce => exact over_same h rfl
  | consume =>
    rcases h with ⟨w, e⟩ | ⟨rs, e⟩ | ⟨f, e⟩
    · simp only [Pipe.step, Pipe.consume, e]
      cases p.buf.consume.cons with
      | flushed rem => exact .inr (.inl ⟨_, rfl⟩)
      | _ => exact .inl ⟨w, rfl⟩
    · simp only [Pipe.step, Pipe.consume, e]; exact .inr (.inl ⟨rs, e⟩)
    · simp only [Pipe.step, Pipe.consume, e]; exact .inr (.inr ⟨f, e⟩)
  | result rs' => rcases h with ⟨w, e⟩ | ⟨rs, e⟩ | ⟨f, e⟩ <;> simp only [Pipe.step, Pipe.result, e, Over] <;> simp
  | crash => rcases h with ⟨w, e⟩ | ⟨rs, e⟩ | ⟨f, e⟩ <;> simp only [Pipe.step, Pipe.crash, e, Over] <;> simp
  | timeout => rcases h with ⟨w, e⟩ | ⟨rs, e⟩ | ⟨f, e⟩ <;> simp only [Pipe.step, Pipe.timeout, e, Over] <;> simp
  | send =>
    rcases h with ⟨w, e⟩ | ⟨rs, e⟩ | ⟨f, e⟩
    · simp only [Pipe.step, Pipe.send, e]; exact .inl ⟨w, e⟩
    · cases rs with
      | nil => simp only [Pipe.step, Pipe.send, e]; exact .inr (.inl ⟨_, e⟩)
      | cons r rs =>
        simp only [Pipe.step, Pipe.send, e]
        split
        · cases rs with
          | nil => exact .inr (.inr ⟨_, rfl⟩)
          | cons x xs => exact .inr (.inl ⟨_, rfl⟩)
        · exact .inr (.inl ⟨_, e⟩)
    · simp only [Pipe.step, Pipe.send, e]; exact .inr (.inr ⟨f, e⟩)
  | take =>
    refine over_same h ?_
    simp only [Pipe.step, Pipe.take]
    repeat' split
    all_goals rfl

theorem over_answer {l : Life} (h : Over l.pipe) (a : Act) : answer l a = [] := by
  unfold answer
  split
  · rcases h with ⟨w, e⟩ | ⟨rs, e⟩ | ⟨f, e⟩ <;> simp only [e]
  · rfl

theorem over_life_step {l : Life} (h : Over l.pipe) (a : Act) : Over (l.step a).pipe := by
  cases a with
  | pipe a => exact over_step h a
  | restartFails =>
    simp only [Life.step]
    split
    · split
      · exact .inr (.inr ⟨_, rfl⟩)
      · exact h
    · exact h
  | notify =>
    simp only [Life.step]
    repeat' split
    all_goals exact h

theorem over_answers {l : Life} (h : Over l.pipe) (as : List Act) : answers l as = [] := by
  induction as generalizing l with
  | nil => rfl
  | cons a as ih => rw [answers, over_answer h, ih (over_life_step h a)]; rfl

theorem kept_life_step {K : List Results} {l : Life} (h : Kept K l.pipe) (a : Act) (ha : a ≠ .pipe .timeout) :
    Kept (K ++ answer l a) (l.step a).pipe := by
  have nil : ∀ {p : Pipe}, Kept K p → Kept (K ++ []) p := by intro p hp; rwa [List.append_nil]
  cases a with
  | pipe a => exact kept_step h a (fun e => ha (congrArg _ e))
  | restartFails =>
    refine nil ?_
    simp only [Life.step]
    split
    · rename_i w hw
      split
      · unfold Kept at h ⊢
        rw [hw] at h
        exact ⟨[], by rw [List.append_nil]; exact h, by simp⟩
      · exact h
    · exact h
  | notify =>
    refine nil ?_
    simp only [Life.step]
    repeat' split
    all_goals exact h

/-- The time limit passes: nothing changes, or the results at hand are dropped. -/
theorem kept_timeout {K : List Results} {l : Life} (h : Kept K l.pipe) :
    (l.step (.pipe .timeout)) = l ∨
      ∃ K' r, K = K' ++ [r] ∧ l.pipe.runner = .sending (.results r) ∧ Kept K' (l.step (.pipe .timeout)).pipe ∧
        Over (l.step (.pipe .timeout)).pipe := by
  have hre : l.reconciled .timeout = l.attempt := rfl
  simp only [Life.step, Pipe.step, Pipe.timeout, hre]
  split
  · rename_i r hr
    refine .inr ⟨allResults l.pipe, r, ?_, hr, ?_, .inl ⟨_, rfl⟩⟩
    · unfold Kept at h
      rw [hr] at h
      exact h.symm
    · unfold Kept
      rfl
  · exact .inl rfl

theorem kept_over {K : List Results} {l : Life} (h : Kept K l.pipe) (ho : Over l.pipe) (as : List Act) :
    Kept K (l.run as).pipe := by
  induction as generalizing l with
  | nil => exact h
  | cons a as ih =>
    refine ih ?_ (over_life_step ho a)
    by_cases ha : a = .pipe .timeout
    · subst ha
      rcases kept_timeout h with h' | ⟨_, _, _, hr, _⟩
      · rw [h']; exact h
      · rcases ho with ⟨w, e⟩ | ⟨rs, e⟩ | ⟨f, e⟩ <;> (rw [hr] at e; cases e)
    · have := kept_life_step h a ha
      rwa [over_answer ho, List.append_nil] at this

/-- All along a schedule: the results yielded are kept, or all but the last. -/
theorem kept_run {K : List Results} {l : Life} (h : Kept K l.pipe) (as : List Act) :
    Kept (K ++ answers l as) (l.run as).pipe ∨
      ∃ K' r, .pipe .timeout ∈ as ∧ K ++ answers l as = K' ++ [r] ∧ Kept K' (l.run as).pipe := by
  induction as generalizing K l with
  | nil => refine .inl ?_; rw [answers, List.append_nil]; exact h
  | cons a as ih =>
    have go : Kept (K ++ answer l a) (l.step a).pipe → Kept (K ++ answers l (a :: as)) (l.run (a :: as)).pipe ∨
        ∃ K' r, .pipe .timeout ∈ (a :: as) ∧ K ++ answers l (a :: as) = K' ++ [r] ∧ Kept K' (l.run (a :: as)).pipe := by
      intro hk
      rw [run_cons, answers, ← List.append_assoc]
      rcases ih hk with h' | ⟨K', r, h1, h2, h3⟩
      · exact .inl h'
      · exact .inr ⟨K', r, List.mem_cons_of_mem _ h1, h2, h3⟩
    by_cases ha : a = .pipe .timeout
    · subst ha
      have e : answer l (.pipe .timeout) = [] := rfl
      rcases kept_timeout h with h' | ⟨K', r, hK, hr, hk, ho⟩
      · refine go ?_
        rw [e, List.append_nil, h']
        exact h
      · have e2 : answers l (.pipe .timeout :: as) = [] := by rw [answers, e, over_answers ho]; rfl
        refine .inr ⟨K', r, List.mem_cons_self .., by rw [e2, List.append_nil, hK], ?_⟩
        exact kept_over hk ho as
    · exact go (kept_life_step h a ha)

end Abq.RunnerEnd
