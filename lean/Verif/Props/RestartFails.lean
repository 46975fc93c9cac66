import Verif.Props.Ahead
import Verif.Props.Unsent

/-! # C73: what becomes of a runner whose native runner cannot be started again -/

namespace Abq.Props
open Abq.Retries Abq.Retries.Spec Abq.Fetch Abq.Fetch.Spec Abq.Pipe Abq.MsgBuf Abq.MsgBuf.Spec Abq.RunnerEnd

theorem received_step (p : Pipe) (a : Pipe.Act) : p.buf.received <+: (Pipe.step p a).buf.received := by
  have hf : ∀ r, (p.buf.fetch r).received = p.buf.received := by
    intro r
    unfold Buf.fetch
    repeat' split
    all_goals rfl
  have hp : p.buf.produce.received = p.buf.received := by
    unfold Buf.produce
    repeat' split
    all_goals rfl
  have hs : p.buf.startFlush.received = p.buf.received := by
    unfold Buf.startFlush
    split <;> rfl
  cases a with
  | fetch =>
    simp only [Pipe.step, Pipe.fetch]
    repeat' split
    all_goals first | exact List.prefix_refl _ | (dsimp only; rw [hf]; exact List.prefix_refl _)
  | produce => simp only [Pipe.step]; rw [hp]; exact List.prefix_refl _
  | consume =>
    simp only [Pipe.step, Pipe.consume]
    split
    · exact received_grows _
    · exact received_grows _
    · exact List.prefix_refl _
  | result rs => simp only [Pipe.step, Pipe.result]; split <;> exact List.prefix_refl _
  | crash =>
    simp only [Pipe.step, Pipe.crash]
    split
    · dsimp only; rw [hs]; exact List.prefix_refl _
    · exact List.prefix_refl _
  | timeout =>
    simp only [Pipe.step, Pipe.timeout]
    split
    · dsimp only; rw [hs]; exact List.prefix_refl _
    · exact List.prefix_refl _
  | send =>
    simp only [Pipe.step, Pipe.send]
    repeat' split
    all_goals exact List.prefix_refl _
  | take =>
    simp only [Pipe.step, Pipe.take]
    repeat' split
    all_goals exact List.prefix_refl _

/-- A test of a later attempt was received. -/
def Later (b : Buf WorkerTest) : Prop := ∃ k ∈ (items b.received).map key, 2 ≤ k.2

theorem Later.mono {b c : Buf WorkerTest} (h : Later b) (hp : b.received <+: c.received) : Later c := by
  obtain ⟨k, hk, h2⟩ := h
  obtain ⟨t, ht⟩ := hp
  refine ⟨k, ?_, h2⟩
  rw [← ht, items_append, List.map_append]
  exact List.mem_append_left _ hk

/-- The test that is running was received last, and the tests of first attempts come first. -/
theorem running_number {mx : Nat} {src : List (List Resp)} (wf : WellFormed src) {p : Pipe} (h : PI mx src p) {w : WorkerTest}
    (hr : p.runner = .running w) :
    key w ∈ (items p.buf.received).map key ∧ (w.runNumber = 1 ∨ 2 ≤ w.runNumber) ∧ (Later p.buf → 2 ≤ w.runNumber) := by
  have hfl := h.flow
  have hpl := h.place
  rw [hr] at hfl hpl
  rw [show p.buf.cons = .ready from hpl] at hfl
  simp only [flushedOf, List.append_nil, inflight] at hfl
  have hpre := (received_prefix h.buf).map key
  rw [show p.buf.cons = .ready from hpl] at hpre
  simp only [flushedOf, List.append_nil] at hpre
  obtain ⟨_, f, r, i⟩ := h.sys
  rw [← given_eq h.link, i.given, List.map_append] at hpre
  have hmem : key w ∈ (items p.buf.received).map key := by rw [← hfl]; simp
  have hF : ∀ k ∈ f.map key, k.2 = 1 := by
    intro k hk
    obtain ⟨v, hv, rfl⟩ := List.mem_map.mp hk
    exact (wf.first v (i.pre.subset hv)).1
  have hR : ∀ k ∈ r.map key, 2 ≤ k.2 := by
    intro k hk
    obtain ⟨v, hv, rfl⟩ := List.mem_map.mp hk
    exact (i.numbers v hv).1
  refine ⟨hmem, ?_, ?_⟩
  · rcases List.mem_append.mp (hpre.subset hmem) with hk | hk
    · exact .inl (hF _ hk)
    · exact .inr (hR _ hk)
  · rintro ⟨k, hk, h2⟩
    have hpw : (f.map key ++ r.map key).Pairwise (fun a b => 2 ≤ a.2 → 2 ≤ b.2) := by
      rw [List.pairwise_append]
      refine ⟨?_, ?_, fun a _ b hb _ => hR b hb⟩
      · exact List.Pairwise.imp_of_mem (R := fun _ _ => True) (fun ha _ _ h => by rw [hF _ ha] at h; omega) (by simp [List.pairwise_iff_forall_sublist])
      · exact List.Pairwise.imp_of_mem (R := fun _ _ => True) (fun _ hb _ _ => hR _ hb) (by simp [List.pairwise_iff_forall_sublist])
    have hpw' := hpw.sublist hpre.sublist
    rw [← hfl] at hpw' hk
    rcases List.mem_append.mp hk with hk | hk
    · exact (List.pairwise_append.mp hpw').2.2 k hk (key w) (by simp) h2
    · rw [List.mem_singleton.mp hk] at h2
      exact h2

/-- The attempt the native runner was started for, and the test it could not be started for. -/
structure Tried (mx : Nat) (src : List (List Resp)) (l : Life) : Prop where
  well : l.failed = false → PI mx src l.pipe ∧ (l.attempt ≠ 1 → Later l.pipe.buf)
  failed : l.failed = true → l.pipe.runner = .closed true ∧
    ∃ w b, Like l.pipe.buf b ∧ PI mx src (ghost l.pipe w b) ∧ Drawn b ∧ 2 ≤ w.runNumber

theorem tried_step {mx : Nat} {src : List (List Resp)} (wf : WellFormed src) {l : Life} (hl : Lived mx src l) (h : Tried mx src l)
    (a : RunnerEnd.Act) : Tried mx src (l.step a) := by
  cases a with
  | pipe a =>
    cases hf : l.failed with
    | false =>
      obtain ⟨h1, h2⟩ := h.well hf
      refine ⟨fun _ => ⟨pi_step wf h1 a, fun hne => ?_⟩, fun h => by
        rw [show (l.step (.pipe a)).failed = l.failed from rfl, hf] at h; cases h⟩
      have hne : l.reconciled a ≠ 1 := hne
      have old : l.attempt ≠ 1 → Later (Pipe.step l.pipe a).buf := fun h => (h2 h).mono (received_step _ a)
      have new : ∀ w, l.pipe.runner = .running w → w.runNumber ≠ 1 → Later (Pipe.step l.pipe a).buf := by
        intro w hr hn
        obtain ⟨g1, g2, -⟩ := running_number wf h1 hr
        have g3 : 2 ≤ w.runNumber := g2.resolve_left hn
        exact Later.mono ⟨_, g1, g3⟩ (received_step _ a)
      show Later (Pipe.step l.pipe a).buf
      unfold Life.reconciled at hne
      repeat' split at hne
      all_goals first | exact old hne | (rename_i w hr; exact new w hr hne)
    | true =>
      obtain ⟨hc, w, b, h1, h2, h3, h4⟩ := h.failed hf
      obtain ⟨b', h5, h6, h7⟩ := ghost_step wf hc h1 h2 h3 a
      exact ⟨(fun h => by rw [show (l.step (.pipe a)).failed = l.failed from rfl, hf] at h; cases h), fun _ =>
        ⟨closed_step _ a true hc, w, b', h5, h6, h7, h4⟩⟩
  | restartFails =>
    simp only [Life.step]
    split
    · rename_i w hr
      split
      · rename_i hne
        cases hf : l.failed with
        | true => obtain ⟨hc, -⟩ := h.failed hf; rw [hr] at hc; cases hc
        | false =>
          obtain ⟨h1, h2⟩ := h.well hf
          refine ⟨(fun h => by cases h), fun _ => ⟨rfl, w, l.pipe.buf, ⟨rfl, rfl, rfl, .inl rfl⟩, ?_, (hl.well hf).2.1, ?_⟩⟩
          · have he : l.pipe.ended = false := by
              cases he : l.pipe.ended with
              | false => rfl
              | true =>
                obtain ⟨⟨f, hf⟩, -⟩ := h1.ended he
                rw [hr] at hf; cases hf
            have e : ghost { l.pipe with runner := .closed true, buf := l.pipe.buf.dropped } w l.pipe.buf = l.pipe := by
              unfold ghost
              cases hp : l.pipe
              simp_all
            rw [e]
            exact h1
          · obtain ⟨-, g2, g3⟩ := running_number wf h1 hr
            by_cases ha : l.attempt = 1
            · rw [ha] at hne
              exact g2.resolve_left hne
            · exact g3 (h2 ha)
      · exact h
    · exact h
  | notify =>
    simp only [Life.step]
    split
    · split
      · exact h
      · exact ⟨h.well, h.failed⟩
    · exact h

theorem tried_run {mx : Nat} {src : List (List Resp)} (wf : WellFormed src) (as : List RunnerEnd.Act) : ∀ {l : Life}, Lived mx src l →
    Tried mx src l → Tried mx src (l.run as) := by
  induction as with
  | nil => exact fun _ h => h
  | cons a as ih => exact fun hl h => ih (lived_step wf hl a) (tried_step wf hl h a)

/-- What the task that fetches tests gets while the native runner is to run a test of a later attempt. -/
theorem fetch_later {mx : Nat} {src : List (List Resp)} {p : Pipe} (h : PI mx src p) {w : WorkerTest} (hr : p.runner = .running w)
    (h2 : 2 ≤ w.runNumber) (hp : p.buf.prod = .fetching) :
    w.runNumber ≤ mx ∧ p.sys.fetcher.sources = [] ∧
    p.sys.fetcher.fetch.2 = if w.runNumber = mx then .bundle ⟨[], true⟩ else .waiting := by
  have hst : p.sys.stopped = false := by have := h.prod; rw [hp] at this; exact this
  have hfl := h.flow
  have hpl := h.place
  rw [hr] at hfl hpl
  rw [show p.buf.cons = .ready from hpl] at hfl
  simp only [flushedOf, List.append_nil, inflight] at hfl
  have hpre := (received_prefix h.buf).map key
  rw [show p.buf.cons = .ready from hpl] at hpre
  simp only [flushedOf, List.append_nil] at hpre
  obtain ⟨hist, f, r, i⟩ := h.sys
  rw [← given_eq h.link, ← hfl, i.todo, h.log, List.map_append, List.map_append, List.append_assoc, List.append_assoc,
    List.prefix_append_right_inj] at hpre
  have hmem : key w ∈ hist.todo.map (fun id => (id, hist.attempt)) := hpre.subset (by simp)
  obtain ⟨id, hid, he⟩ := List.mem_map.mp hmem
  have hat : hist.attempt = w.runNumber := (Prod.mk.inj he).2
  obtain ⟨l1, l2, -, -⟩ := i.live hst
  have hc : hist.complete = true := by
    cases hc : hist.complete with
    | true => rfl
    | false => have := i.sim.first hc; omega
  have hs : p.sys.fetcher.sources = [] := by rw [hc] at l1; exact List.isEmpty_iff.mp l1.symm
  have hmx := i.sim.le
  refine ⟨by omega, hs, ?_⟩
  have e : p.sys.fetcher.fetch = fetchRetries p.sys.fetcher.tracker := by
    unfold Fetcher.fetch; rw [hs]; rfl
  rw [e]
  unfold fetchRetries Tracker.assemble
  rw [i.sim.cur, i.sim.max, hat]
  by_cases hm : w.runNumber = mx
  · rw [if_pos hm, if_pos hm]
  · rw [if_neg hm, if_neg hm]
    have hstate := i.sim.state
    rw [if_neg (l2 hs)] at hstate
    obtain ⟨last, -, hstate⟩ := hstate
    have htodo : hist.todo.isEmpty = false := by cases ht : hist.todo <;> simp_all
    rw [hc, htodo] at hstate
    rw [show p.sys.fetcher.tracker.state = .hydrated last false from hstate]
    rfl

/-- **C73**, exactly when it hangs: the native runner could not be started again for a test `w`, and the task that fetches tests is
fetching. If a further attempt at `w` is allowed, and the results of all tests before were sent, nothing happens any more, and the
runner never ends. If this was the last attempt allowed, the task that fetches ends with its next step. -/
theorem C73_fate (mx : Nat) (hmx : 1 ≤ mx) (sources : List (List Resp)) (wf : WellFormed sources) (batchSize : Nat) (hb : 1 ≤ batchSize)
    (as : List RunnerEnd.Act) :
    let l := (RunnerEnd.init sources mx batchSize).run as
    l.failed = true → l.pipe.buf.prod = .fetching →
    ∃ w rest, l.pipe.given.map keyOfTest = (l.pipe.reported ++ l.pipe.underway).map keyOf ++ keyOfTest w :: rest ∧
      2 ≤ w.runNumber ∧ w.runNumber ≤ mx ∧
      (w.runNumber < mx → l.pipe.ended = true → ∀ bs, l.run bs = l ∧ (l.run bs).finished = false) ∧
      (w.runNumber = mx → (l.step (.pipe .fetch)).pipe.buf.prod = .done) := by
  intro l hf hp
  have h : Tried mx sources l := tried_run wf as (lived_init hmx wf batchSize)
    ⟨fun _ => ⟨pi_init mx hmx sources wf batchSize, fun h => absurd rfl h⟩, fun h => by cases h⟩
  obtain ⟨hc, w, b, hlike, h1, -, h2⟩ := h.failed hf
  have hbp : b.prod = .fetching := by rcases hlike.prod with h | h <;> simp_all
  obtain ⟨g1, g2, g3⟩ := fetch_later h1 rfl h2 hbp
  have g2 : l.pipe.sys.fetcher.sources = [] := g2
  have g3 : l.pipe.sys.fetcher.fetch.2 = _ := g3
  obtain ⟨rest, hr⟩ := (received_prefix h1.buf).map key
  rw [← h1.flow, ← given_eq h1.link] at hr
  refine ⟨w, rest, ?_, h2, g1, fun hlt he => ?_, fun hm => ?_⟩
  · have : (l.pipe.reported ++ l.pipe.underway).map keyOf ++ [keyOfTest w] ++ rest = l.pipe.given.map keyOfTest := by
      rw [Pipe.underway, ← List.append_assoc]
      exact hr
    rw [← this]
    simp
  · rw [if_neg (by omega)] at g3
    exact C73_hangs sources mx batchSize hb as hf he hp g2 g3
  · rw [if_pos hm] at g3
    show (Pipe.step l.pipe .fetch).buf.prod = .done
    simp only [Pipe.step, Pipe.fetch, hp, g3, Buf.fetch, afterBatch, if_true]

set_option maxRecDepth 20000 in
/-- Three attempts are allowed and the second cannot be begun; two attempts are allowed and the second cannot be begun. -/
example :
    ((RunnerEnd.init pipeOne 3 1).run restartActs).failed = true ∧
    ((RunnerEnd.init pipeOne 3 1).run restartActs).pipe.buf.prod = .fetching ∧
    ((RunnerEnd.init pipeOne 3 1).run restartActs).pipe.ended = true ∧
    ((RunnerEnd.init pipeOne 2 1).run restartActs).failed = true ∧
    ((RunnerEnd.init pipeOne 2 1).run restartActs).pipe.buf.prod = .fetching ∧
    (((RunnerEnd.init pipeOne 2 1).run restartActs).run [.pipe .fetch]).pipe.buf.prod = .done := by decide

/-- What was handed over or is on its way. -/
def answered (p : Pipe) : List (WorkId × Nat) := (p.reported ++ p.underway).map rkey

/-- No test answered is of a later attempt than `n`, as long as the runner goes on. -/
def Most (ks : List (WorkId × Nat)) (n : Nat) : Runner → Prop
  | .receiving | .running _ | .sending .forceFlush => ∀ k ∈ ks, k.2 ≤ n
  | .sending (.results r) => ∀ k ∈ ks ++ [rkey r], k.2 ≤ n
  | _ => True

theorem most_recv {ks : List (WorkId × Nat)} {n : Nat} (h : ∀ k ∈ ks, k.2 ≤ n) (b c : Buf WorkerTest) : Most ks n (afterRecv b c) := by
  unfold afterRecv
  repeat' split
  all_goals first | trivial | exact h

/-- Nothing that was answered is of a later attempt than `n`, and `n` is the attempt of a test that was received. -/
structure Recent (p : Pipe) (n : Nat) : Prop where
  known : n = 1 ∨ ∃ k ∈ (items p.buf.received).map key, k.2 = n
  most : Most (answered p) n p.runner

theorem flow_answered {mx : Nat} {src : List (List Resp)} {p : Pipe} (h : PI mx src p) :
    answered p ++ inflight p.runner = (items p.buf.received ++ flushedOf p.buf.cons).map key := by
  have := h.flow
  rw [answered, Pipe.underway, Pipe.reported, ← List.append_assoc]
  exact this

/-- While a test runs, no test of a later attempt was fetched. -/
theorem running_latest {mx : Nat} {src : List (List Resp)} {p : Pipe} (h : PI mx src p) {w : WorkerTest} (hr : p.runner = .running w) :
    1 ≤ w.runNumber ∧ (∀ k ∈ (items p.buf.received).map key, k.2 ≤ w.runNumber) ∧ ∀ k ∈ answered p, k.2 ≤ w.runNumber := by
  have hfl := h.flow
  have hfa := flow_answered h
  have hpl := h.place
  rw [hr] at hfl hpl hfa
  rw [show p.buf.cons = .ready from hpl] at hfl hfa
  simp only [flushedOf, List.append_nil, inflight] at hfl hfa
  have hpre := (received_prefix h.buf).map key
  rw [show p.buf.cons = .ready from hpl] at hpre
  simp only [flushedOf, List.append_nil] at hpre
  obtain ⟨hist, f, r, i⟩ := h.sys
  rw [← given_eq h.link, i.todo] at hpre
  have hall : ∀ k ∈ (items p.buf.received).map key, k.2 ≤ hist.attempt := by
    intro k hk
    rcases List.mem_append.mp (hpre.subset hk) with hk | hk
    · obtain ⟨x, hx, rfl⟩ := List.mem_map.mp hk
      exact i.sim.logRun x (by rw [i.log]; exact hx)
    · obtain ⟨x, -, rfl⟩ := List.mem_map.mp hk
      exact Nat.le_refl _
  rw [← hfl, h.log, List.map_append, List.map_append, List.append_assoc, List.append_assoc, List.prefix_append_right_inj] at hpre
  have hmem : key w ∈ hist.todo.map (fun id => (id, hist.attempt)) := hpre.subset (by simp)
  obtain ⟨id, hid, he⟩ := List.mem_map.mp hmem
  have hat : hist.attempt = w.runNumber := (Prod.mk.inj he).2
  rw [hat] at hall
  refine ⟨by rw [← hat]; exact i.sim.pos, hall, fun k hk => hall k ?_⟩
  rw [← hfa]
  exact List.mem_append_left _ hk

theorem recent_step {mx : Nat} {src : List (List Resp)} (wf : WellFormed src) {l : Life} (h1 : PI mx src l.pipe)
    (h : Recent l.pipe l.attempt) (a : Pipe.Act) : Recent (Pipe.step l.pipe a) (l.reconciled a) := by
  have h1' := pi_step wf h1 a
  have old : l.attempt = 1 ∨ ∃ k ∈ (items (Pipe.step l.pipe a).buf.received).map key, k.2 = l.attempt := by
    rcases h.known with h | ⟨k, hk, e⟩
    · exact .inl h
    · obtain ⟨t, ht⟩ := received_step l.pipe a
      exact .inr ⟨k, by rw [← ht, items_append, List.map_append]; exact List.mem_append_left _ hk, e⟩
  have new : ∀ w, l.pipe.runner = .running w →
      w.runNumber = 1 ∨ ∃ k ∈ (items (Pipe.step l.pipe a).buf.received).map key, k.2 = w.runNumber := by
    intro w hr
    obtain ⟨g1, -, -⟩ := running_number wf h1 hr
    obtain ⟨t, ht⟩ := received_step l.pipe a
    exact .inr ⟨key w, by rw [← ht, items_append, List.map_append]; exact List.mem_append_left _ g1, rfl⟩
  have hm := h.most
  refine ⟨?_, ?_⟩
  · unfold Life.reconciled
    repeat' split
    all_goals first | exact old | (rename_i w hr; exact new w hr)
  · cases a with
    | fetch =>
      have e1 : (Pipe.step l.pipe .fetch).runner = l.pipe.runner := by
        simp only [Pipe.step, Pipe.fetch]; repeat' split
        all_goals rfl
      have e2 : answered (Pipe.step l.pipe .fetch) = answered l.pipe := by
        simp only [Pipe.step, Pipe.fetch]; repeat' split
        all_goals rfl
      rw [e1, e2]; exact hm
    | produce => exact hm
    | consume =>
      have e2 : answered (Pipe.step l.pipe .consume) = answered l.pipe := by
        simp only [Pipe.step, Pipe.consume]; repeat' split
        all_goals rfl
      rw [e2]
      show Most _ l.attempt (l.pipe.consume).runner
      cases hr : l.pipe.runner with
      | receiving =>
        rw [hr] at hm
        simp only [Pipe.consume, hr]
        exact most_recv hm _ _
      | flushing w =>
        simp only [Pipe.consume, hr]
        split <;> trivial
      | _ =>
        rw [hr] at hm
        simp only [Pipe.consume, hr]
        exact hm
    | result rs =>
      have e2 : answered (Pipe.step l.pipe (.result rs)) = answered l.pipe := by
        simp only [Pipe.step, Pipe.result]; repeat' split
        all_goals rfl
      rw [e2]
      show Most _ (l.reconciled (.result rs)) (l.pipe.result rs).runner
      cases hr : l.pipe.runner with
      | running w =>
        simp only [Pipe.result, Life.reconciled, hr]
        intro k hk
        rcases List.mem_append.mp hk with hk | hk
        · exact (running_latest h1 hr).2.2 k hk
        · rw [List.mem_singleton.mp hk]; exact Nat.le_refl _
      | _ =>
        rw [hr] at hm
        simp only [Pipe.result, Life.reconciled, hr]
        exact hm
    | crash =>
      cases hr : l.pipe.runner with
      | running w => simp only [Pipe.step, Pipe.crash, hr]; trivial
      | _ =>
        rw [hr] at hm
        simp only [Pipe.step, Pipe.crash, Life.reconciled, hr]
        exact hm
    | timeout =>
      show Most (answered l.pipe.timeout) l.attempt l.pipe.timeout.runner
      unfold Pipe.timeout
      split
      · trivial
      · exact hm
    | send =>
      show Most (answered l.pipe.send) l.attempt l.pipe.send.runner
      unfold Pipe.send
      split
      · rename_i m hr
        split
        · rw [hr] at hm
          cases m with
          | results r =>
            have : answered { l.pipe with chan := l.pipe.chan ++ [.results r], runner := .receiving } = answered l.pipe ++ [rkey r] := by
              simp [answered, Pipe.underway, Pipe.reported]
            rw [this]
            exact hm
          | forceFlush =>
            have : answered { l.pipe with chan := l.pipe.chan ++ [.forceFlush], runner := .receiving } = answered l.pipe := by
              simp [answered, Pipe.underway, Pipe.reported]
            rw [this]
            exact hm
        · exact hm
      · rename_i r rs hr
        split
        · cases rs <;> trivial
        · exact hm
      · exact hm
    | take =>
      have e1 : (Pipe.step l.pipe .take).runner = l.pipe.runner := by
        simp only [Pipe.step, Pipe.take, Pipe.handle]; repeat' split
        all_goals rfl
      have e3 : (Pipe.step l.pipe .take).buf = l.pipe.buf := by
        simp only [Pipe.step, Pipe.take, Pipe.handle]; repeat' split
        all_goals rfl
      have e2 : answered (Pipe.step l.pipe .take) = answered l.pipe := by
        have g := flow_answered h1'
        rw [e1, e3, ← flow_answered h1] at g
        exact List.append_cancel_right g
      rw [e1, e2]; exact hm

theorem recent_run {mx : Nat} {src : List (List Resp)} (wf : WellFormed src) (as : List RunnerEnd.Act) : ∀ {l : Life}, Lived mx src l →
    (l.failed = false → PI mx src l.pipe ∧ Recent l.pipe l.attempt) → (l.run as).failed = false →
    PI mx src (l.run as).pipe ∧ Recent (l.run as).pipe (l.run as).attempt := by
  induction as with
  | nil => exact fun _ h => h
  | cons a as ih =>
    intro l hl h
    refine ih (lived_step wf hl a) ?_
    intro hf
    cases a with
    | pipe a => exact ⟨pi_step wf (h hf).1 a, recent_step wf (h hf).1 (h hf).2 a⟩
    | restartFails =>
      revert hf
      simp only [Life.step]
      repeat' split
      · exact fun h => by cases h
      · exact h
      · exact h
    | notify =>
      revert hf
      simp only [Life.step]
      repeat' split
      all_goals exact h

/-- **C73**, when starting the native runner again is tried: only for the first test of an attempt, so that a runner can be lost only
between two attempts. All tests reported before are of earlier attempts. -/
theorem C73_between_attempts (mx : Nat) (hmx : 1 ≤ mx) (sources : List (List Resp)) (wf : WellFormed sources) (batchSize : Nat)
    (as : List RunnerEnd.Act) :
    let l := (RunnerEnd.init sources mx batchSize).run as
    l.failed = false → (l.step .restartFails).failed = true →
    ∃ w, l.pipe.runner = .running w ∧ ∀ r ∈ l.pipe.reported ++ l.pipe.underway, r.runNumber < w.runNumber := by
  intro l hf
  obtain ⟨h1, h2⟩ := recent_run wf as (lived_init hmx wf batchSize) (fun _ => ⟨pi_init mx hmx sources wf batchSize, .inl rfl, by
    intro k hk; have hk : k ∈ ([] : List (WorkId × Nat)) := hk; cases hk⟩) hf
  simp only [Life.step]
  split
  · rename_i w hr
    split
    · rename_i hne
      refine fun _ => ⟨w, hr, fun r hm => ?_⟩
      obtain ⟨g1, g2, -⟩ := running_latest h1 hr
      have hm2 := h2.most
      have hr' : ((RunnerEnd.init sources mx batchSize).run as).pipe.runner = .running w := hr
      rw [hr'] at hm2
      have k1 : r.runNumber ≤ l.attempt := hm2 (rkey r) (List.mem_map_of_mem hm)
      have k2 : l.attempt ≤ w.runNumber := by
        rcases h2.known with e | ⟨k, hk, e⟩
        · have e : l.attempt = 1 := e
          omega
        · have e : k.2 = l.attempt := e
          have := g2 k hk
          omega
      omega
    · intro h; rw [hf] at h; cases h
  · intro h; rw [hf] at h; cases h

set_option maxRecDepth 20000 in
/-- The native runner cannot be started again for the second attempt at the test. -/
example :
    ((RunnerEnd.init pipeOne 3 1).run (restartActs.takeWhile (· ≠ .restartFails))).failed = false ∧
    (((RunnerEnd.init pipeOne 3 1).run (restartActs.takeWhile (· ≠ .restartFails))).step .restartFails).failed = true ∧
    (((RunnerEnd.init pipeOne 3 1).run (restartActs.takeWhile (· ≠ .restartFails))).pipe.reported.map keyOf).length = 1 := by decide

end Abq.Props
