import Verif.Proof.Ahead
import Verif.Proof.Unsent
import Verif.Props.RunnerEnd

/-!
# A runner takes few tests ahead (C142)

The theorems are about every sequence of bundles, of any sizes, every capacity, every interleaving of fetching and running, and
a native runner that fails or a time limit that passes at any point.
-/

namespace Abq.Props
open Abq.Retries Abq.Fetch Abq.Fetch.Spec Abq.Pipe Abq.MsgBuf Abq.MsgBuf.Spec Abq.RunnerEnd

/-- **C142.** Whenever a bundle was fetched after another, then of the one before at least half, and at least one item, was
returned by `recv`, and everything of the bundles before that one. This stays true when the rest is flushed. -/
theorem C142_half_begun {α : Type} (capacity : Nat) (as : List (MsgBuf.Act α)) (h : Proper as)
    (old later : List (List α)) (previous next : List α) :
    let b := MsgBuf.run (Buf.new α capacity) as
    b.fetched.filter (fun f => !f.isEmpty) = old ++ previous :: next :: later →
    old.flatten.length + Nat.max 1 (previous.length / 2) ≤ (items b.received).length := by
  intro b hs
  exact (drawn_run (ok_new capacity) (drawn_new capacity) as h).past old previous next later hs

/-- **C142.** If no bundle has more than `n` items, at any time at most `2 * n - max 1 (n / 2)` items were fetched and not
returned. -/
theorem C142_ahead {α : Type} (capacity n : Nat) (as : List (MsgBuf.Act α)) (h : Proper as) :
    let b := MsgBuf.run (Buf.new α capacity) as
    (∀ f ∈ b.fetched, f.length ≤ n) →
    b.fetched.flatten.length ≤ (items b.received).length + (2 * n - Nat.max 1 (n / 2)) := by
  intro b hn
  exact drawn_bound (drawn_run (ok_new capacity) (drawn_new capacity) as h) n hn

theorem pipe_drawn_step {mx : Nat} {src : List (List Resp)} {p : Pipe} (h : PI mx src p)
    (d : Drawn p.buf) (a : Pipe.Act) : Drawn (Pipe.step p a).buf := by
  have hs := fun a => drawn_step h.buf d a
  cases a with
  | fetch =>
    simp only [Pipe.step, Pipe.fetch]
    repeat' split
    all_goals first | exact hs (.fetch (some _)) | exact hs (.fetch none) | exact d
  | produce => exact hs .produce
  | consume =>
    simp only [Pipe.step, Pipe.consume]
    split
    · exact hs .consume
    · exact hs .consume
    · exact d
  | result rs => simp only [Pipe.step, Pipe.result]; split <;> exact d
  | crash =>
    simp only [Pipe.step, Pipe.crash]
    split
    · exact hs .startFlush
    · exact d
  | timeout =>
    simp only [Pipe.step, Pipe.timeout]
    split
    · exact hs .startFlush
    · exact d
  | send =>
    simp only [Pipe.step, Pipe.send]
    repeat' split
    all_goals exact d
  | take =>
    simp only [Pipe.step, Pipe.take]
    repeat' split
    all_goals exact d

theorem pipe_drawn {mx : Nat} {src : List (List Resp)} (wf : WellFormed src) (b : Nat) (as : List Pipe.Act) {p : Pipe}
    (h : PI mx src p) (d : Drawn p.buf) (n : Narrow b p) : Drawn (Pipe.run p as).buf ∧ Narrow b (Pipe.run p as) := by
  induction as generalizing p with
  | nil => exact ⟨d, n⟩
  | cons a as ih => exact ih (pi_step wf h a) (pipe_drawn_step h d a) (narrow_step n a)

/-- Of the failures to be reported there are at most the test the native runner failed on and those that were flushed. -/
def FewFailing (p : Pipe) : Prop := ∀ rs, p.runner = .failing rs → rs.length ≤ 1 + (flushedOf p.buf.cons).length

theorem few_failing_step {p : Pipe} (h : FewFailing p) (a : Pipe.Act) : FewFailing (Pipe.step p a) := by
  cases a with
  | fetch =>
    have hc : ∀ r, (p.buf.fetch r).cons = p.buf.cons := by
      intro r
      unfold Buf.fetch
      repeat' split
      all_goals rfl
    simp only [Pipe.step, Pipe.fetch]
    repeat' split
    all_goals first | exact h | (intro rs hr; dsimp only at hr ⊢; rw [hc]; exact h rs hr)
  | produce =>
    have hc : p.buf.produce.cons = p.buf.cons := by
      unfold Buf.produce
      repeat' split
      all_goals rfl
    intro rs hr
    simp only [Pipe.step] at hr ⊢
    rw [hc]
    exact h rs hr
  | consume =>
    simp only [Pipe.step, Pipe.consume]
    split
    · intro rs hr
      dsimp only [afterRecv] at hr
      repeat' split at hr
      all_goals cases hr
    · intro rs hr
      dsimp only at hr ⊢
      split at hr
      · rename_i w _ remaining hc
        cases hr
        rw [hc]
        simp only [failureResults, flushedOf, List.length_map, List.length_cons]
        omega
      · cases hr
    · exact h
  | result rs => simp only [Pipe.step, Pipe.result]; split <;> first | exact h | (intro rs hr; cases hr)
  | crash => simp only [Pipe.step, Pipe.crash]; split <;> first | exact h | (intro rs hr; cases hr)
  | timeout => simp only [Pipe.step, Pipe.timeout]; split <;> first | exact h | (intro rs hr; cases hr)
  | send =>
    simp only [Pipe.step, Pipe.send]
    split
    · split
      · intro rs hr; cases hr
      · exact h
    · rename_i r rs hr
      have := h _ hr
      split
      · intro rs' hr'
        dsimp only at hr' ⊢
        cases rs with
        | nil => cases hr'
        | cons r' rs => cases hr'; simp only [List.length_cons] at this ⊢; omega
      · exact h
    · exact h
  | take =>
    simp only [Pipe.step, Pipe.take]
    repeat' split
    all_goals exact h

theorem few_failing (as : List Pipe.Act) : ∀ {p : Pipe}, FewFailing p → FewFailing (Pipe.run p as) := by
  induction as with
  | nil => exact fun h => h
  | cons a as ih => exact fun h => ih (few_failing_step h a)

/-- If few results are under way, few tests are held. -/
theorem held_bound {mx : Nat} {src : List (List Resp)} {p : Pipe} (h : PI mx src p) (d : Drawn p.buf) (hff : FewFailing p) (n : Nat)
    (hn : ∀ d ∈ p.sys.delivered, d.work.length ≤ n) :
    p.given.length ≤ p.reported.length + p.underway.length + 1 + (2 * n - Nat.max 1 (n / 2)) := by
  have hb := drawn_bound d n (by
    rw [h.link]
    intro f hfm
    obtain ⟨x, hx, rfl⟩ := List.mem_map.mp hfm
    exact hn x hx)
  have hg : p.given.length = p.buf.fetched.flatten.length := by
    rw [← given_eq h.link]; rfl
  have hl := congrArg List.length h.flow
  simp only [List.length_append, List.length_map] at hl
  have hi : (inflight p.runner).length ≤ 1 + (flushedOf p.buf.cons).length := by
    cases hr : p.runner with
    | failing rs => simpa [inflight] using hff rs hr
    | sending m => cases m <;> simp [inflight]
    | receiving => simp [inflight]
    | running w => simp [inflight]
    | flushing w => simp [inflight]
    | closed f => simp [inflight]
  have hu : p.underway.length = p.out.buffer.length + (chanResults p.chan).length := by
    rw [Pipe.underway, List.length_append]; rfl
  have hr : p.reported.length = p.out.sent.flatten.length := rfl
  omega

theorem underway_bound {b : Nat} {p : Pipe} (w : Narrow b p) : p.underway.length ≤ 3 * b - 1 := by
  have h3 : p.underway.length ≤ p.out.buffer.length + p.chan.length := by
    rw [Pipe.underway, List.length_append]
    exact Nat.add_le_add_left (List.length_filterMap_le ..) _
  have h4 := w.chan
  have h5 := w.buffer
  omega

/-- What the runner would be if it still waited for the native runner that could not be started again for the test `w`, and still had the
buffer `b`. -/
def ghost (p : Pipe) (w : WorkerTest) (b : Buf WorkerTest) : Pipe := { p with runner := .running w, ended := false, buf := b }

/-- How a buffer whose consumer was dropped compares to one where it was not. -/
structure Like (c b : Buf WorkerTest) : Prop where
  gone : c.cons = .gone
  fetched : b.fetched = c.fetched
  refill : b.refill = c.refill
  prod : b.prod = c.prod ∨ c.prod = .done

theorem like_fetch {c b : Buf WorkerTest} (h : Like c b) (hp : c.prod = .fetching) (r : Option (List WorkerTest × Bool)) :
    Like (c.fetch r) (b.fetch r) := by
  obtain ⟨h1, h2, h3, h4⟩ := h
  have hb : b.prod = .fetching := by rcases h4 with h | h <;> simp_all
  unfold Buf.fetch
  rw [hp, hb]
  dsimp only
  split
  · exact ⟨h1, h2, h3, .inl rfl⟩
  · exact ⟨h1, by dsimp only; rw [h2], h3, .inl rfl⟩
  · exact ⟨h1, by dsimp only; rw [h2], h3, .inl rfl⟩

theorem like_produce {c b : Buf WorkerTest} (h : Like c b) : Like c.produce b ∨ Like c.produce b.produce := by
  obtain ⟨h1, h2, h3, h4⟩ := h
  unfold Buf.produce
  cases hp : c.prod with
  | fetching => exact .inl ⟨h1, h2, h3, h4⟩
  | done => exact .inl ⟨h1, h2, h3, h4⟩
  | sending q completed =>
    cases q with
    | nil => exact .inl ⟨h1, h2, h3, h4⟩
    | cons m q => simp only [h1, Cons.receives]; exact .inl ⟨rfl, h2, h3, .inr rfl⟩
  | waiting =>
    have hb : b.prod = .waiting := by rcases h4 with h | h <;> simp_all
    dsimp only
    split
    · rename_i hr
      refine .inr ?_
      rw [hb]
      simp only [h3, hr, if_true]
      exact ⟨h1, h2, rfl, .inl rfl⟩
    · simp only [h1, Cons.asks]; exact .inl ⟨rfl, h2, h3, .inr rfl⟩

theorem ghost_step {mx : Nat} {src : List (List Resp)} (wf : WellFormed src) {p : Pipe} {w : WorkerTest} {b : Buf WorkerTest}
    (hc : p.runner = .closed true) (hl : Like p.buf b) (h : PI mx src (ghost p w b)) (d : Drawn b) (a : Pipe.Act) :
    ∃ b', Like (Pipe.step p a).buf b' ∧ PI mx src (ghost (Pipe.step p a) w b') ∧ Drawn b' := by
  cases a with
  | fetch =>
    cases hp : p.buf.prod with
    | fetching =>
      have hb : b.prod = .fetching := by rcases hl.prod with h | h <;> simp_all
      have h1 := pi_step wf h .fetch
      have h2 := pipe_drawn_step h d .fetch
      simp only [Pipe.step, Pipe.fetch, ghost, hb] at h1 h2
      simp only [Pipe.step, Pipe.fetch, hp]
      cases hf : p.sys.fetcher.fetch.2 with
      | bundle x => simp only [hf] at h1 h2; exact ⟨_, like_fetch hl hp _, h1, h2⟩
      | error => simp only [hf] at h1 h2; exact ⟨_, like_fetch hl hp none, h1, h2⟩
      | panic => simp only [hf] at h1 h2; exact ⟨_, like_fetch hl hp none, h1, h2⟩
      | waiting => simp only [hf] at h1 h2; exact ⟨_, hl, h1, h2⟩
    | sending q c => simp only [Pipe.step, Pipe.fetch, hp]; exact ⟨b, hl, h, d⟩
    | waiting => simp only [Pipe.step, Pipe.fetch, hp]; exact ⟨b, hl, h, d⟩
    | done => simp only [Pipe.step, Pipe.fetch, hp]; exact ⟨b, hl, h, d⟩
  | produce =>
    rcases like_produce hl with h' | h'
    · exact ⟨b, h', h, d⟩
    · exact ⟨_, h', pi_step wf h .produce, pipe_drawn_step h d .produce⟩
  | consume => simp only [Pipe.step, Pipe.consume, hc]; exact ⟨b, hl, h, d⟩
  | result rs => simp only [Pipe.step, Pipe.result, hc]; exact ⟨b, hl, h, d⟩
  | crash => simp only [Pipe.step, Pipe.crash, hc]; exact ⟨b, hl, h, d⟩
  | timeout => simp only [Pipe.step, Pipe.timeout, hc]; exact ⟨b, hl, h, d⟩
  | send => simp only [Pipe.step, Pipe.send, hc]; exact ⟨b, hl, h, d⟩
  | take =>
    have same : (Pipe.step p .take).buf = p.buf := by
      simp only [Pipe.step, Pipe.take]
      repeat' split
      all_goals rfl
    rw [same]
    cases hch : p.chan with
    | cons m ms =>
      have e : ghost (Pipe.step p .take) w b = Pipe.step (ghost p w b) .take := by
        cases m <;> simp [Pipe.step, Pipe.take, hch, Pipe.handle, ghost]
      exact ⟨b, hl, by rw [e]; exact pi_step wf h .take, d⟩
    | nil =>
      cases he : p.ended with
      | true => simp only [Pipe.step, Pipe.take, hch, hc, he]; exact ⟨b, hl, h, d⟩
      | false =>
        have h' : PI mx src { ghost p w b with chan := [.forceFlush] } :=
          ⟨h.sys, h.buf, h.link, h.prod, h.log, by simpa [ghost, hch, chanResults] using h.flow, h.place, h.atItem, nofun, nofun⟩
        have e : ghost (Pipe.step p .take) w b = Pipe.step { ghost p w b with chan := [.forceFlush] } .take := by
          simp [Pipe.step, Pipe.take, hch, hc, he, Pipe.handle, ghost]
        exact ⟨b, hl, by rw [e]; exact pi_step wf h' .take, d⟩

/-- The invariant of a runner that may fail to start its native runner again. -/
structure Lived (mx : Nat) (src : List (List Resp)) (l : Life) : Prop where
  well : l.failed = false → PI mx src l.pipe ∧ Drawn l.pipe.buf ∧ FewFailing l.pipe
  failed : l.failed = true → l.pipe.runner = .closed true ∧
    ∃ w b, Like l.pipe.buf b ∧ PI mx src (ghost l.pipe w b) ∧ Drawn b ∧ w.runNumber ≠ l.attempt

theorem lived_step {mx : Nat} {src : List (List Resp)} (wf : WellFormed src) {l : Life} (h : Lived mx src l) (a : RunnerEnd.Act) :
    Lived mx src (l.step a) := by
  cases a with
  | pipe a =>
    cases hf : l.failed with
    | false =>
      obtain ⟨h1, h2, h3⟩ := h.well hf
      exact ⟨fun _ => ⟨pi_step wf h1 a, pipe_drawn_step h1 h2 a, few_failing_step h3 a⟩, fun h => by
        rw [show (l.step (.pipe a)).failed = l.failed from rfl, hf] at h; cases h⟩
    | true =>
      obtain ⟨hc, w, b, h1, h2, h3, h4⟩ := h.failed hf
      obtain ⟨b', h5, h6, h7⟩ := ghost_step wf hc h1 h2 h3 a
      refine ⟨(fun h => by rw [show (l.step (.pipe a)).failed = l.failed from rfl, hf] at h; cases h), fun _ =>
        ⟨closed_step _ a true hc, w, b', h5, h6, h7, ?_⟩⟩
      have : l.reconciled a = l.attempt := by
        cases a <;> simp [Life.reconciled, hc]
      simp only [Life.step, this]
      exact h4
  | restartFails =>
    simp only [Life.step]
    split
    · rename_i w hr
      split
      · rename_i hne
        cases hf : l.failed with
        | true => obtain ⟨hc, -⟩ := h.failed hf; rw [hr] at hc; cases hc
        | false =>
          obtain ⟨h1, h2, h3⟩ := h.well hf
          refine ⟨(fun h => by cases h), fun _ => ⟨rfl, w, l.pipe.buf, ⟨rfl, rfl, rfl, .inl rfl⟩, ?_, h2, hne⟩⟩
          have he : l.pipe.ended = false := by
            cases he : l.pipe.ended with
            | false => rfl
            | true =>
              obtain ⟨⟨f, hf⟩, -⟩ := h1.ended he
              rw [hr] at hf; cases hf
          have e : ghost { l.pipe with runner := .closed true, buf := l.pipe.buf.dropped } w l.pipe.buf = l.pipe := by
            unfold ghost
            cases hp : l.pipe
            simp_all
          rw [e]
          exact h1
      · exact h
    · exact h
  | notify =>
    simp only [Life.step]
    split
    · split
      · exact h
      · exact ⟨h.well, h.failed⟩
    · exact h

theorem lived_run {mx : Nat} {src : List (List Resp)} (wf : WellFormed src) (as : List RunnerEnd.Act) {l : Life} (h : Lived mx src l) :
    Lived mx src (l.run as) := by
  induction as generalizing l with
  | nil => exact h
  | cons a as ih => exact ih (lived_step wf h a)

theorem lived_init {mx : Nat} (hmx : 1 ≤ mx) {src : List (List Resp)} (wf : WellFormed src) (batchSize : Nat) :
    Lived mx src (RunnerEnd.init src mx batchSize) :=
  ⟨fun _ => ⟨pi_init mx hmx src wf batchSize, drawn_new batchSize, fun _ hr => by cases hr⟩, fun h => by cases h⟩

/-- **C142.** A runner holds few tests. If the queue never gives it more than `n` at a time, then at any time, also while it reports
that its native runner failed, the tests it was given and has not reported are at most these: the results under way, of which there
are at most `3 * batchSize - 1`; the test that is running; and `2 * n - max 1 (n / 2)` which it was given ahead. -/
theorem C142_held (mx : Nat) (hmx : 1 ≤ mx) (sources : List (List Resp)) (wf : WellFormed sources) (batchSize n : Nat)
    (as : List Pipe.Act) :
    let p := Pipe.run (Pipe.init sources mx batchSize) as
    (∀ d ∈ p.sys.delivered, d.work.length ≤ n) →
    p.given.length ≤ p.reported.length + p.underway.length + 1 + (2 * n - Nat.max 1 (n / 2)) ∧
    p.underway.length ≤ 3 * batchSize - 1 := by
  intro p hn
  have hff : FewFailing p := few_failing as (p := Pipe.init sources mx batchSize) (fun rs hr => by cases hr)
  obtain ⟨d, w⟩ : Drawn p.buf ∧ Narrow batchSize p :=
    pipe_drawn wf batchSize as (pi_init mx hmx sources wf batchSize) (drawn_new batchSize)
      ⟨Nat.mul_comm .., Nat.zero_le _, rfl, Nat.zero_le _⟩
  exact ⟨held_bound (pi_of_run hmx wf batchSize as) d hff n hn, underway_bound w⟩

/-- **C142.** So it is also if the native runner may fail to start again for another attempt. -/
theorem C142_held_restarts (mx : Nat) (hmx : 1 ≤ mx) (sources : List (List Resp)) (wf : WellFormed sources) (batchSize n : Nat)
    (as : List RunnerEnd.Act) :
    let p := ((RunnerEnd.init sources mx batchSize).run as).pipe
    (∀ d ∈ p.sys.delivered, d.work.length ≤ n) →
    p.given.length ≤ p.reported.length + p.underway.length + 1 + (2 * n - Nat.max 1 (n / 2)) ∧
    p.underway.length ≤ 3 * batchSize - 1 := by
  intro p hn
  refine ⟨?_, underway_bound (narrow_run as _ ⟨Nat.mul_comm .., Nat.zero_le _, rfl, Nat.zero_le _⟩)⟩
  have h := lived_run wf as (lived_init hmx wf batchSize)
  cases hf : ((RunnerEnd.init sources mx batchSize).run as).failed with
  | false => exact held_bound (h.well hf).1 (h.well hf).2.1 (h.well hf).2.2 n hn
  | true =>
    obtain ⟨-, w, b, -, h1, d, -⟩ := h.failed hf
    exact held_bound h1 d (fun _ hr => by cases hr) n hn

/-- **C73**, what is not reported: if the native runner could not be started again for a test `w`, then of the tests that were given, in
order, all before `w` are reported or under way, `w` itself and all after it are not. With bundles of at most `n` tests there are at most
`2 * n - max 1 (n / 2)` of the latter. -/
theorem C73_unreported (mx : Nat) (hmx : 1 ≤ mx) (sources : List (List Resp)) (wf : WellFormed sources) (batchSize n : Nat)
    (as : List RunnerEnd.Act) :
    let l := (RunnerEnd.init sources mx batchSize).run as
    l.failed = true →
    ∃ w rest, l.pipe.given.map keyOfTest = (l.pipe.reported ++ l.pipe.underway).map keyOf ++ keyOfTest w :: rest ∧
      w.runNumber ≠ l.attempt ∧
      ((∀ d ∈ l.pipe.sys.delivered, d.work.length ≤ n) → rest.length ≤ 2 * n - Nat.max 1 (n / 2)) := by
  intro l hf
  have h : Lived mx sources l := lived_run wf as (lived_init hmx wf batchSize)
  obtain ⟨-, w, b, -, h1, d, h2⟩ := h.failed hf
  obtain ⟨rest, hr⟩ := (received_prefix h1.buf).map key
  rw [← h1.flow, ← given_eq h1.link] at hr
  have hgiven : l.pipe.given.map keyOfTest = (l.pipe.reported ++ l.pipe.underway).map keyOf ++ keyOfTest w :: rest := by
    have : (l.pipe.reported ++ l.pipe.underway).map keyOf ++ [keyOfTest w] ++ rest = l.pipe.given.map keyOfTest := by
      rw [Pipe.underway, ← List.append_assoc]
      exact hr
    rw [← this]
    simp
  refine ⟨w, rest, hgiven, h2, fun hn => ?_⟩
  have hb := drawn_bound d n (by
    rw [show b.fetched = _ from h1.link]
    intro f hfm
    obtain ⟨x, hx, rfl⟩ := List.mem_map.mp hfm
    exact hn x hx)
  have hl := congrArg List.length h1.flow
  have hpl : flushedOf (ghost l.pipe w b).buf.cons = [] := by
    have := h1.place
    simp only [ghost, Placed] at this ⊢
    rw [this]; rfl
  rw [hpl, List.append_nil] at hl
  have hg := congrArg List.length hr
  have hgl : (ghost l.pipe w b).sys.given.length = b.fetched.flatten.length := by
    rw [given_eq h1.link]; rfl
  simp only [List.length_append, List.length_map] at hl hg
  have hl' : _ = (items b.received).length := hl
  omega

/-- The task that fetches is about to end, its consumer being gone. -/
def Ending (b : Buf WorkerTest) : Prop :=
  b.cons = .gone ∧ (b.prod = .done ∨ (b.prod = .waiting ∧ b.refill = 0) ∨ ∃ m q c, b.prod = .sending (m :: q) c)

theorem ending_produce {b : Buf WorkerTest} (h : Ending b) : b.produce.cons = .gone ∧ b.produce.prod = .done := by
  obtain ⟨h1, h2 | ⟨h2, h3⟩ | ⟨m, q, c, h2⟩⟩ := h
  · simp [Buf.produce, h1, h2]
  · simp [Buf.produce, h1, h2, h3, Cons.asks]
  · simp [Buf.produce, h1, h2, Cons.receives]

/-- A step of a runner whose task has returned and whose fetching is about to end. -/
theorem ending_step {p : Pipe} (hc : p.runner = .closed true) (he : Ending p.buf) (hok : EndOk p) (a : Pipe.Act) :
    Ending (Pipe.step p a).buf ∧
    (p.buf.prod = .done ∨ a = .produce → (Pipe.step p a).buf.prod = .done) ∧
    (a ≠ .take → (Pipe.step p a).chan = p.chan ∧ (Pipe.step p a).ended = p.ended) ∧
    (a = .take → (Pipe.step p a).ended = true ∨ (Pipe.step p a).chan.length + 1 = p.chan.length) := by
  have hnf : p.buf.prod ≠ .fetching := by
    obtain ⟨-, h2 | ⟨h2, -⟩ | ⟨m, q, c, h2⟩⟩ := he <;> rw [h2] <;> simp
  cases a with
  | fetch =>
    have : Pipe.step p .fetch = p := by
      simp only [Pipe.step, Pipe.fetch]
    rw [this]
    exact ⟨he, fun h => h.elim id nofun, fun _ => ⟨rfl, rfl⟩, nofun⟩
  | produce =>
    obtain ⟨h1, h2⟩ := ending_produce he
    exact ⟨⟨h1, .inl h2⟩, fun _ => h2, fun _ => ⟨rfl, rfl⟩, nofun⟩
  | consume => simp only [Pipe.step, Pipe.consume, hc]; exact ⟨he, fun h => h.elim id nofun, fun _ => ⟨trivial, trivial⟩, nofun⟩
  | result rs => simp only [Pipe.step, Pipe.result, hc]; exact ⟨he, fun h => h.elim id nofun, fun _ => ⟨trivial, trivial⟩, nofun⟩
  | crash => simp only [Pipe.step, Pipe.crash, hc]; exact ⟨he, fun h => h.elim id nofun, fun _ => ⟨trivial, trivial⟩, nofun⟩
  | timeout => simp only [Pipe.step, Pipe.timeout, hc]; exact ⟨he, fun h => h.elim id nofun, fun _ => ⟨trivial, trivial⟩, nofun⟩
  | send => simp only [Pipe.step, Pipe.send, hc]; exact ⟨he, fun h => h.elim id nofun, fun _ => ⟨trivial, trivial⟩, nofun⟩
  | take =>
    cases hch : p.chan with
    | cons m ms =>
      cases m <;> simp only [Pipe.step, Pipe.take, hch, Pipe.handle] <;>
        exact ⟨he, fun h => h.elim id nofun, fun h => absurd rfl h, fun _ => .inr rfl⟩
    | nil =>
      simp only [Pipe.step, Pipe.take, hch, hc]
      split
      · rename_i hd; exact ⟨he, fun h => h.elim id nofun, fun h => absurd rfl h, fun _ => .inl hd⟩
      · exact ⟨he, fun h => h.elim id nofun, fun h => absurd rfl h, fun _ => .inl rfl⟩

theorem ending_run (bs : List RunnerEnd.Act) : ∀ (l : Life), l.failed = true → l.pipe.runner = .closed true → Ending l.pipe.buf →
    EndOk l.pipe → (l.pipe.buf.prod = .done ∨ .pipe .produce ∈ bs) → (l.pipe.ended = true ∨ l.pipe.chan.length < bs.count (.pipe .take)) →
    (l.run bs).finished = true := by
  induction bs with
  | nil =>
    intro l hf hc he hok hd ht
    have hd' : l.pipe.buf.prod = .done := hd.elim id nofun
    have ht' : l.pipe.ended = true := ht.elim id (fun h => by simp at h)
    show l.finished = true
    simp [Life.finished, Pipe.finished, hc, hd', ht', hf, Prod.alive]
  | cons b bs ih =>
    intro l hf hc he hok hd ht
    rw [run_cons]
    cases b with
    | pipe a =>
      obtain ⟨h1, h2, h3, h4⟩ := ending_step hc he hok a
      refine ih (l.step (.pipe a)) hf (closed_step _ a true hc) h1 (endOk_step hok a) ?_ ?_
      · rcases hd with hd | hd
        · exact .inl (h2 (.inl hd))
        · rcases List.mem_cons.mp hd with hd | hd
          · cases hd; exact .inl (h2 (.inr rfl))
          · exact .inr hd
      · by_cases ha : a = .take
        · subst ha
          rcases h4 rfl with h | h
          · exact .inl h
          · rcases ht with ht | ht
            · have := (hok ht).2.1
              rw [this] at h
              simp at h
            · rw [List.count_cons_self] at ht
              exact .inr (by show (Pipe.step l.pipe .take).chan.length < _; omega)
        · obtain ⟨h5, h6⟩ := h3 ha
          rcases ht with ht | ht
          · exact .inl (by show (Pipe.step l.pipe a).ended = true; rw [h6, ht])
          · rw [List.count_cons_of_ne (by simpa using ha)] at ht
            exact .inr (by show (Pipe.step l.pipe a).chan.length < _; rw [h5]; exact ht)
    | restartFails =>
      have e : l.step .restartFails = l := by simp [Life.step, hc]
      rw [e]
      refine ih l hf hc he hok (hd.imp_right fun h => ?_) (ht.imp_right fun h => ?_)
      · simpa using h
      · simpa [List.count_cons] using h
    | notify =>
      have e : l.step .notify = l := by simp [Life.step, hc, hf]
      rw [e]
      refine ih l hf hc he hok (hd.imp_right fun h => ?_) (ht.imp_right fun h => ?_)
      · simpa using h
      · simpa [List.count_cons] using h

/-- **C73**, when the runner ends: if the native runner could not be started again, and the task that fetches tests is neither fetching
nor about to, then the three tasks end, however they are scheduled, as soon as that task had a turn and the task that sends results as many
as there are messages for it and one more.

Missing: if it is fetching, it may wait for ever, see `C73_full_statement_fails`; and what was not run is not reported, see
`C73_unreported`. -/
theorem C73_ends_partial (mx : Nat) (hmx : 1 ≤ mx) (sources : List (List Resp)) (wf : WellFormed sources) (batchSize : Nat)
    (as : List RunnerEnd.Act) :
    let l := (RunnerEnd.init sources mx batchSize).run as
    l.failed = true → l.pipe.buf.prod ≠ .fetching → (l.pipe.buf.prod = .waiting → l.pipe.buf.refill = 0) →
    ∀ bs, .pipe .produce ∈ bs → l.pipe.chan.length < bs.count (.pipe .take) → (l.run bs).finished = true := by
  intro l hf hp hr bs hb ht
  have h : Lived mx sources l := lived_run wf as (lived_init hmx wf batchSize)
  obtain ⟨hc, w, b, hl, h1, -, -⟩ := h.failed hf
  have hok : EndOk l.pipe := by
    have : ∀ (as : List RunnerEnd.Act) (l : Life), EndOk l.pipe → EndOk (l.run as).pipe := by
      intro as
      induction as with
      | nil => exact fun _ h => h
      | cons a as ih =>
        intro l h
        refine ih (l.step a) ?_
        cases a with
        | pipe a => exact endOk_step h a
        | restartFails =>
          simp only [Life.step]
          split
          · rename_i w hr
            split
            · intro he
              obtain ⟨⟨b, hb⟩, -⟩ := h he
              rw [hr] at hb; cases hb
            · exact h
          · exact h
        | notify =>
          simp only [Life.step]
          split
          · split <;> exact h
          · exact h
    exact this as _ (fun h => by cases h)
  refine ending_run bs l hf hc ⟨hl.gone, ?_⟩ hok (.inr hb) (.inr ht)
  cases hpr : l.pipe.buf.prod with
  | fetching => exact absurd hpr hp
  | done => exact .inl rfl
  | waiting => exact .inr (.inl ⟨rfl, hr hpr⟩)
  | sending q c =>
    cases q with
    | cons m q => exact .inr (.inr ⟨m, q, c, rfl⟩)
    | nil =>
      have hbp : b.prod = .sending [] c := by
        rcases hl.prod with h | h
        · rw [h, hpr]
        · rw [hpr] at h; cases h
      have hcons : b.cons = .ready := h1.place
      cases h1.buf with
      | live cur frames old B lv => exact absurd rfl (lv.queue [] c hbp)
      | flush acc f =>
        rcases f.state with h' | ⟨h', -, -⟩ <;> (have h' : b.cons = _ := h'; rw [hcons] at h'; cases h')
      | gone g => have h' : b.cons = _ := g.gone; rw [hcons] at h'; cases h'

/-- Bundles of four: the second was fetched when two of the first were returned, and the bound is met. -/
example :
    let as : List (MsgBuf.Act Nat) := [.fetch (some ([10, 11, 12, 13], false))] ++ List.replicate 6 .produce ++
      List.replicate 4 .consume ++ [.produce, .fetch (some ([20, 21, 22, 23], false))]
    let b := MsgBuf.run (Buf.new Nat 4) as
    b.fetched.filter (fun f => !f.isEmpty) = [] ++ [10, 11, 12, 13] :: [20, 21, 22, 23] :: [] ∧ items b.received = [10, 11] ∧
    (∀ f ∈ b.fetched, f.length ≤ 4) ∧ b.fetched.flatten.length = (items b.received).length + (2 * 4 - Nat.max 1 (4 / 2)) := by
  decide

/-- It is a schedule in which empty bundles only come at the end. -/
example : Proper ([.fetch (some ([10, 11, 12, 13], false))] ++ List.replicate 6 .produce ++
    List.replicate 4 .consume ++ [.produce, .fetch (some ([20, 21, 22, 23], false))] : List (MsgBuf.Act Nat)) := by
  intro a ha c h
  subst h
  simp [List.replicate] at ha

/-- Two bundles of two. -/
def aheadTests : List (List Resp) :=
  [[.bundle ⟨[⟨⟨1, 1, none⟩, 1⟩, ⟨⟨2, 2, none⟩, 1⟩], false⟩, .bundle ⟨[⟨⟨3, 3, none⟩, 1⟩, ⟨⟨4, 4, none⟩, 1⟩], false⟩,
    .bundle ⟨[], true⟩]]

theorem aheadTests_wellFormed : WellFormed aheadTests where
  some := by decide
  ends := by simp [aheadTests, Ends]
  once := by decide
  first := by decide

set_option maxRecDepth 20000 in
/-- The first test is running and all others were given: as many as the bound says. -/
example :
    let p := Pipe.run (Pipe.init aheadTests 1 4)
      [.fetch, .produce, .produce, .produce, .produce, .consume, .consume, .consume, .produce, .fetch]
    p.runner = .running ⟨⟨1, 1, none⟩, 1⟩ ∧ (∀ d ∈ p.sys.delivered, d.work.length ≤ 2) ∧
    p.given.length = p.reported.length + p.underway.length + 1 + (2 * 2 - Nat.max 1 (2 / 2)) := by decide

set_option maxRecDepth 20000 in
/-- The native runner failed on the first test; its failure was sent, and three more are to be reported. -/
example :
    let p := Pipe.run (Pipe.init aheadTests 1 4) ([.fetch, .produce, .produce, .produce, .produce, .consume, .consume, .consume,
      .produce, .fetch, .crash] ++ List.replicate 5 .produce ++ List.replicate 8 .consume ++ [.produce, .fetch, .produce, .consume, .send])
    p.runner = .failing [⟨2, 1, [⟨0, true⟩]⟩, ⟨3, 1, [⟨0, true⟩]⟩, ⟨4, 1, [⟨0, true⟩]⟩] ∧
    (∀ d ∈ p.sys.delivered, d.work.length ≤ 2) ∧ p.given.length = 4 ∧ p.reported.length + p.underway.length = 1 := by decide

set_option maxRecDepth 20000 in
/-- The native runner cannot be started again for the second attempt: the test was given twice and reported once. -/
example :
    let l := (RunnerEnd.init pipeOne 3 1).run restartActs
    l.failed = true ∧ (∀ d ∈ l.pipe.sys.delivered, d.work.length ≤ 1) ∧ l.pipe.given.length = 2 ∧ l.pipe.reported.length = 1 := by decide

set_option maxRecDepth 20000 in
/-- As before, but the task that fetches has not yet sent all of the last bundle when the native runner cannot be started again. -/
example :
    let l := (RunnerEnd.init pipeOne 3 1).run (restartActs.take 20 ++ [.restartFails])
    l.failed = true ∧ l.pipe.buf.prod = .sending [.forceFlush] false ∧ l.pipe.chan.length = 0 ∧
    (l.run [.pipe .fetch, .pipe .take, .pipe .produce]).finished = true := by decide

end Abq.Props
