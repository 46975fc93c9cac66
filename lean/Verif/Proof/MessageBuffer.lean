import Verif.Spec.MessageBuffer

/-! # The prefetching buffer (C28) -/

namespace Abq.MsgBuf
open Spec

variable {α : Type}

def sendq : Prod α → List (Msg α)
  | .sending q _ => q
  | _ => []

@[simp] theorem sendq_fetching : sendq (.fetching : Prod α) = [] := rfl
@[simp] theorem sendq_waiting : sendq (.waiting : Prod α) = [] := rfl
@[simp] theorem sendq_done : sendq (.done : Prod α) = [] := rfl
@[simp] theorem sendq_sending (q : List (Msg α)) (c : Bool) : sendq (.sending q c) = q := rfl
@[simp] theorem sendq_afterBatch (c : Bool) : sendq (afterBatch c : Prod α) = [] := by
  cases c <;> rfl
@[simp] theorem sendq_afterSend (q : List (Msg α)) (c : Bool) : sendq (afterSend q c) = q := by
  cases q with
  | nil => cases c <;> rfl
  | cons a b => rfl

def pending (b : Buf α) : List (Msg α) := b.chan ++ sendq b.prod

def toRecv : List (Msg α) → List (Recv α)
  | [] => []
  | .batchSize _ :: ms => toRecv ms
  | .item x :: ms => .item x :: toRecv ms
  | .forceFlush :: ms => .flushProcessed :: toRecv ms

def itemsM : List (Msg α) → List α
  | [] => []
  | .item x :: ms => x :: itemsM ms
  | .batchSize _ :: ms => itemsM ms
  | .forceFlush :: ms => itemsM ms

theorem toRecv_append (a b : List (Msg α)) : toRecv (a ++ b) = toRecv a ++ toRecv b := by
  induction a with
  | nil => rfl
  | cons m a ih => cases m <;> simp [toRecv, ih]

theorem itemsM_append (a b : List (Msg α)) : itemsM (a ++ b) = itemsM a ++ itemsM b := by
  induction a with
  | nil => rfl
  | cons m a ih => cases m <;> simp [itemsM, ih]

theorem toRecv_items (xs : List α) : toRecv (xs.map .item) = xs.map .item := by
  induction xs with
  | nil => rfl
  | cons x xs ih => simp [toRecv, ih]

theorem itemsM_items (xs : List α) : itemsM (xs.map .item) = xs := by
  induction xs with
  | nil => rfl
  | cons x xs ih => simp [itemsM, ih]

theorem toRecv_frame (xs : List α) (h : xs ≠ []) : toRecv (frame xs) = seen xs := by
  cases xs with
  | nil => exact absurd rfl h
  | cons x xs => simp [frame, toRecv, seen, toRecv_append, toRecv_items]

theorem itemsM_frame (xs : List α) : itemsM (frame xs) = xs := by
  simp [frame, itemsM, itemsM_append, itemsM_items]

theorem items_append (a b : List (Recv α)) : items (a ++ b) = items a ++ items b := by
  simp [items]

theorem items_map (xs : List α) : items (xs.map Recv.item) = xs := by
  induction xs with
  | nil => rfl
  | cons x xs ih =>
    have : items (Recv.item x :: xs.map Recv.item) = x :: items (xs.map Recv.item) := by simp [items]
    rw [List.map_cons, this, ih]

theorem items_seen (xs : List α) : items (seen xs) = xs := by
  cases xs with
  | nil => rfl
  | cons x xs =>
    simp only [seen]
    rw [items_append, items_map]
    simp [items]

theorem items_expected (bs : List (List α)) : items (expected bs) = bs.flatten := by
  induction bs with
  | nil => rfl
  | cons b bs ih =>
    have : expected (b :: bs) = seen b ++ expected bs := by simp [expected]
    rw [this, items_append, items_seen, ih]
    simp

theorem items_toRecv (ms : List (Msg α)) : items (toRecv ms) = itemsM ms := by
  induction ms with
  | nil => rfl
  | cons m ms ih => cases m <;> simp_all [toRecv, itemsM, items]

def held : Cons α → List (Recv α)
  | .asking x => [.item x]
  | _ => []

/-- What is left in the pipe of the batch the consumer is in. -/
def curMsgs : Option (List α) → List (Msg α)
  | none => []
  | some rest => rest.map .item ++ [.forceFlush]

def single (B : List α) : List (List α) :=
  match B with
  | [] => []
  | x :: xs => [x :: xs]

def isFetching : Prod α → Nat
  | .fetching => 1
  | _ => 0

def canAsk (eligible : Bool) (B : List α) : Nat := if eligible && !B.isEmpty then 1 else 0

/-- While the consumer calls `recv`. -/
structure Live (b : Buf α) (cur : Option (List α)) (frames old : List (List α)) (B : List α) : Prop where
  fine : b.panicked = false
  asks : b.cons.asks = true
  pend : pending b = curMsgs cur ++ frames.flatMap frame
  nonempty : ∀ f ∈ frames, f ≠ []
  split : b.fetched.filter (fun f => !f.isEmpty) = old ++ single B ++ frames
  size : b.size = B.length
  cnt : ∀ rest, cur = some rest → b.size = b.processed + rest.length ∧ B ≠ []
  need : b.cons = .needItem → b.processed = 0 ∧ b.eligible = true ∧ ∃ x rest, cur = some (x :: rest)
  ask : ∀ x, b.cons = .asking x → b.eligible = true ∧ (∃ rest, cur = some rest) ∧
    1 ≤ b.processed ∧ (b.processed = 1 ∨ b.processed - 1 < b.size / 2)
  rdy : b.cons = .ready → b.eligible = true → B ≠ [] → (∃ rest, cur = some rest) ∧
    1 ≤ b.processed ∧ b.processed < b.size / 2
  queue : ∀ q c, b.prod = .sending q c → q ≠ []
  flow : b.received ++ held b.cons ++ toRecv (pending b) = expected b.fetched
  refill : b.refill ≤ 1
  token : b.prod.alive = true →
    frames.length + canAsk b.eligible B + b.refill + isFetching b.prod = 1

theorem seen_ne (f : List α) (h : f.isEmpty = true) : seen f = [] := by
  cases f with
  | nil => rfl
  | cons a b => simp at h

theorem live_fetch {b : Buf α} {cur : Option (List α)} {frames old : List (List α)} {B : List α}
    (l : Live b cur frames old B) (r : Option (List α × Bool))
    (hr : ∀ c, r = some ([], c) → c = true) :
    ∃ frames', Live (b.fetch r) cur frames' old B := by
  unfold Buf.fetch
  cases hp : b.prod with
  | fetching =>
    have hq : sendq b.prod = [] := by rw [hp]; rfl
    have htok := l.token (by rw [hp]; rfl)
    rw [hp] at htok
    simp only [isFetching] at htok
    have hfr : frames = [] := List.length_eq_zero_iff.mp (by omega)
    dsimp only
    have hpend : pending b = b.chan := by simp [pending, hq]
    have hlp := l.pend
    have hlf := l.flow
    rw [hpend] at hlp hlf
    cases r with
    | none =>
      refine ⟨frames, ?_⟩
      exact { l with
        pend := by simpa [pending] using hlp
        queue := by simp
        flow := by simpa [pending] using hlf
        token := by simp [Prod.alive] }
    | some p =>
      obtain ⟨xs, c⟩ := p
      cases xs with
      | nil =>
        have hc := hr c rfl
        subst hc
        refine ⟨frames, ?_⟩
        exact { l with
          pend := by simpa [pending] using hlp
          split := by simpa using l.split
          queue := by simp [afterBatch]
          flow := by
            simpa [pending, expected, seen] using hlf
          token := by simp [Prod.alive, afterBatch] }
      | cons x xs =>
        refine ⟨[x :: xs], ?_⟩
        have hl := hlp
        rw [hfr] at hl
        simp only [List.flatMap_nil, List.append_nil] at hl
        exact { l with
          pend := by simp [pending, hl]
          nonempty := by simp
          split := by
            have := l.split
            rw [hfr] at this
            simp only [List.append_nil] at this
            simp [this]
          queue := by
            intro q c' h
            simp only [Prod.sending.injEq] at h
            rw [← h.1]
            simp [frame]
          flow := by
            simp only [pending, sendq_sending, toRecv_append, ← List.append_assoc]
            rw [hlf, toRecv_frame _ (by simp)]
            simp [expected]
          token := by
            intro _
            rw [hfr] at htok
            simp only [isFetching, List.length_singleton]
            simp only [List.length_nil] at htok
            omega }
  | sending q c => exact ⟨frames, l⟩
  | waiting => exact ⟨frames, l⟩
  | done => exact ⟨frames, l⟩

theorem live_produce {b : Buf α} {cur : Option (List α)} {frames old : List (List α)} {B : List α}
    (l : Live b cur frames old B) : Live b.produce cur frames old B := by
  have hrec : b.cons.receives = true := by
    have := l.asks
    cases hc : b.cons <;> rw [hc] at this <;> simp_all [Cons.asks, Cons.receives]
  unfold Buf.produce
  cases hp : b.prod with
  | fetching => exact l
  | done => exact l
  | sending q c =>
    cases q with
    | nil => exact absurd rfl (l.queue [] c hp)
    | cons m q =>
      dsimp only
      rw [hrec]
      simp only [Bool.not_true, Bool.false_eq_true, if_false]
      split
      · have hpend : pending { b with chan := b.chan ++ [m], prod := afterSend q c } = pending b := by
          simp [pending, hp]
        have hnf : isFetching (afterSend q c) = 0 := by
          cases q with
          | nil => cases c <;> rfl
          | cons a b => rfl
        exact { l with
          pend := by rw [hpend]; exact l.pend
          queue := by
            intro q' c' h
            cases q with
            | nil => cases c <;> simp [afterBatch, afterSend] at h
            | cons a b => simp [afterSend] at h; rw [← h.1]; simp
          flow := by rw [hpend]; exact l.flow
          token := by
            intro _
            have := l.token (by rw [hp]; rfl)
            rw [hp] at this
            simp only [hnf]
            simpa [isFetching] using this }
      · exact l
  | waiting =>
    dsimp only
    split
    · rename_i hr
      exact { l with
        pend := by rw [← l.pend]; simp [pending, hp]
        queue := by simp
        flow := by have := l.flow; simpa [pending, hp] using this
        refill := by have := l.refill; dsimp only; omega
        token := by
          intro _
          have := l.token (by rw [hp]; rfl)
          rw [hp] at this
          simp only [isFetching] at this ⊢
          omega }
    · rw [l.asks]
      exact l

/-- The consumer takes an item of its batch. -/
theorem live_take {b : Buf α} {x : α} {rest : List α} {ms : List (Msg α)} {frames old : List (List α)}
    {B : List α} (l : Live b (some (x :: rest)) frames old B) (hchan : b.chan = .item x :: ms)
    (hcons : b.cons = .ready ∨ b.cons = .needItem) :
    Live ({ b with chan := ms }.take x) (some rest) frames old B := by
  obtain ⟨hcnt, hB⟩ := l.cnt _ rfl
  simp only [List.length_cons] at hcnt
  have hpend : ms ++ sendq b.prod = curMsgs (some rest) ++ frames.flatMap frame := by
    have := l.pend
    simp only [pending, hchan, curMsgs, List.map_cons, List.cons_append, List.cons.injEq, true_and] at this
    simpa [curMsgs] using this
  have hheld : held b.cons = [] := by rcases hcons with h | h <;> rw [h] <;> rfl
  have hflow := l.flow
  rw [hheld] at hflow
  simp only [pending, hchan, List.cons_append, toRecv, List.append_nil] at hflow
  unfold Buf.take
  dsimp only
  split
  · rename_i hask
    simp only [Bool.and_eq_true, decide_eq_true_eq] at hask
    exact
      { fine := l.fine
        asks := rfl
        pend := hpend
        nonempty := l.nonempty
        split := l.split
        size := l.size
        cnt := by
          intro r hr
          simp only [Option.some.injEq] at hr
          subst hr
          exact ⟨by dsimp only; omega, hB⟩
        need := by simp
        ask := by
          intro y hy
          refine ⟨hask.1, ⟨rest, rfl⟩, by simp, ?_⟩
          rcases hcons with h | h
          · have := (l.rdy h hask.1 hB).2
            dsimp only
            omega
          · left
            have := (l.need h).1
            dsimp only
            omega
        rdy := by simp
        queue := l.queue
        flow := by
          simp only [pending, held]
          simpa using hflow
        refill := l.refill
        token := l.token }
  · rename_i hask
    exact
      { fine := l.fine
        asks := rfl
        pend := hpend
        nonempty := l.nonempty
        split := l.split
        size := l.size
        cnt := by
          intro r hr
          simp only [Option.some.injEq] at hr
          subst hr
          exact ⟨by dsimp only; omega, hB⟩
        need := by simp
        ask := by simp
        rdy := by
          intro _ he _
          refine ⟨⟨rest, rfl⟩, by simp, ?_⟩
          dsimp only at he ⊢
          simp only [he, Bool.true_and, decide_eq_true_eq] at hask
          omega
        queue := l.queue
        flow := by
          simp only [pending, held]
          simpa using hflow
        refill := l.refill
        token := l.token }

/-- After the consumer left. -/
structure Gone (b : Buf α) : Prop where
  fine : b.panicked = false
  gone : b.cons = .gone
  done : b.prod = .done
  all : b.received = expected b.fetched

theorem live_consume {b : Buf α} {cur : Option (List α)} {frames old : List (List α)} {B : List α}
    (l : Live b cur frames old B) :
    (∃ cur' frames' old' B', Live b.consume cur' frames' old' B') ∨ Gone b.consume := by
  have hsame : b.consume = b → (∃ cur' frames' old' B', Live b.consume cur' frames' old' B') ∨ Gone b.consume :=
    fun h => .inl ⟨cur, frames, old, B, by rw [h]; exact l⟩
  have hend : b.chan = [] → b.prod.alive = false → held b.cons = [] → b.received = expected b.fetched := by
    intro h1 h2 h3
    have := l.flow
    have hp : b.prod = .done := by
      cases hp : b.prod <;> rw [hp] at h2 <;> simp_all [Prod.alive]
    simpa [pending, h1, h3, hp, toRecv] using this
  cases hc : b.cons with
  | ready =>
    cases hch : b.chan with
    | nil =>
      cases ha : b.prod.alive with
      | true => exact hsame (by simp [Buf.consume, hc, hch, ha])
      | false =>
        right
        have hp : b.prod = .done := by
          cases hp : b.prod <;> rw [hp] at ha <;> simp_all [Prod.alive]
        have := hend hch ha (by rw [hc]; rfl)
        simp only [Buf.consume, hc, hch, ha, Bool.false_eq_true, if_false]
        exact ⟨l.fine, rfl, hp, this⟩
    | cons m ms =>
      have hpend := l.pend
      have hflow := l.flow
      simp only [pending, hch, List.cons_append] at hpend
      simp only [pending, hch, List.cons_append, hc, held, List.append_nil] at hflow
      cases m with
      | batchSize n =>
        left
        cases cur with
        | some rest =>
          cases rest <;> simp [curMsgs] at hpend
        | none =>
          cases frames with
          | nil => simp [curMsgs] at hpend
          | cons f fs =>
            simp only [curMsgs, List.nil_append, List.flatMap_cons, frame, List.cons_append,
              List.cons.injEq, Msg.batchSize.injEq, List.append_assoc] at hpend
            obtain ⟨rfl, hpend⟩ := hpend
            have hf : f ≠ [] := l.nonempty f (by simp)
            cases hfc : f with
            | nil => exact absurd hfc hf
            | cons x xs =>
            subst hfc
            refine ⟨some (x :: xs), fs, old ++ single B, x :: xs, ?_⟩
            simp only [Buf.consume, hc, hch]
            exact
              { fine := l.fine
                asks := rfl
                pend := by simpa [pending, curMsgs, frame] using hpend
                nonempty := fun g hg => l.nonempty g (by simp [hg])
                split := by
                  rw [l.split]
                  simp [single]
                size := rfl
                cnt := by
                  intro r hr
                  simp only [Option.some.injEq] at hr
                  subst hr
                  simp
                need := fun _ => ⟨rfl, rfl, x, xs, rfl⟩
                ask := by simp
                rdy := by simp
                queue := l.queue
                flow := by
                  simp only [toRecv] at hflow
                  simpa [pending, held] using hflow
                refill := l.refill
                token := by
                  intro ha
                  have htok := l.token ha
                  have h0 : canAsk b.eligible B = 0 := by
                    cases he : b.eligible with
                    | false => simp [canAsk]
                    | true =>
                      cases hB : B with
                      | nil => simp [canAsk]
                      | cons y ys =>
                        have := (l.rdy hc he (by simp [hB])).1
                        simp at this
                  rw [h0] at htok
                  simp only [List.length_cons] at htok
                  simp only [canAsk, List.isEmpty_cons, Bool.not_false, Bool.and_self, if_true]
                  omega }
      | item x =>
        left
        cases cur with
        | none =>
          cases frames with
          | nil => simp [curMsgs] at hpend
          | cons f fs => simp [curMsgs, frame] at hpend
        | some rest =>
          cases rest with
          | nil => simp [curMsgs] at hpend
          | cons y rest =>
            simp only [curMsgs, List.map_cons, List.cons_append, List.cons.injEq, Msg.item.injEq] at hpend
            obtain ⟨rfl, -⟩ := hpend
            refine ⟨some rest, frames, old, B, ?_⟩
            have := live_take l hch (.inl hc)
            simpa only [Buf.consume, hc, hch] using this
      | forceFlush =>
        left
        cases cur with
        | none =>
          cases frames with
          | nil => simp [curMsgs] at hpend
          | cons f fs => simp [curMsgs, frame] at hpend
        | some rest =>
          cases rest with
          | cons y rest => simp [curMsgs] at hpend
          | nil =>
            simp only [curMsgs, List.map_nil, List.nil_append, List.cons_append, List.cons.injEq,
              true_and] at hpend
            refine ⟨none, frames, old, B, ?_⟩
            simp only [Buf.consume, hc, hch]
            obtain ⟨hcnt, hB⟩ := l.cnt _ rfl
            simp only [List.length_nil, Nat.add_zero] at hcnt
            exact
              { fine := l.fine
                asks := by rfl
                pend := by simpa [pending, curMsgs] using hpend
                nonempty := l.nonempty
                split := l.split
                size := l.size
                cnt := by simp
                need := by simp
                ask := by simp
                rdy := by
                  intro _ he hB'
                  have := (l.rdy hc he hB').2
                  omega
                queue := l.queue
                flow := by
                  simp only [toRecv] at hflow
                  simpa [pending, held] using hflow
                refill := l.refill
                token := l.token }
  | needItem =>
    obtain ⟨h1, h2, x, rest, rfl⟩ := l.need hc
    have hpend := l.pend
    cases hch : b.chan with
    | nil =>
      cases ha : b.prod.alive with
      | true => exact hsame (by simp [Buf.consume, hc, hch, ha])
      | false =>
        have hp : b.prod = .done := by
          cases hp : b.prod <;> rw [hp] at ha <;> simp_all [Prod.alive]
        simp [pending, hch, hp, curMsgs] at hpend
    | cons m ms =>
      simp only [pending, hch, List.cons_append, curMsgs, List.map_cons, List.cons.injEq] at hpend
      obtain ⟨rfl, -⟩ := hpend
      left
      refine ⟨some rest, frames, old, B, ?_⟩
      have := live_take l hch (.inr hc)
      simpa only [Buf.consume, hc, hch] using this
  | asking x =>
    obtain ⟨he, ⟨rest, rfl⟩, hp1, hp2⟩ := l.ask x hc
    obtain ⟨hcnt, hB⟩ := l.cnt _ rfl
    have hca : canAsk b.eligible B = 1 := by
      cases hB' : B with
      | nil => exact absurd hB' hB
      | cons y ys => simp [canAsk, he]
    have hflow := l.flow
    rw [hc] at hflow
    simp only [held] at hflow
    left
    refine ⟨some rest, frames, old, B, ?_⟩
    cases ha : b.prod.alive with
    | false =>
      simp only [Buf.consume, hc, ha, Bool.not_false, if_true]
      exact
        { fine := l.fine
          asks := rfl
          pend := l.pend
          nonempty := l.nonempty
          split := l.split
          size := l.size
          cnt := l.cnt
          need := by simp
          ask := by simp
          rdy := by simp
          queue := l.queue
          flow := by simpa [pending, held] using hflow
          refill := l.refill
          token := by
            intro ha'
            dsimp only at ha'
            rw [ha] at ha'; cases ha' }
    | true =>
      have htok := l.token ha
      rw [hca] at htok
      have hr : b.refill < 1 := by omega
      simp only [Buf.consume, hc, ha, Bool.not_true, Bool.false_eq_true, if_false, hr, if_true]
      exact
        { fine := l.fine
          asks := rfl
          pend := l.pend
          nonempty := l.nonempty
          split := l.split
          size := l.size
          cnt := l.cnt
          need := by simp
          ask := by simp
          rdy := by simp
          queue := l.queue
          flow := by simpa [pending, held] using hflow
          refill := by dsimp only; omega
          token := by
            intro _
            simp only [canAsk, Bool.false_and, Bool.false_eq_true, if_false]
            omega }
  | flushing acc => have := l.asks; rw [hc] at this; cases this
  | flushed acc => have := l.asks; rw [hc] at this; cases this
  | gone => have := l.asks; rw [hc] at this; cases this

/-- Flushing. -/
structure Flush (b : Buf α) (acc : List α) : Prop where
  fine : b.panicked = false
  state : b.cons = .flushing acc ∨ (b.cons = .flushed acc ∧ b.prod = .done ∧ b.chan = [])
  queue : ∀ q c, b.prod = .sending q c → q ≠ []
  flow : items b.received ++ acc ++ itemsM (pending b) = b.fetched.flatten
  refill : b.refill ≤ 1
  pre : b.received <+: expected b.fetched

theorem live_startFlush {b : Buf α} {cur : Option (List α)} {frames old : List (List α)} {B : List α}
    (l : Live b cur frames old B) : Live b.startFlush cur frames old B ∨ Flush b.startFlush [] := by
  unfold Buf.startFlush
  cases hc : b.cons with
  | ready =>
    right
    refine ⟨l.fine, .inl rfl, l.queue, ?_, l.refill, ?_⟩
    rotate_left
    · exact ⟨held b.cons ++ toRecv (pending b), by have := l.flow; rw [← this]; simp⟩
    have := congrArg items l.flow
    rw [hc] at this
    simp only [held, List.append_nil, items_append, items_toRecv, items_expected] at this
    simpa [pending] using this
  | needItem => exact .inl l
  | asking x => exact .inl l
  | flushing acc => exact .inl l
  | flushed acc => exact .inl l
  | gone => exact .inl l

theorem flush_fetch {b : Buf α} {acc : List α} (f : Flush b acc) (r : Option (List α × Bool)) :
    Flush (b.fetch r) acc := by
  unfold Buf.fetch
  cases hp : b.prod with
  | fetching =>
    have hst : b.cons = .flushing acc := by
      rcases f.state with h | ⟨-, h, -⟩
      · exact h
      · rw [hp] at h; cases h
    have hflow := f.flow
    simp only [pending, hp, sendq_fetching, List.append_nil] at hflow
    have hpre : ∀ xs, b.received <+: expected (b.fetched ++ [xs]) := fun xs =>
      f.pre.trans ⟨seen xs, by simp [expected]⟩
    dsimp only
    cases r with
    | none =>
      exact ⟨f.fine, .inl hst, by simp, by simpa [pending] using hflow, f.refill, f.pre⟩
    | some p =>
      obtain ⟨xs, c⟩ := p
      cases xs with
      | nil =>
        refine ⟨f.fine, .inl hst, ?_, by simpa [pending] using hflow, f.refill, hpre _⟩
        cases c <;> simp [afterBatch]
      | cons x xs =>
        refine ⟨f.fine, .inl hst, ?_, ?_, f.refill, hpre _⟩
        · intro q c' h
          simp only [Prod.sending.injEq] at h
          rw [← h.1]
          simp [frame]
        · simp only [pending, sendq_sending, itemsM_append, itemsM_frame, ← List.append_assoc, hflow]
          simp
  | sending q c => exact f
  | waiting => exact f
  | done => exact f

theorem flush_produce {b : Buf α} {acc : List α} (f : Flush b acc) : Flush b.produce acc := by
  have hfl : b.prod ≠ .done → b.cons = .flushing acc := by
    intro h
    rcases f.state with h' | ⟨-, h', -⟩
    · exact h'
    · exact absurd h' h
  have hflow := f.flow
  unfold Buf.produce
  cases hp : b.prod with
  | fetching => exact f
  | done => exact f
  | sending q c =>
    have hst := hfl (by simp [hp])
    cases q with
    | nil => exact absurd rfl (f.queue [] c hp)
    | cons m q =>
      dsimp only
      rw [hst]
      simp only [Cons.receives, Bool.not_true, Bool.false_eq_true, if_false]
      split
      · refine ⟨f.fine, .inl rfl, ?_, ?_, f.refill, f.pre⟩
        · intro q' c' h
          cases q with
          | nil => cases c <;> simp [afterBatch, afterSend] at h
          | cons a b => simp [afterSend] at h; rw [← h.1]; simp
        · simpa [pending, hp] using hflow
      · exact f
  | waiting =>
    have hst := hfl (by simp [hp])
    dsimp only
    rw [hst]
    simp only [Cons.asks, Bool.not_false, if_true]
    split
    · refine ⟨f.fine, .inl rfl, by simp, by simpa [pending, hp] using hflow, ?_, f.pre⟩
      have := f.refill
      dsimp only
      omega
    · exact ⟨f.fine, .inl rfl, by simp, by simpa [pending, hp] using hflow, f.refill, f.pre⟩

theorem flush_consume {b : Buf α} {acc : List α} (f : Flush b acc) : ∃ acc', Flush b.consume acc' := by
  rcases f.state with hc | ⟨hc, hp, hch⟩
  · have hflow := f.flow
    cases hch : b.chan with
    | nil =>
      cases ha : b.prod.alive with
      | true =>
        refine ⟨acc, ?_⟩
        simp only [Buf.consume, hc, hch, ha, if_true]
        exact f
      | false =>
        have hp : b.prod = .done := by
          cases hp : b.prod <;> rw [hp] at ha <;> simp_all [Prod.alive]
        refine ⟨acc, ?_⟩
        simp only [Buf.consume, hc, hch, ha, Bool.false_eq_true, if_false]
        exact ⟨f.fine, .inr ⟨rfl, hp, rfl⟩, f.queue, by simpa [pending, hch] using hflow, f.refill, f.pre⟩
    | cons m ms =>
      simp only [pending, hch, List.cons_append] at hflow
      cases m with
      | item x =>
        refine ⟨acc ++ [x], ?_⟩
        simp only [Buf.consume, hc, hch]
        exact ⟨f.fine, .inl rfl, f.queue, by simpa [pending, itemsM] using hflow, f.refill, f.pre⟩
      | batchSize n =>
        refine ⟨acc, ?_⟩
        simp only [Buf.consume, hc, hch]
        exact ⟨f.fine, .inl rfl, f.queue, by simpa [pending, itemsM] using hflow, f.refill, f.pre⟩
      | forceFlush =>
        refine ⟨acc, ?_⟩
        simp only [Buf.consume, hc, hch]
        exact ⟨f.fine, .inl rfl, f.queue, by simpa [pending, itemsM] using hflow, f.refill, f.pre⟩
  · refine ⟨acc, ?_⟩
    simp only [Buf.consume, hc]
    exact f

theorem flush_startFlush {b : Buf α} {acc : List α} (f : Flush b acc) : Flush b.startFlush acc := by
  unfold Buf.startFlush
  rcases f.state with hc | ⟨hc, -⟩ <;> rw [hc] <;> exact f

/-- A reachable state. -/
inductive Ok (b : Buf α) : Prop
  | live (cur : Option (List α)) (frames old : List (List α)) (B : List α) (l : Live b cur frames old B)
  | flush (acc : List α) (f : Flush b acc)
  | gone (g : Gone b)

theorem gone_step {b : Buf α} (g : Gone b) (a : Act α) : step b a = b := by
  have h1 := g.gone
  have h2 := g.done
  cases a <;> simp [step, Buf.fetch, Buf.produce, Buf.consume, Buf.startFlush, h1, h2]

def ProperAct (a : Act α) : Prop := ∀ c, a = .fetch (some ([], c)) → c = true

theorem ok_step {b : Buf α} (o : Ok b) (a : Act α) (ha : ProperAct a) : Ok (step b a) := by
  cases o with
  | live cur frames old B l =>
    cases a with
    | fetch r =>
      obtain ⟨fr, l'⟩ := live_fetch l r (fun c h => ha c (by rw [h]))
      exact .live _ _ _ _ l'
    | produce => exact .live _ _ _ _ (live_produce l)
    | consume =>
      rcases live_consume l with ⟨_, _, _, _, l'⟩ | g
      · exact .live _ _ _ _ l'
      · exact .gone g
    | startFlush =>
      rcases live_startFlush l with l' | f
      · exact .live _ _ _ _ l'
      · exact .flush _ f
  | flush acc f =>
    cases a with
    | fetch r => exact .flush _ (flush_fetch f r)
    | produce => exact .flush _ (flush_produce f)
    | consume => obtain ⟨acc', f'⟩ := flush_consume f; exact .flush _ f'
    | startFlush => exact .flush _ (flush_startFlush f)
  | gone g => rw [gone_step g a]; exact .gone g

theorem ok_new (cap : Nat) : Ok (Buf.new α cap) :=
  .live none [] [] []
    { fine := rfl
      asks := rfl
      pend := rfl
      nonempty := by simp
      split := rfl
      size := rfl
      cnt := by simp
      need := by simp [Buf.new]
      ask := by simp [Buf.new]
      rdy := by simp
      queue := by simp [Buf.new]
      flow := rfl
      refill := by simp [Buf.new]
      token := by simp [Buf.new, canAsk, isFetching] }

theorem ok_run {b : Buf α} (o : Ok b) (as : List (Act α)) (h : ∀ a ∈ as, ProperAct a) :
    Ok (run b as) := by
  induction as generalizing b with
  | nil => exact o
  | cons a as ih =>
    exact ih (ok_step o a (h a (by simp))) (fun x hx => h x (by simp [hx]))

@[simp] theorem cap_step (b : Buf α) (a : Act α) : (step b a).cap = b.cap := by
  cases a with
  | fetch r =>
    simp only [step, Buf.fetch]
    split
    · split <;> rfl
    · rfl
  | produce =>
    simp only [step, Buf.produce]
    split
    · split
      · rfl
      · split <;> rfl
    · split
      · rfl
      · split <;> rfl
    · rfl
  | consume =>
    simp only [step, Buf.consume, Buf.take]
    split
    · split
      · split <;> rfl
      · rfl
      · split <;> rfl
      · rfl
    · split
      · split <;> rfl
      · split <;> rfl
      · rfl
    · split
      · rfl
      · split <;> rfl
    · split
      · split <;> rfl
      · rfl
      · rfl
    · rfl
  | startFlush =>
    simp only [step, Buf.startFlush]
    split <;> rfl

theorem cap_run (b : Buf α) (as : List (Act α)) : (run b as).cap = b.cap := by
  induction as generalizing b with
  | nil => rfl
  | cons a as ih => exact (ih (step b a)).trans (cap_step b a)

theorem ok_ask {b : Buf α} (o : Ok b) (x : α) (hcs : b.cons = .asking x) (ha : b.prod.alive = true) :
    b.refill = 0 := by
  cases o with
  | gone g => rw [g.gone] at hcs; cases hcs
  | flush acc f => rcases f.state with h | ⟨h, -⟩ <;> rw [h] at hcs <;> cases hcs
  | live cur frames old B l =>
    have htok := l.token ha
    obtain ⟨he, ⟨rest, hcur⟩, -⟩ := l.ask x hcs
    have hB := (l.cnt rest hcur).2
    have : canAsk b.eligible B = 1 := by
      cases hB' : B with
      | nil => exact absurd hB' hB
      | cons y ys => simp [canAsk, he]
    omega

/-- A consumer that finds a message goes on. -/
theorem consume_msg {b : Buf α} (hc : b.cons.receives = true) (m : Msg α) (ms : List (Msg α))
    (hch : b.chan = m :: ms) (hna : ∀ x, b.cons ≠ .asking x) : b.consume ≠ b := by
  intro h
  have hl := congrArg (fun b => b.chan.length) h
  cases hcs : b.cons with
  | ready =>
    cases m with
    | batchSize n => simp [Buf.consume, hcs, hch] at hl
    | item x =>
      simp only [Buf.consume, hcs, hch, Buf.take] at hl
      split at hl <;> simp at hl
    | forceFlush => simp [Buf.consume, hcs, hch] at hl
  | needItem =>
    cases m with
    | batchSize n => simp [Buf.consume, hcs, hch] at hl
    | item x =>
      simp only [Buf.consume, hcs, hch, Buf.take] at hl
      split at hl <;> simp at hl
    | forceFlush => simp [Buf.consume, hcs, hch] at hl
  | asking x => exact hna x hcs
  | flushing acc => cases m <;> simp [Buf.consume, hcs, hch] at hl
  | flushed acc => rw [hcs] at hc; cases hc
  | gone => rw [hcs] at hc; cases hc

/-- A consumer that may ask goes on. -/
theorem consume_ask {b : Buf α} (x : α) (hx : b.cons = .asking x)
    (hor : b.prod.alive = false ∨ b.refill < 1) : b.consume ≠ b := by
  intro h
  have := congrArg Buf.cons h
  rw [hx] at this
  rcases hor with ha | hr
  · simp [Buf.consume, hx, ha] at this
  · cases ha : b.prod.alive <;> simp [Buf.consume, hx, ha, hr] at this

/-- Unless the fetch is awaited, somebody can go on. -/
theorem ok_progress {b : Buf α} (o : Ok b) (hcap : 0 < b.cap) (hp : b.prod ≠ .fetching)
    (hc : b.cons.receives = true) : b.produce ≠ b ∨ b.consume ≠ b := by
  have hmsg := consume_msg hc
  have hask := fun x hx => consume_ask (b := b) x hx
  have hdone : b.chan = [] → b.prod = .done → (∀ x, b.cons ≠ .asking x) → b.consume ≠ b := by
    intro hch hd hna h
    have := congrArg Buf.cons h
    cases hcs : b.cons with
    | ready => simp [Buf.consume, hcs, hch, hd, Prod.alive] at this
    | needItem => simp [Buf.consume, hcs, hch, hd, Prod.alive] at this
    | asking x => exact hna x hcs
    | flushing acc => simp [Buf.consume, hcs, hch, hd, Prod.alive] at this
    | flushed acc => rw [hcs] at hc; cases hc
    | gone => rw [hcs] at hc; cases hc
  have hsend : ∀ q c, b.prod = .sending q c → q ≠ [] → b.chan.length < b.cap → b.produce ≠ b := by
    intro q c hq hne hlt h
    cases q with
    | nil => exact hne rfl
    | cons m q =>
      have hl := congrArg (fun b => b.chan.length) h
      simp [Buf.produce, hq, hc, hlt] at hl
  cases o with
  | gone g => rw [g.gone] at hc; cases hc
  | flush acc f =>
    rcases f.state with hcs | ⟨hcs, -, -⟩
    · have hna : ∀ x, b.cons ≠ .asking x := by simp [hcs]
      cases hch : b.chan with
      | cons m ms => exact .inr (hmsg m ms hch hna)
      | nil =>
        cases hpr : b.prod with
        | fetching => exact absurd hpr hp
        | sending q c => exact .inl (hsend q c hpr (f.queue q c hpr) (by simp [hch, hcap]))
        | waiting =>
          left
          intro h
          have := congrArg Buf.prod h
          simp only [Buf.produce, hpr, hcs, Cons.asks] at this
          split at this <;> simp at this
        | done => exact .inr (hdone hch hpr hna)
    · rw [hcs] at hc; cases hc
  | live cur frames old B l =>
    cases hcs : b.cons with
    | asking x =>
      right
      refine hask x hcs ?_
      cases ha : b.prod.alive with
      | false => exact .inl rfl
      | true =>
        right
        have htok := l.token ha
        obtain ⟨he, ⟨rest, hcur⟩, -⟩ := l.ask x hcs
        have hB := (l.cnt rest hcur).2
        have : canAsk b.eligible B = 1 := by
          cases hB' : B with
          | nil => exact absurd hB' hB
          | cons y ys => simp [canAsk, he]
        omega
    | flushing acc => have := l.asks; rw [hcs] at this; cases this
    | flushed acc => have := l.asks; rw [hcs] at this; cases this
    | gone => have := l.asks; rw [hcs] at this; cases this
    | ready =>
      have hna : ∀ x, b.cons ≠ .asking x := by simp [hcs]
      cases hch : b.chan with
      | cons m ms => exact .inr (hmsg m ms hch hna)
      | nil =>
        cases hpr : b.prod with
        | fetching => exact absurd hpr hp
        | sending q c => exact .inl (hsend q c hpr (l.queue q c hpr) (by simp [hch, hcap]))
        | done => exact .inr (hdone hch hpr hna)
        | waiting =>
          left
          have hpend := l.pend
          simp only [pending, hch, hpr, sendq_waiting, List.append_nil] at hpend
          have hcur : cur = none := by
            cases cur with
            | none => rfl
            | some r => simp [curMsgs] at hpend
          have hfr : frames = [] := by
            cases frames with
            | nil => rfl
            | cons f fs => simp [frame] at hpend
          have htok := l.token (by rw [hpr]; rfl)
          have h0 : canAsk b.eligible B = 0 := by
            cases he : b.eligible with
            | false => simp [canAsk]
            | true =>
              cases hB : B with
              | nil => simp [canAsk]
              | cons y ys =>
                have := (l.rdy hcs he (by simp [hB])).1
                simp [hcur] at this
          rw [hfr, h0, hpr] at htok
          simp only [List.length_nil, isFetching, Nat.zero_add, Nat.add_zero] at htok
          intro h
          have := congrArg Buf.prod h
          simp [Buf.produce, hpr, htok] at this
    | needItem =>
      have hna : ∀ x, b.cons ≠ .asking x := by simp [hcs]
      cases hch : b.chan with
      | cons m ms => exact .inr (hmsg m ms hch hna)
      | nil =>
        cases hpr : b.prod with
        | fetching => exact absurd hpr hp
        | sending q c => exact .inl (hsend q c hpr (l.queue q c hpr) (by simp [hch, hcap]))
        | done => exact .inr (hdone hch hpr hna)
        | waiting =>
          obtain ⟨-, -, x, rest, hcur⟩ := l.need hcs
          have hpend := l.pend
          simp [pending, hch, hpr, hcur, curMsgs] at hpend

/-- While the producer waits without having been asked, less than half of the last batch, or nothing of
it, was returned. -/
theorem ok_half {b : Buf α} (o : Ok b) (hp : b.prod = .waiting) (hr : b.refill = 0)
    (hc : b.cons.asks = true) :
    ∃ old B, b.fetched.filter (fun f => !f.isEmpty) = old ++ [B] ∧
      (items b.received).length < old.flatten.length + Nat.max 1 (B.length / 2) := by
  cases o with
  | gone g => rw [g.gone] at hc; cases hc
  | flush acc f => rcases f.state with h | ⟨h, -⟩ <;> rw [h] at hc <;> cases hc
  | live cur frames old B l =>
    have htok := l.token (by rw [hp]; rfl)
    rw [hp, hr] at htok
    simp only [isFetching, Nat.add_zero] at htok
    have hflat : ∀ fs : List (List α), (fs.filter (fun f => !f.isEmpty)).flatten = fs.flatten := by
      intro fs
      induction fs with
      | nil => rfl
      | cons f fs ih =>
        cases f with
        | nil => simpa using ih
        | cons x xs => simp [ih]
    have htotal := congrArg (fun l => (items l).length) l.flow
    simp only [items_append, items_toRecv, items_expected, List.length_append] at htotal
    rw [← hflat b.fetched, l.split] at htotal
    have hpend := congrArg (fun l => (itemsM l).length) l.pend
    simp only [itemsM_append, List.length_append] at hpend
    have hitf : ∀ fs : List (List α), itemsM (fs.flatMap frame) = fs.flatten := by
      intro fs
      induction fs with
      | nil => rfl
      | cons f fs ih => simp [itemsM_append, itemsM_frame, ih]
    rw [hitf] at hpend
    have hsingle : (single B).flatten = B := by cases B <;> simp [single]
    simp only [List.flatten_append, List.length_append, hsingle] at htotal
    rw [hpend] at htotal
    cases hfr : frames with
    | cons f fs =>
      have hfs : fs = [] := List.length_eq_zero_iff.mp (by rw [hfr] at htok; simp at htok; omega)
      refine ⟨old ++ single B, f, by rw [l.split, hfr, hfs], ?_⟩
      simp only [List.flatten_append, List.length_append, hsingle]
      rw [hfr, hfs] at htotal
      have : 1 ≤ Nat.max 1 (f.length / 2) := Nat.le_max_left _ _
      omega
    | nil =>
      rw [hfr] at htok
      simp only [List.length_nil, Nat.zero_add] at htok
      have he : b.eligible = true ∧ B ≠ [] := by
        unfold canAsk at htok
        split at htok
        · rename_i h; simp only [Bool.and_eq_true, Bool.not_eq_true'] at h
          exact ⟨h.1, by rintro rfl; simp at h⟩
        · cases htok
      obtain ⟨x0, xs0, hB⟩ : ∃ x xs, B = x :: xs := by
        cases hB : B with
        | nil => exact absurd hB he.2
        | cons x xs => exact ⟨x, xs, rfl⟩
      refine ⟨old, B, by rw [l.split, hfr, hB]; simp [single], ?_⟩
      rw [hfr] at htotal
      simp only [List.flatten_nil, List.length_nil, Nat.add_zero] at htotal
      have hsz := l.size
      have h1 : 1 ≤ Nat.max 1 (B.length / 2) := Nat.le_max_left _ _
      have h2 : B.length / 2 ≤ Nat.max 1 (B.length / 2) := Nat.le_max_right _ _
      have hlen : ∀ rest, (itemsM (curMsgs (some rest) : List (Msg α))).length = rest.length := by
        intro rest
        simp [curMsgs, itemsM_append, itemsM_items, itemsM]
      cases hcs : b.cons with
      | ready =>
        obtain ⟨⟨rest, hcur⟩, h3, h4⟩ := l.rdy hcs he.1 he.2
        have h5 := (l.cnt rest hcur).1
        rw [hcur, hlen] at htotal
        rw [hsz] at h4 h5
        omega
      | needItem =>
        obtain ⟨h3, -, y, rest, hcur⟩ := l.need hcs
        have h5 := (l.cnt _ hcur).1
        rw [hcur, hlen] at htotal
        rw [hsz] at h5
        omega
      | asking x =>
        obtain ⟨-, ⟨rest, hcur⟩, h3, h4⟩ := l.ask x hcs
        have h5 := (l.cnt _ hcur).1
        rw [hcur, hlen, hcs] at htotal
        simp only [held] at htotal
        have : (items [Recv.item x]).length = 1 := rfl
        rw [hsz] at h4 h5
        omega
      | flushing acc => rw [hcs] at hc; cases hc
      | flushed acc => rw [hcs] at hc; cases hc
      | gone => rw [hcs] at hc; cases hc

end Abq.MsgBuf
