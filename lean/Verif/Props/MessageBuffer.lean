import Verif.Proof.MessageBuffer

/-!
# The prefetching buffer delivers every message once and in order (C28)

All theorems are about every type of items, every capacity, every sequence of fetched batches in which an
empty batch only comes with the end, errors of fetches at any point, and every interleaving of producer and
consumer.
-/

namespace Abq.Props
open Abq.MsgBuf Abq.MsgBuf.Spec

/-- **C28.** Nothing panics, and what `recv` returned is a beginning of the items fetched, in order and each
once, with a mark after the last item of each batch. If `recv` returned `None`, it is everything; if `flush`
was called and returned, the items received and those flushed are everything. -/
theorem C28_delivered_once_in_order {α : Type} (capacity : Nat) (as : List (MsgBuf.Act α))
    (h : Proper as) :
    let b := MsgBuf.run (Buf.new α capacity) as
    b.panicked = false ∧ b.received <+: expected b.fetched ∧
    (b.cons = .gone → b.received = expected b.fetched) ∧
    ∀ acc, b.cons = .flushed acc → items b.received ++ acc = b.fetched.flatten := by
  intro b
  have o : Ok b := ok_run (ok_new capacity) as h
  cases o with
  | live cur frames old B l =>
    refine ⟨l.fine, ⟨held b.cons ++ toRecv (pending b), by rw [← l.flow]; simp⟩, ?_, ?_⟩
    · intro hg; have := l.asks; rw [hg] at this; cases this
    · intro acc hg; have := l.asks; rw [hg] at this; cases this
  | flush acc f =>
    refine ⟨f.fine, f.pre, ?_, ?_⟩
    · intro hg; rcases f.state with h | ⟨h, -⟩ <;> rw [h] at hg <;> cases hg
    · intro acc' hg
      rcases f.state with h | ⟨h, hp, hch⟩
      · rw [h] at hg; cases hg
      · rw [h] at hg; cases hg
        have := f.flow
        simpa [pending, hp, hch, itemsM] using this
  | gone g =>
    refine ⟨g.fine, by rw [g.all]; exact List.prefix_refl _, fun _ => g.all, ?_⟩
    intro acc hg; rw [g.gone] at hg; cases hg

/-- **C28.** Neither side waits for ever for the other: with room for a message, unless a fetch is awaited or
the consumer is through, the producer or the consumer can go on. -/
theorem C28_no_deadlock {α : Type} (capacity : Nat) (hc : 0 < capacity) (as : List (MsgBuf.Act α))
    (h : Proper as) :
    let b := MsgBuf.run (Buf.new α capacity) as
    b.prod ≠ .fetching → b.cons.receives = true → b.produce ≠ b ∨ b.consume ≠ b := by
  intro b hp hr
  refine ok_progress (ok_run (ok_new capacity) as h) ?_ hp hr
  rw [cap_run]
  simp only [Buf.new]
  omega

/-- **C28.** The producer is asked for more before the consumer runs dry: while it waits without having been
asked, `recv` has returned less than half of the last batch, or none of it. -/
theorem C28_asked_before_dry {α : Type} (capacity : Nat) (as : List (MsgBuf.Act α)) (h : Proper as) :
    let b := MsgBuf.run (Buf.new α capacity) as
    b.prod = .waiting → b.refill = 0 → b.cons.asks = true →
    ∃ old last, b.fetched.filter (fun f => !f.isEmpty) = old ++ [last] ∧
      (items b.received).length < old.flatten.length + Nat.max 1 (last.length / 2) := by
  intro b hp hr hc
  exact ok_half (ok_run (ok_new capacity) as h) hp hr hc

/-- **C28.** A request for more never has to wait: when the consumer is about to make one and the producer is
still there, none is outstanding. -/
theorem C28_requests_do_not_wait {α : Type} (capacity : Nat) (as : List (MsgBuf.Act α))
    (h : Proper as) :
    let b := MsgBuf.run (Buf.new α capacity) as
    ∀ x, b.cons = .asking x → b.prod.alive = true → b.refill = 0 := by
  intro b x hx ha
  exact ok_ask (ok_run (ok_new capacity) as h) x hx ha

/-- Two batches through a buffer of capacity one, the consumer asking for the second before it returns the
second item of the first; at the end `recv` returns `None`. -/
def C28_sample : List (MsgBuf.Act Nat) :=
  [.fetch (some ([10, 11, 12, 13], false))] ++ (List.replicate 8 [.produce, .consume]).flatten ++
  [.fetch (some ([14], true))] ++ (List.replicate 8 [.produce, .consume]).flatten

example : Proper C28_sample := by
  intro a ha c h
  subst h
  simp [C28_sample, List.replicate] at ha

example : MsgBuf.run (Buf.new Nat 1) C28_sample =
    { cap := 2, chan := [], refill := 0, prod := .done, cons := .gone, eligible := false, size := 1
      processed := 1, panicked := false, fetched := [[10, 11, 12, 13], [14]]
      received := [.item 10, .item 11, .item 12, .item 13, .flushProcessed, .item 14, .flushProcessed] } := by
  decide

/-- The same, flushed after the first item. -/
example : (MsgBuf.run (Buf.new Nat 1)
    (C28_sample.take 5 ++ [.startFlush] ++ (List.replicate 8 [.produce, .consume]).flatten)).cons =
      .flushed [11, 12, 13] := by decide

/-- The producer waits unasked. -/
example :
    let b := MsgBuf.run (Buf.new Nat 4) (.fetch (some ([10, 11, 12, 13], false)) ::
      (List.replicate 6 .produce ++ [.consume, .consume]))
    b.prod = .waiting ∧ b.refill = 0 ∧ items b.received = [10] := by decide

end Abq.Props
