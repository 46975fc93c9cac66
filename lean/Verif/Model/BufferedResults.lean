/-!
# Batching results

`crates/abq_runners/generic_test_runner/src/buffered_results.rs`.
-/

namespace Abq.Buffered

/-- `buffered_results.rs:5-9` `BufferedResults`; `sent` is what the handler was called with, in order. -/
structure Buffer (α : Type) where
  batchSize : Nat
  buffer : List α
  sent : List (List α)
deriving DecidableEq, Repr

/-- buffered_results.rs:12-18 `new`. -/
def Buffer.new (α : Type) (batchSize : Nat) : Buffer α := ⟨batchSize, [], []⟩

/-- buffered_results.rs:35-39 `send`. -/
def Buffer.send {α : Type} (b : Buffer α) : Buffer α :=
  { b with buffer := [], sent := b.sent ++ [b.buffer] }

/-- buffered_results.rs:22-27 `push`. -/
def Buffer.push {α : Type} (b : Buffer α) (x : α) : Buffer α :=
  let b := { b with buffer := b.buffer ++ [x] }
  if b.buffer.length ≥ b.batchSize then b.send else b

/-- buffered_results.rs:29-33 `flush`. -/
def Buffer.flush {α : Type} (b : Buffer α) : Buffer α :=
  if b.buffer.isEmpty then b else b.send

/-- The calls of `buffered_results.rs:22-33`. -/
inductive Op (α : Type) where
  | push (x : α)
  | flush
deriving DecidableEq, Repr

/-- One call (`buffered_results.rs:22-33`). -/
def Buffer.op {α : Type} (b : Buffer α) : Op α → Buffer α
  | .push x => b.push x
  | .flush => b.flush

/-- Calls, one after the other (`buffered_results.rs:22-33`). -/
def Buffer.ops {α : Type} (b : Buffer α) (os : List (Op α)) : Buffer α := os.foldl Buffer.op b

end Abq.Buffered
