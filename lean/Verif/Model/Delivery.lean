import Verif.Model.BufferedResults

/-!
# Delivering results to the queue

`crates/abq_workers/src/results_handler.rs`: what a runner does with a batch of results. `buffered_results.rs` makes the batches
(`Model/BufferedResults`); a batch goes to the tracker of retries, to the queue and to the local reporters.

The step of the queue, that it reads the request, is part of the worker's step of writing it: `reaches` says whether it does. The
acknowledgement can be read only if it did. The runner may be dropped wherever it waits (`generic_test_runner/src/lib.rs:908-1064`
runs as one task).
-/

namespace Abq.Delivery
open Abq.Buffered

/-- Where `QueueResultsSender::send_results` is (`results_handler.rs:80-113`): before an attempt to connect, before writing the
request, before reading the acknowledgement, or done. -/
inductive Remote where
  | connecting (attempt : Nat)
  | writing
  | reading (reached : Bool)
  | done
deriving DecidableEq, Repr

/-- What the sending task does (`results_handler.rs:41-51`, `generic_test_runner/src/lib.rs:966-980`): wait for the next message,
or deliver a batch, which it has done once both handlers have; or it panicked, or was dropped. -/
inductive Phase where
  | idle
  | sending (remote : Remote) (toldLocal : Bool)
  | panicked
  | dropped
deriving DecidableEq, Repr

/-- The task. `buffer.sent` are the batches handed to `MultiplexingResultsHandler::send_results` (`results_handler.rs:41-51`). -/
structure Sender (α : Type) where
  buffer : Buffer α
  phase : Phase
  /-- whether the channel of results was found closed (`generic_test_runner/src/lib.rs:971-979`) -/
  closed : Bool
  /-- what the tracker of retries was told (`results_handler.rs:42`) -/
  tracked : List (List α)
  /-- what the queue received (`results_handler.rs:102-105`) -/
  received : List (List α)
  /-- what the local handler got (`results_handler.rs:46`) -/
  told : List (List α)
  /-- attempts to connect (`results_handler.rs:90-98`) -/
  attempts : List Nat
deriving DecidableEq, Repr

/-- `generic_test_runner/src/lib.rs:967`. -/
def Sender.new (α : Type) (batchSize : Nat) : Sender α := ⟨Buffer.new α batchSize, .idle, false, [], [], [], []⟩

/-- What happens (`results_handler.rs:41-113`, `generic_test_runner/src/lib.rs:971-979`). -/
inductive Act (α : Type) where
  | op (o : Op α)
  | close
  | connect (ok : Bool)
  | write (ok reaches : Bool)
  | ack (ok : Bool)
  | tellLocal
  | drop
deriving DecidableEq, Repr

/-- `tokio::join!` of both handlers (`results_handler.rs:44-47`). -/
def joined : Remote → Bool → Phase
  | .done, true => .idle
  | r, l => .sending r l

/-- A call of `push` or `flush` (`generic_test_runner/src/lib.rs:973-979`): if it makes a batch, the tracker is told, and it is to be
delivered (`results_handler.rs:41-51`). -/
def Sender.call {α : Type} (t : Sender α) (o : Op α) : Sender α :=
  let b := t.buffer.op o
  if b.sent.length = t.buffer.sent.length then { t with buffer := b }
  else { t with buffer := b, phase := .sending (.connecting 1) false, tracked := t.tracked ++ b.sent.drop t.buffer.sent.length }

/-- One step. Steps that are not possible do nothing. `results_handler.rs:41-113`, `retry.rs:29-50` for the five attempts. -/
def Sender.step {α : Type} (t : Sender α) : Act α → Sender α
  | .op o => if t.phase = .idle ∧ t.closed = false then t.call o else t
  | .close => if t.phase = .idle ∧ t.closed = false then { t with closed := true }.call .flush else t
  | .connect ok =>
    match t.phase with
    | .sending (.connecting k) l =>
      { t with
        attempts := t.attempts ++ [k]
        phase := if ok then .sending .writing l else if k < 5 then .sending (.connecting (k + 1)) l else .panicked }
    | _ => t
  | .write ok reaches =>
    match t.phase with
    | .sending .writing l =>
      { t with
        received := if reaches then t.received ++ t.buffer.sent.drop (t.buffer.sent.length - 1) else t.received
        phase := if ok then .sending (.reading reaches) l else .panicked }
    | _ => t
  | .ack ok =>
    match t.phase with
    | .sending (.reading reached) l =>
      if ok then (if reached then { t with phase := joined .done l } else t)
      else { t with phase := .panicked }
    | _ => t
  | .tellLocal =>
    match t.phase with
    | .sending r false => { t with told := t.told ++ t.buffer.sent.drop (t.buffer.sent.length - 1), phase := joined r true }
    | _ => t
  | .drop =>
    match t.phase with
    | .panicked => t
    | _ => { t with phase := .dropped }

/-- The task has come to its end (`generic_test_runner/src/lib.rs:979-980`). -/
def Sender.finished {α : Type} (t : Sender α) : Bool := t.closed && t.phase == .idle

/-- A run (`results_handler.rs:41-113`). -/
def Sender.run {α : Type} (t : Sender α) (as : List (Act α)) : Sender α := as.foldl Sender.step t

end Abq.Delivery
