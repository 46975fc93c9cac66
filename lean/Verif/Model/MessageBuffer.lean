/-!
# The prefetching buffer between fetching and running tests

`crates/abq_runners/generic_test_runner/src/message_buffer.rs`. Producer and consumer are two tasks, each
advanced by the scheduler from one suspension point to the next; the channels are tokio's bounded `mpsc`
channels, with these assumptions: a send waits while the channel is full and fails once the receiver is
gone; a receive waits while the channel is empty and has senders, takes what was sent even if the sender
is gone, and ends after that. Messages sent into the channel of a receiver that is dropped are dropped.
-/

namespace Abq.MsgBuf

/-- `message_buffer.rs:11-15` `Msg`. -/
inductive Msg (α : Type) where
  | batchSize (n : Nat)
  | item (x : α)
  | forceFlush
deriving DecidableEq, Repr

/-- `message_buffer.rs:132-135` `RecvMsg`. -/
inductive Recv (α : Type) where
  | item (x : α)
  | flushProcessed
deriving DecidableEq, Repr

/-- Where the producer is (`message_buffer.rs:91-128` `start`): fetching, sending the messages of a batch
(`completed` as the fetch said), waiting to be asked for more, or returned. -/
inductive Prod (α : Type) where
  | fetching
  | sending (q : List (Msg α)) (completed : Bool)
  | waiting
  | done
deriving DecidableEq, Repr

/-- Where the consumer is: between calls of `recv`; in `recv` after a batch size (`message_buffer.rs:149`); in `recv` about to
ask for more with the item at hand (`message_buffer.rs:177`); in `flush` (`message_buffer.rs:203`) with what it collected; or gone: after `recv`
returned `None`, after `flush` returned, or dropped. -/
inductive Cons (α : Type) where
  | ready
  | needItem
  | asking (x : α)
  | flushing (acc : List α)
  | flushed (acc : List α)
  | gone
deriving DecidableEq, Repr

/-- Both ends, the two channels, the counters of `BatchedConsumer` (`message_buffer.rs:32-45`), and the history: the batches
fetched and what `recv` returned. -/
structure Buf (α : Type) where
  cap : Nat
  chan : List (Msg α)
  refill : Nat
  prod : Prod α
  cons : Cons α
  eligible : Bool
  size : Nat
  processed : Nat
  panicked : Bool
  fetched : List (List α)
  received : List (Recv α)
deriving DecidableEq, Repr

/-- `message_buffer.rs:55-77` `channel`. -/
def Buf.new (α : Type) (capacity : Nat) : Buf α :=
  { cap := capacity * 2, chan := [], refill := 0, prod := .fetching, cons := .ready, eligible := true
    size := 0, processed := 0, panicked := false, fetched := [], received := [] }

/-- The receiver of the messages still exists (`msg_rx`, `message_buffer.rs:32-45`). -/
def Cons.receives {α : Type} : Cons α → Bool
  | .flushed _ => false
  | .gone => false
  | _ => true

/-- The sender of requests for more still exists (`refill_tx`, `message_buffer.rs:32-45, 200`). -/
def Cons.asks {α : Type} : Cons α → Bool
  | .ready => true
  | .needItem => true
  | .asking _ => true
  | _ => false

/-- The sender of the messages, and the receiver of requests for more, still exist (`message_buffer.rs:27-30`). -/
def Prod.alive {α : Type} : Prod α → Bool
  | .done => false
  | _ => true

/-- After a batch was sent (`message_buffer.rs:119-126`). -/
def afterBatch {α : Type} (completed : Bool) : Prod α := if completed then .done else .waiting

/-- After one message of a batch was sent (`message_buffer.rs:100-121`). -/
def afterSend {α : Type} (q : List (Msg α)) (completed : Bool) : Prod α :=
  match q with
  | [] => afterBatch completed
  | m :: q => .sending (m :: q) completed

/-- The messages of a batch (`message_buffer.rs:100-111`). -/
def frame {α : Type} (xs : List α) : List (Msg α) :=
  .batchSize xs.length :: (xs.map .item ++ [.forceFlush])

/-- `fetch` returns (`message_buffer.rs:96`): `none` is an error, else a batch and whether it is the end. -/
def Buf.fetch {α : Type} (b : Buf α) (r : Option (List α × Bool)) : Buf α :=
  match b.prod with
  | .fetching =>
    match r with
    | none => { b with prod := .done }
    | some ([], completed) => { b with prod := afterBatch completed, fetched := b.fetched ++ [[]] }
    | some (x :: xs, completed) =>
      { b with prod := .sending (frame (x :: xs)) completed, fetched := b.fetched ++ [x :: xs] }
  | _ => b

/-- The producer's next step other than a fetch: a send (`message_buffer.rs:100-111`) or a request for more (`message_buffer.rs:123`). -/
def Buf.produce {α : Type} (b : Buf α) : Buf α :=
  match b.prod with
  | .sending (m :: q) completed =>
    if !b.cons.receives then { b with prod := .done }
    else if b.chan.length < b.cap then
      { b with chan := b.chan ++ [m], prod := afterSend q completed }
    else b
  | .waiting =>
    if b.refill > 0 then { b with refill := b.refill - 1, prod := .fetching }
    else if !b.cons.asks then { b with prod := .done }
    else b
  | _ => b

/-- An item came (`message_buffer.rs:160-182`): is it time to ask for more? -/
def Buf.take {α : Type} (b : Buf α) (x : α) : Buf α :=
  let processed := b.processed + 1
  if b.eligible && decide (processed ≥ b.size / 2) then { b with processed, cons := .asking x }
  else { b with processed, cons := .ready, received := b.received ++ [.item x] }

/-- The consumer's next step in `recv` (`message_buffer.rs:139-183`). -/
def Buf.consume {α : Type} (b : Buf α) : Buf α :=
  match b.cons with
  | .ready =>
    match b.chan with
    | [] => if b.prod.alive then b else { b with cons := .gone }
    | .batchSize n :: ms =>
      { b with chan := ms, eligible := true, size := n, processed := 0, cons := .needItem }
    | .item x :: ms => { b with chan := ms }.take x
    | .forceFlush :: ms => { b with chan := ms, received := b.received ++ [.flushProcessed] }
  | .needItem =>
    match b.chan with
    | [] => if b.prod.alive then b else { b with cons := .gone }
    | .item x :: ms => { b with chan := ms }.take x
    | _ :: ms => { b with chan := ms, panicked := true }
  | .asking x =>
    if !b.prod.alive then
      { b with eligible := false, cons := .ready, received := b.received ++ [.item x] }
    else if b.refill < 1 then
      { b with refill := b.refill + 1, eligible := false, cons := .ready
               received := b.received ++ [.item x] }
    else b
  | .flushing acc =>
    match b.chan with
    | [] => if b.prod.alive then b else { b with cons := .flushed acc }
    | .item x :: ms => { b with chan := ms, cons := .flushing (acc ++ [x]) }
    | _ :: ms => { b with chan := ms }
  | _ => b

/-- The consumer calls `flush` instead of `recv` (`message_buffer.rs:187-200`). -/
def Buf.startFlush {α : Type} (b : Buf α) : Buf α :=
  match b.cons with
  | .ready => { b with cons := .flushing [] }
  | _ => b

/-- The consumer is dropped, and with it the receiver of messages and the sender of requests for more (`message_buffer.rs:32-45`). -/
def Buf.dropped {α : Type} (b : Buf α) : Buf α := { b with cons := .gone, chan := [] }

/-- Steps of the producer (`message_buffer.rs:91-128`) and of the consumer (`message_buffer.rs:137-212`), which are in
different tasks (`lib.rs:1063-1064`). -/
inductive Act (α : Type) where
  | fetch (r : Option (List α × Bool))
  | produce
  | consume
  | startFlush

/-- A step of the producer (`message_buffer.rs:91-128`) or the consumer (`message_buffer.rs:137-212`). -/
def step {α : Type} (b : Buf α) : Act α → Buf α
  | .fetch r => b.fetch r
  | .produce => b.produce
  | .consume => b.consume
  | .startFlush => b.startFlush

/-- A schedule of the two ends (`message_buffer.rs:91-212`). -/
def run {α : Type} (b : Buf α) (as : List (Act α)) : Buf α := as.foldl step b

end Abq.MsgBuf
