import Verif.Model.Options
import Verif.Model.Pipeline
/-!
# The batch size of a worker

`crates/abq_cli/src/args.rs:343-345` (`--batch-size`), what a runner does with it when it starts,
`crates/abq_runners/generic_test_runner/src/lib.rs:950-967`, and what is under that: `tokio::sync::mpsc::channel` and
`Vec::with_capacity`. The machine has 64 bits. What the queue makes of the number is `clampBatch` (`Model/ManifestView.lean`).
-/

namespace Abq.BatchSize
open Abq.Options (parseUsize)

/-- `args.rs:343-345`: a `NonZeroU64`, read by its `from_str`. The variable `ABQ_BATCH_SIZE` is read in the same way. -/
def parseBatch (s : List Char) : Option Nat :=
  match parseUsize s with
  | some 0 => none
  | some n => some n
  | none => none

/-- What may come of a start: the process is ended if the allocator refuses (`alloc::handle_alloc_error`, for
`buffered_results.rs:14`). -/
inductive Start (α : Type) where
  | ok (a : α)
  | panic
  | abort
deriving DecidableEq, Repr

/-- `results_batch_size * 2`, `capacity * 2` (`lib.rs:964`, `message_buffer.rs:63`) in `usize`: overflow is a panic if the build has
checks, as `[profile.release-unstable]` does (`Cargo.toml:128-129`), and wraps around if it has none, as in `[profile.release]`. -/
def twice (checks : Bool) (n : Nat) : Option Nat :=
  if n * 2 < 2 ^ 64 then some (n * 2)
  else if checks then none
  else some (n * 2 - 2 ^ 64)

/-- `tokio::sync::mpsc::channel` (1.26.0, called at `lib.rs:964`, `message_buffer.rs:63`): it panics if there is to be no room, or more
than `Semaphore::MAX_PERMITS`, `usize::MAX >> 3`. -/
def channel (n : Nat) : Option Nat :=
  if n = 0 then none
  else if n > (2 ^ 64 - 1) / 8 then none
  else some n

/-- `Vec::with_capacity` (called at `buffered_results.rs:14`) for elements of `size` bytes: it panics if that is more than `isize::MAX`
bytes. `mem` says whether the allocator has that many. -/
def withCapacity (mem : Nat → Bool) (size n : Nat) : Start Unit :=
  if n * size > 2 ^ 63 - 1 then .panic
  else if mem (n * size) then .ok ()
  else .abort

/-- `lib.rs:950-967`, with `message_buffer.rs:56-77` and `buffered_results.rs:12-18`; `size` is that of an `AssociatedTestResults`. The
vector is allocated at the first step of `send_results_task`, which is here part of the start. -/
def start (checks : Bool) (mem : Nat → Bool) (size : Nat) (sources : List (List Fetch.Resp)) (maxRun batchSize : Nat) : Start Pipe.Pipe :=
  match (twice checks batchSize).bind channel with
  | none => .panic
  | some tests =>
    match (twice checks batchSize).bind channel with
    | none => .panic
    | some results =>
      match withCapacity mem size batchSize with
      | .panic => .panic
      | .abort => .abort
      | .ok () =>
        .ok { sys := Fetch.init sources maxRun, buf := { MsgBuf.Buf.new Retries.WorkerTest batchSize with cap := tests }, runner := .receiving
              chan := [], chanCap := results, out := Buffered.Buffer.new Retries.Results batchSize, ended := false }

end Abq.BatchSize
