import Verif.Model.Fetcher
import Verif.Model.MessageBuffer
import Verif.Model.BufferedResults

/-!
# A runner executing all its tests

`crates/abq_runners/generic_test_runner/src/lib.rs:905-1070` `execute_all_tests`, after the initialization
context was received: three tasks joined together. One fetches tests into the prefetching buffer
(`message_buffer.rs`, fed by `test_fetching.rs`), one runs them on the native runner, one sends results in
batches to the results handler, which first passes each batch to the retry tracker of the fetcher
(`abq_workers/src/results_handler.rs`).

The native runner is an oracle: for each test it yields results, or fails (loses its connection, or the
test times out). Errors when the native runner is restarted for another attempt (`reconcile_run_number`)
are not modelled.
-/

namespace Abq.Pipe
open Abq.Retries Abq.MsgBuf Abq.Buffered

/-- `lib.rs:880-883` `ResultsMsg`. -/
inductive RMsg where
  | results (r : Results)
  | forceFlush
deriving DecidableEq, Repr

/-- Where `run_tests_task` is (`lib.rs:981-1060`): in `tests_rx.recv`; waiting for the native runner to run a test;
sending a message to the channel of results; in `tests_rx.flush` after the native runner failed on a test;
sending the results of that failure; or returned, with its channels dropped. -/
inductive Runner where
  | receiving
  | running (w : WorkerTest)
  | sending (m : RMsg)
  | flushing (w : WorkerTest)
  | failing (rs : List Results)
  | closed (failed : Bool)
deriving DecidableEq, Repr

/-- The three tasks. `ended` says that `send_results_task` returned (`lib.rs:959-1064`). -/
structure Pipe where
  sys : Fetch.Sys
  buf : Buf WorkerTest
  runner : Runner
  chan : List RMsg
  chanCap : Nat
  out : Buffer Results
  ended : Bool
deriving DecidableEq, Repr

/-- `lib.rs:950-967`. -/
def init (sources : List (List Fetch.Resp)) (maxRun batchSize : Nat) : Pipe :=
  { sys := Fetch.init sources maxRun, buf := Buf.new WorkerTest batchSize, runner := .receiving
    chan := [], chanCap := batchSize * 2, out := Buffer.new Results batchSize, ended := false }

/-- Steps of the three tasks that are joined (`lib.rs:1063-1064`). -/
inductive Act where
  | fetch
  | produce
  | consume
  | result (rs : List Result)
  | crash
  | timeout
  | send
  | take
deriving DecidableEq, Repr

/-- `lib.rs:1081-1085` `NextBundleFetcher::fetch`, one turn of the loop in `fetch_next_tests`. A panic ends the
task. -/
def Pipe.fetch (p : Pipe) : Pipe :=
  match p.buf.prod with
  | .fetching =>
    match p.sys.fetcher.fetch.2 with
    | .bundle b =>
      { p with sys := Fetch.step p.sys .fetch, buf := p.buf.fetch (some (b.work, b.eow)) }
    | .error => { p with sys := Fetch.step p.sys .fetch, buf := p.buf.fetch none }
    | .panic => { p with sys := Fetch.step p.sys .fetch, buf := p.buf.fetch none }
    | .waiting => { p with sys := Fetch.step p.sys .fetch }
  | _ => p

/-- `lib.rs:1277-1395` `handle_native_runner_failure`: the results it sends. All have the attempt of the test the
native runner failed on. The ids of the results are random; here they are 0. -/
def failureResults (w : WorkerTest) (remaining : List WorkerTest) : List Results :=
  (w.spec.workId :: remaining.map (·.spec.workId)).map
    (fun id => ⟨id, w.runNumber, [⟨0, true⟩]⟩)

/-- Where the runner goes after a step of the consumer: on what `recv` returned in this step (`lib.rs:982-984, 1038-1044`). -/
def afterRecv (b b' : Buf WorkerTest) : Runner :=
  match b'.cons with
  | .gone => .closed false
  | _ =>
    match b'.received.drop b.received.length with
    | .item w :: _ => .running w
    | .flushProcessed :: _ => .sending .forceFlush
    | [] => .receiving

/-- A step of `tests_rx.recv` or `tests_rx.flush` (`lib.rs:982, 1010-1028`). -/
def Pipe.consume (p : Pipe) : Pipe :=
  match p.runner with
  | .receiving => { p with buf := p.buf.consume, runner := afterRecv p.buf p.buf.consume }
  | .flushing w =>
    { p with
      buf := p.buf.consume
      runner := match p.buf.consume.cons with
        | .flushed remaining => .failing (failureResults w remaining)
        | _ => .flushing w }
  | _ => p

/-- The native runner yields the results of the test (`lib.rs:1141-1160`). -/
def Pipe.result (p : Pipe) (rs : List Result) : Pipe :=
  match p.runner with
  | .running w => { p with runner := .sending (.results ⟨w.spec.workId, w.runNumber, rs⟩) }
  | _ => p

/-- The native runner fails, or the test times out (`lib.rs:1009-1010, 1118-1127`). -/
def Pipe.crash (p : Pipe) : Pipe :=
  match p.runner with
  | .running w => { p with runner := .flushing w, buf := p.buf.startFlush }
  | _ => p

/-- The time limit passes while the results of the test wait for room in the channel (`lib.rs:1118-1127, 1146-1153`): they are dropped
with the future, and the test is reported as failed. Of the test only what is used of it then is kept. This may also happen when room
came in the meantime, since the timer may be looked at first (`timeout_future.rs:17-27`). Simplified: also when there was room from the
beginning. -/
def Pipe.timeout (p : Pipe) : Pipe :=
  match p.runner with
  | .sending (.results r) =>
    { p with runner := .flushing ⟨⟨r.workId, 0, none⟩, r.runNumber⟩, buf := p.buf.startFlush }
  | _ => p

/-- After a result of a failure was sent (`lib.rs:1018-1035`). -/
def afterFailure : List Results → Runner
  | [] => .closed true
  | r :: rs => .failing (r :: rs)

/-- `lib.rs:887-903` `try_send_result_to_channel`. -/
def Pipe.send (p : Pipe) : Pipe :=
  match p.runner with
  | .sending m =>
    if p.chan.length < p.chanCap then { p with chan := p.chan ++ [m], runner := .receiving } else p
  | .failing (r :: rs) =>
    if p.chan.length < p.chanCap then
      { p with chan := p.chan ++ [.results r], runner := afterFailure rs }
    else p
  | _ => p

/-- The handler is called with what was newly sent: the tracker first (`abq_workers/src/results_handler.rs:39-52`). -/
def Pipe.handle (p : Pipe) (out : Buffer Results) : Pipe :=
  { p with out, sys := (out.sent.drop p.out.sent.length).foldl (fun s rs => Fetch.step s (.account rs)) p.sys }

/-- `lib.rs:966-979` `send_results_task`. -/
def Pipe.take (p : Pipe) : Pipe :=
  match p.chan with
  | .results r :: ms => { p with chan := ms }.handle (p.out.push r)
  | .forceFlush :: ms => { p with chan := ms }.handle p.out.flush
  | [] =>
    match p.runner with
    | .closed _ => if p.ended then p else { p with ended := true }.handle p.out.flush
    | _ => p

/-- A step of one of the three tasks (`lib.rs:962-1064`). -/
def step (p : Pipe) : Act → Pipe
  | .fetch => p.fetch
  | .produce => { p with buf := p.buf.produce }
  | .consume => p.consume
  | .result rs => p.result rs
  | .crash => p.crash
  | .timeout => p.timeout
  | .send => p.send
  | .take => p.take

/-- A schedule of the three tasks (`lib.rs:1063-1064`). -/
def run (p : Pipe) (as : List Act) : Pipe := as.foldl step p

/-- All three tasks returned (`lib.rs:1063-1064`). -/
def Pipe.finished (p : Pipe) : Bool :=
  match p.runner with
  | .closed _ => p.ended && !p.buf.prod.alive
  | _ => false

end Abq.Pipe
