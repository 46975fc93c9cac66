/-!
# Capturing the output of a native runner

`crates/abq_utils/src/capture_output/muxer.rs` and `capture_pipes.rs`: two tasks copy the child's stdout and stderr, through a
`Muxer`, to the parent's stdout and stderr (if asked to) and into side channels: one for each stream and one for both.
-/

namespace Abq.Capture

/-- Bytes of the streams (`muxer.rs:111-211`). -/
abbrev Byte := Nat

/-- The task of one stream (`muxer.rs:125-136`). -/
inductive Task where
  /-- it has not ended, and holds its side channels -/
  | running
  /-- `abort` was called, the runtime has not dropped it yet: it still holds its side channels -/
  | aborting
  /-- dropped by the runtime after `abort` -/
  | dropped
  /-- it ended: all was copied -/
  | ok
  /-- it ended with an error of the parent's stream or of the child's -/
  | failed
deriving DecidableEq, Repr

/-- One stream: the child's pipe, the task that copies it and the side channel (`muxer.rs:11-74, 111-211`). -/
structure Stream where
  /-- the header not yet written (`write_all`, `muxer.rs:131`) -/
  header : List Byte
  /-- written by the child, not read yet -/
  pipe : List Byte := []
  /-- the child has closed its end -/
  closed : Bool := false
  /-- read by `tokio::io::copy`, not written yet -/
  buf : List Byte := []
  task : Task := .running
  /-- the contents of the side channel -/
  side : List Byte := []
  /-- whether there is a parent's stream, and what it accepted -/
  piped : Bool
  forwarded : List Byte := []
  /-- after `close`, `copied_all_output` is the trivial task (`capture_pipes.rs:83-87`) -/
  trivialHandle : Bool := false
deriving DecidableEq, Repr

/-- What the parent's stream does with a write: accepts the first `n` bytes, or fails (`muxer.rs:125-136`). Simplified: if it accepts
none the write is tried again, where tokio ends with the error `WriteZero`; `fail` covers that. -/
inductive Ans where
  | accept (n : Nat)
  | fail
deriving DecidableEq, Repr

/-- `muxer.rs:35-53` `Muxer::poll_write`: the number of bytes accepted, or an error. `AsyncWrite` never accepts more than it
is given. A `Pending` changes nothing, so it is no step. -/
def pollWrite (piped : Bool) (ans : Ans) (buf : List Byte) : Option Nat :=
  if piped then
    match ans with
    | .accept n => some (min n buf.length)
    | .fail => none
  else some buf.length

/-- The bytes put into the side channels, and the stream after it: one write by the task, from the header if some is left
(`muxer.rs:131`), else from what was read (`muxer.rs:133`). -/
def Stream.write (s : Stream) (ans : Ans) : List Byte × Stream :=
  if s.task ≠ .running then ([], s)
  else if s.header ≠ [] then
    match pollWrite s.piped ans s.header with
    | none => ([], { s with task := .failed })
    | some n =>
      (s.header.take n, { s with header := s.header.drop n, side := s.side ++ s.header.take n,
                                 forwarded := if s.piped then s.forwarded ++ s.header.take n else s.forwarded })
  else
    match pollWrite s.piped ans s.buf with
    | none => if s.buf = [] then ([], s) else ([], { s with task := .failed })
    | some n =>
      (s.buf.take n, { s with buf := s.buf.drop n, side := s.side ++ s.buf.take n,
                              forwarded := if s.piped then s.forwarded ++ s.buf.take n else s.forwarded })

/-- `tokio::io::copy` reads from the child, after the header was written; `none` is an error (`muxer.rs:125-136`). -/
def Stream.read (s : Stream) (n : Option Nat) : Stream :=
  if s.task = .running ∧ s.header = [] then
    match n with
    | some n => { s with pipe := s.pipe.drop n, buf := s.buf ++ s.pipe.take n }
    | none => { s with task := .failed }
  else s

/-- `tokio::io::copy` found the end of the child's output, and wrote all it read (`muxer.rs:125-136`). -/
def Stream.eof (s : Stream) : Stream :=
  if s.task = .running ∧ s.header = [] ∧ s.closed = true ∧ s.pipe = [] ∧ s.buf = [] then { s with task := .ok } else s

/-- The child writes, if it has not closed its end (`capture_pipes.rs:15-42`). -/
def Stream.child (s : Stream) (bs : List Byte) : Stream :=
  if s.closed then s else { s with pipe := s.pipe ++ bs }

/-- `capture_pipes.rs:80-87` `close`, for one stream: `abort` has no effect on a task that ended. -/
def Stream.close (s : Stream) : Stream :=
  { s with task := if s.task = .running then .aborting else s.task, trivialHandle := true }

/-- The runtime drops an aborted task (`capture_pipes.rs:80-117`). -/
def Stream.reap (s : Stream) : Stream :=
  if s.task = .aborting then { s with task := .dropped } else s

/-- The task holds clones of its side channels (`muxer.rs:111-145`). -/
def Stream.holds (s : Stream) : Bool :=
  match s.task with
  | .running => true
  | .aborting => true
  | _ => false

/-- What awaiting `copied_all_output` gives (`capture_pipes.rs:100-101`): not ready, an error, or success. -/
inductive Awaited where
  | pending
  | error
  | ready
deriving DecidableEq, Repr

/-- Waiting for the task of a stream (`capture_pipes.rs:89-117`). -/
def Stream.awaited (s : Stream) : Awaited :=
  if s.trivialHandle then .ready
  else match s.task with
  | .ok => .ready
  | .failed => .error
  | _ => .pending

/-- The two streams (`capture_pipes.rs:8-12`). -/
inductive Which where
  | out
  | err
deriving DecidableEq, Repr

/-- What the callers get, one after the other (`capture_pipes.rs:44-117`). -/
inductive Event where
  /-- `get_captured`, `get_captured_ref` -/
  | captured (out err : List Byte)
  | peeked (out err : List Byte)
  | finished (out err combined : List Byte)
  /-- `finish` returns an error -/
  | failed
  /-- the `expect`s of `capture_pipes.rs:104-113` -/
  | panicked
  /-- `finish` is called again after it returned: its tasks are awaited again, which is a panic too (`capture_pipes.rs:100`) -/
  | again
deriving DecidableEq, Repr

/-- `capture_pipes.rs:8-12` `CapturePipes`. -/
structure St where
  out : Stream
  err : Stream
  combined : List Byte := []
  /-- `finish` returned; the value is not used any more, but for another `finish` (`lib.rs:648, 842-847`) -/
  done : Bool := false
  events : List Event := []
deriving DecidableEq, Repr

/-- `capture_pipes.rs:15-42` `new`. -/
def init (piped isRetry : Bool) (retryHeader : List Byte) : St where
  out := { header := if isRetry then retryHeader else [], piped := piped }
  err := { header := [], piped := piped }

/-- What happens: the child writes or exits, a task takes a step, the runner calls (`muxer.rs:11-211`,
`capture_pipes.rs:15-117`). -/
inductive Act where
  | child (w : Which) (bs : List Byte)
  | childCloses (w : Which)
  | read (w : Which) (n : Option Nat)
  | write (w : Which) (ans : Ans)
  | eof (w : Which)
  | reap (w : Which)
  | getCaptured
  | getCapturedRef
  | close
  | finish
deriving DecidableEq, Repr

/-- One of the two (`capture_pipes.rs:8-12`). -/
def St.stream (s : St) : Which → Stream
  | .out => s.out
  | .err => s.err

/-- One of the two is changed (`capture_pipes.rs:8-12`). -/
def St.setStream (s : St) (w : Which) (t : Stream) : St :=
  match w with
  | .out => { s with out := t }
  | .err => { s with err := t }

/-- `capture_pipes.rs:89-117` `finish`, when it gets through: it first awaits the task of stdout, then that of stderr. -/
def St.finish (s : St) : St :=
  match s.out.awaited with
  | .pending => s
  | .error => { s with done := true, events := s.events ++ [.failed] }
  | .ready =>
    match s.err.awaited with
    | .pending => s
    | .error => { s with done := true, events := s.events ++ [.failed] }
    | .ready =>
      if s.out.holds || s.err.holds then { s with done := true, events := s.events ++ [.panicked] }
      else
        { s with done := true, out := { s.out with side := [] }, err := { s.err with side := [] }, combined := [],
                 events := s.events ++ [.finished s.out.side s.err.side s.combined] }

/-- One step (`muxer.rs:11-211`, `capture_pipes.rs:15-117`). -/
def St.step (s : St) (a : Act) : St :=
  match a with
  | .child w bs => s.setStream w ((s.stream w).child bs)
  | .childCloses w => s.setStream w { s.stream w with closed := true }
  | .read w n => s.setStream w ((s.stream w).read n)
  | .write w ans =>
    -- `muxer.rs:47-49`: the stream's side channel and the combined one get the same bytes
    { s.setStream w ((s.stream w).write ans).2 with combined := s.combined ++ ((s.stream w).write ans).1 }
  | .eof w => s.setStream w (s.stream w).eof
  | .reap w => s.setStream w (s.stream w).reap
  | .getCaptured =>
    if s.done then s
    else { s with out := { s.out with side := [] }, err := { s.err with side := [] },
                  events := s.events ++ [.captured s.out.side s.err.side] }
  | .getCapturedRef =>
    if s.done then s else { s with events := s.events ++ [.peeked s.out.side s.err.side] }
  | .close => if s.done then s else { s with out := s.out.close, err := s.err.close }
  | .finish => if s.done then { s with events := s.events ++ [.again] } else s.finish

/-- A schedule (`muxer.rs:11-211`, `capture_pipes.rs:15-117`). -/
def St.run (s : St) (as : List Act) : St := as.foldl St.step s

end Abq.Capture
