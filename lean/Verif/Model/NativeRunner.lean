/-!
# A worker and the process of its native runner

`crates/abq_runners/generic_test_runner/src/lib.rs:103-214, 303-1250`: what the worker waits for while it starts the native runner,
gets a manifest from it, has it run tests, starts it again for another attempt, and ends it; and for how long. The native
runner is any process: it may connect or not, send anything at any time, hang up, exit, and leave processes behind that keep its
output open.

Simplifications. A message arrives as a whole (a message that arrives in part is waited for for 10 s at most, C15). Writing to the
native runner does not block. A process that exits, or is killed, hangs up. The fetching of tests and the sending of results, which
run beside this, are `Model/RunnerEnd.lean`; here they are always ready.
-/

namespace Abq.NativeRunner

/-- Messages of the native runner (lib.rs:127, 157, 580, 1192, 1220). `increment` is a part of the results of a
test; `results` is all of them, or the rest of them; `garbage` cannot be read as any message. -/
inductive Msg where
  | version (supported : Bool)
  | manifest
  | manifestFailure
  | initSuccess
  | increment
  | results
  | garbage
deriving DecidableEq, Repr

/-- The native runner's end of the connection (lib.rs:120-130). -/
inductive Conn where
  | none
  | opened
  | closed
deriving DecidableEq, Repr

/-- A process (`process::Child`, lib.rs:472-501). -/
structure Proc where
  alive : Bool := true
  conn : Conn := .none
  /-- sent, and not read by the worker -/
  inbox : List Msg := []
  /-- the process, or one that it started, has its output open -/
  outputOpen : Bool := true
deriving DecidableEq, Repr

/-- What a native runner is started for: the manifest (lib.rs:730-737), the first attempts at tests (lib.rs:604-623, 730-737), or
later attempts (lib.rs:627-678). -/
inductive Purpose where
  | manifest | run | retry
deriving DecidableEq, Repr

/-- How the worker ends: lib.rs:757-771, 862-875, and a panic in `finish` (lib.rs:845). -/
inductive Outcome where
  | exit | error | cancelled | panic
deriving DecidableEq, Repr

/-- What the worker is waiting for (lib.rs:103-1070). -/
inductive Phase where
  /-- a connection (lib.rs:120) -/
  | accepting
  /-- the first message on it (lib.rs:127) -/
  | greeting
  /-- the end of a native runner that did not connect as it should (lib.rs:541-563) -/
  | refused
  /-- the manifest (lib.rs:206, 157) -/
  | manifest
  /-- the exit after it (lib.rs:210) -/
  | manifestExit (ok : Bool)
  /-- the rest of the output (lib.rs:172) -/
  | manifestOutput (ok : Bool)
  /-- the queue, to say what to start with (lib.rs:931) -/
  | context
  /-- the answer to it (lib.rs:580) -/
  | initializing
  /-- the exit of a native runner that is not needed (lib.rs:598) -/
  | fastExit
  /-- a test (lib.rs:982) -/
  | idle
  /-- the exit of the native runner of earlier attempts (lib.rs:645), and the rest of its output (lib.rs:648) -/
  | restartExit
  | restartOutput
  /-- the results of a test (lib.rs:1192, 1220) -/
  | testing
  /-- the exit of a native runner that failed on a test (lib.rs:1015) -/
  | lost
  /-- the exit after all tests (lib.rs:1054) -/
  | closing
  /-- the rest of the output, at the end (lib.rs:842-847) -/
  | output (r : Outcome)
  /-- nothing: it has returned (lib.rs:753-772) -/
  | ended (r : Outcome)
deriving DecidableEq, Repr

/-- What the queue hears: the manifest, that there is none (lib.rs:803-818), and tests that were lost (lib.rs:1018-1035). -/
inductive Note where
  | manifest | noManifest | lost
deriving DecidableEq, Repr

/-- A worker. `NativeRunnerState` (lib.rs:351-382). -/
structure St where
  phase : Phase
  purpose : Purpose
  /-- the native runner at hand -/
  proc : Proc
  /-- the one before it, until the one at hand has connected (lib.rs:611, 659: the state is only replaced then) -/
  old : Option Proc := none
  /-- native runners whose handle was dropped -/
  dropped : List Proc := []
  /-- `child_output.close` was called (lib.rs:367) -/
  captureClosed : Bool := false
  /-- `child_output.finish` has returned (lib.rs:648) -/
  captureFinished : Bool := false
  notes : List Note := []
deriving DecidableEq, Repr

/-- Steps: of the native runner, of time, of the queue, of the system, and of the worker itself, which goes on if what it waits for
is there (lib.rs:103-1070). -/
inductive Act where
  | connect | say (m : Msg) | hangUp | exit | closeOutput
  /-- a time limit passes -/
  | limit
  /-- the queue says what to start with; there may be nothing to do; or it cannot be reached. `wrote`: if the native runner has
  hung up, whether writing to it, or shutting the connection down, goes through all the same -/
  | context (tests wrote : Bool) | noContext
  /-- a test, of the attempt the native runner was started for or of the next one; no more tests -/
  | test (again wrote : Bool) | noTests (wrote : Bool)
  /-- the process cannot be started (lib.rs:462-495) -/
  | notStarted
  | go
  /-- the signal to shut down -/
  | cancel
deriving DecidableEq, Repr

/-- lib.rs:730-737, 401-427: the first native runner. -/
def init (manifest : Bool) : St :=
  { phase := .accepting, purpose := if manifest then .manifest else .run, proc := {} }

/-- What becomes of a process that is killed: when its handle is dropped, for `kill_on_drop(true)` (lib.rs:488), by `kill`
(lib.rs:365-369), or after it failed to connect (lib.rs:559). -/
def Proc.kill (p : Proc) : Proc := { p with alive := false, conn := if p.conn = .opened then .closed else p.conn }

/-- The worker returns, and its handles are dropped (lib.rs:753-772, 818-827, 862-876). -/
def St.end (s : St) (r : Outcome) : St :=
  { s with phase := .ended r, proc := s.proc.kill, old := none,
           dropped := (s.old.toList.map Proc.kill) ++ s.dropped }

/-- The native runner did not start as it should (lib.rs:511-524): lib.rs:800, 811-818 for a manifest; lib.rs:823, 827 for the first
attempts; for later ones `reconcile_run_number` returns the error (lib.rs:668-669, 988-991) and the handle still holds the native
runner of earlier attempts, the output of which has been collected (lib.rs:648). -/
def St.refuse (s : St) : St :=
  match s.purpose with
  | .manifest => { s.end .error with notes := s.notes ++ [.noManifest] }
  | .run => s.end .error
  | .retry =>
    match s.old with
    | some p => { s with phase := .output .error, proc := p, old := none, dropped := s.proc.kill :: s.dropped, captureFinished := true }
    | none => s

/-- The process that could not be started (lib.rs:495). -/
def Proc.never : Proc := { alive := false, outputOpen := false }

/-- A message is read (lib.rs:84-86): `none` if it is not there yet, `some none` if the connection was closed before it came. -/
def Proc.read (p : Proc) : Option (Option Msg × Proc) :=
  match p.inbox with
  | m :: rest => some (some m, { p with inbox := rest })
  | [] => if p.conn = .opened then none else some (none, p)

/-- lib.rs:453-507 `new_native_runner`, up to its first wait. -/
def St.start (s : St) (purpose : Purpose) : St :=
  { s with phase := .accepting, purpose := purpose, old := some s.proc, proc := {} }

/-- lib.rs:527-536, 611, 659: the native runner has connected, and takes the place of the one before it. -/
def St.connected (s : St) (p : Proc) : St :=
  { s with proc := p, old := none, dropped := (s.old.toList.map Proc.kill) ++ s.dropped,
           phase := match s.purpose with
             | .manifest => .manifest
             | .run => .context
             | .retry => .initializing }

/-- The worker goes on, if what it waits for is there. -/
def St.go (s : St) : St :=
  match s.phase with
  -- lib.rs:120-125
  | .accepting => if s.proc.conn = .none then s else { s with phase := .greeting }
  -- lib.rs:127-142
  | .greeting =>
    match s.proc.read with
    | none => s
    | some (some (.version true), p) => s.connected p
    | some (_, p) => { s with proc := p, phase := .refused }
  -- lib.rs:553-557
  | .refused => if s.proc.outputOpen then s else s.refuse
  -- lib.rs:206-208, 156-160
  | .manifest =>
    match s.proc.read with
    | none => s
    | some (some .manifest, p) => { s with proc := p, phase := .manifestExit true }
    | some (some .manifestFailure, p) => { s with proc := p, phase := .manifestExit false }
    | some (_, p) => { s with proc := p, phase := .manifestOutput false }
  -- lib.rs:210
  | .manifestExit ok => if s.proc.alive then s else { s with phase := .manifestOutput ok }
  -- lib.rs:172-191, 803-819, 827
  | .manifestOutput ok =>
    if s.proc.outputOpen then s
    else if ok then ({ s with notes := s.notes ++ [Note.manifest] } : St).start .run
    else { s.end .error with notes := s.notes ++ [.noManifest] }
  -- lib.rs:580, 673
  | .initializing =>
    match s.proc.read with
    | none => s
    | some (some .initSuccess, p) => { s with proc := p, phase := if s.purpose = .retry then .testing else .idle }
    | some (_, p) => { s with proc := p, phase := .output .error }
  -- lib.rs:598-599, 941-945
  | .fastExit => if s.proc.alive then s else { s with phase := .output .exit }
  -- lib.rs:645
  | .restartExit => if s.proc.alive then s else { s with phase := .restartOutput }
  -- lib.rs:648-669
  | .restartOutput => if s.proc.outputOpen then s else s.start .retry
  -- lib.rs:1192-1241, 1150-1162
  | .testing =>
    match s.proc.read with
    | none => s
    | some (some .increment, p) => { s with proc := p }
    | some (some .results, p) => { s with proc := p, phase := .idle }
    | some (_, p) => { s with proc := p, phase := .lost }
  -- lib.rs:1015-1035
  | .lost => if s.proc.alive then s else { s with phase := .output .error, notes := s.notes ++ [.lost] }
  -- lib.rs:1054-1059
  | .closing => if s.proc.alive then s else { s with phase := .output .exit }
  -- lib.rs:842-847: to await tasks again that have returned is a panic (capture_pipes.rs:100); after `close` there are only
  -- trivial ones (capture_pipes.rs:80-87; that this may panic too is left to `Model/Capture.lean`)
  | .output r =>
    if s.captureFinished then s.end .panic
    else if s.captureClosed then s.end r
    else if s.proc.outputOpen then s
    else s.end r
  | .context | .idle | .ended _ => s

/-- Writing to the native runner, or shutting the connection down, goes through unless it has hung up (lib.rs:87-89, 597, 643,
1048-1053, 1191). -/
def St.wrote (s : St) (wrote : Bool) : Bool := wrote || s.proc.conn != .closed

/-- One step.

`limit`: `protocol_version_timeout` for a connection (lib.rs:115-118), and again for the end of one that failed (lib.rs:558-561);
`test_timeout` for a test (lib.rs:1118-1127).

`context`: lib.rs:931-946, 565-600. `test`: lib.rs:982-991, 643, 1191. `noTests`: lib.rs:1046-1055. `notStarted`: lib.rs:462-463, 495.

`cancel`: lib.rs:757-772. -/
def St.step (s : St) : Act → St
  | .connect => if s.proc.alive ∧ s.proc.conn = .none then { s with proc := { s.proc with conn := .opened } } else s
  | .say m =>
    if s.proc.alive ∧ s.proc.conn = .opened then { s with proc := { s.proc with inbox := s.proc.inbox ++ [m] } } else s
  | .hangUp => if s.proc.conn = .opened then { s with proc := { s.proc with conn := .closed } } else s
  | .exit => { s with proc := s.proc.kill }
  | .closeOutput => { s with proc := { s.proc with outputOpen := false } }
  | .limit =>
    match s.phase with
    | .accepting => { s with phase := .refused }
    | .refused => ({ s with proc := s.proc.kill } : St).refuse
    | .testing => { s with proc := s.proc.kill, captureClosed := true, phase := .lost }
    | _ => s
  | .context tests wrote =>
    if s.phase = .context then
      { s with phase := if s.wrote wrote then (if tests then .initializing else .fastExit) else .output .error }
    else s
  | .noContext => if s.phase = .context then { s with phase := .output .error } else s
  | .test again wrote =>
    if s.phase = .idle then
      { s with phase := if again then (if s.wrote wrote then .restartExit else .output .error)
                        else (if s.wrote wrote then .testing else .lost) }
    else s
  | .noTests wrote =>
    if s.phase = .idle then { s with phase := if s.wrote wrote then .closing else .output .error } else s
  | .notStarted => if s.phase = .accepting ∧ s.proc = {} then ({ s with proc := Proc.never } : St).refuse else s
  | .go => s.go
  | .cancel =>
    match s.phase with
    | .ended _ => s
    | _ => s.end .cancelled

/-- A schedule (lib.rs:753-772). -/
def St.run (s : St) (as : List Act) : St := as.foldl St.step s

end Abq.NativeRunner
