/-!
# A runner from its launch to its end, as the queue sees it

`crates/abq_runners/generic_test_runner/src/lib.rs:694-876` `run_async` and `run_help`, with the messages to the queue of
`crates/abq_workers/src/runner_strategy.rs`. Every `.await` is a step, and the signal to shut down may come at any of them
(`tokio::select!`, generic_test_runner/src/lib.rs:753-772). What `execute_all_tests` does once it has the initialization context is one step here; see
`Model/RunnerEnd.lean` for it.
-/

namespace Abq.RunnerStart

/-- Messages of a runner to the queue, `net_protocol.rs` `queue::Message`. -/
inductive Msg where
  | manifest
  | manifestError
  | ranAll
  | cancel
deriving DecidableEq, Repr

/-- Where the sending of a message is, `runner_strategy.rs:182-207, 270-306, 316-349`: connecting (5 attempts), writing, and
reading the acknowledgement. -/
inductive Conn where
  | connecting (attempt : Nat)
  | writing
  | reading
deriving DecidableEq, Repr

/-- How the task ends: with `Ok(TestRunnerExit)`, `Err(GenericRunnerError)`, or a panic (generic_test_runner/src/lib.rs:694-773). -/
inductive Outcome where
  | exit (code : Int)
  | error
  | panic
deriving DecidableEq, Repr

/-- What comes after a message was acknowledged (generic_test_runner/src/lib.rs:803-818, generic_test_runner/src/lib.rs:1047-1058). -/
inductive Then where
  | restart
  | fail
  | close (code : Int)
  | cancelled
deriving DecidableEq, Repr

/-- Where the runner is in generic_test_runner/src/lib.rs:694-1069. -/
inductive Stage where
  /-- generic_test_runner/src/lib.rs:729 `NativeRunnerHandle::new` -/
  | launching
  /-- generic_test_runner/src/lib.rs:797 `retrieve_manifest` -/
  | retrieving
  | telling (m : Msg) (c : Conn) (k : Then)
  /-- generic_test_runner/src/lib.rs:827 `reconcile_for_start_of_run` -/
  | restarting
  /-- generic_test_runner/src/lib.rs:931 `get_init_context` -/
  | context
  /-- generic_test_runner/src/lib.rs:934 `send_init_message` -/
  | init
  /-- generic_test_runner/src/lib.rs:941 `send_fast_exit_message` -/
  | fastExit (cancelled : Bool)
  /-- generic_test_runner/src/lib.rs:949-1069 -/
  | executing
  /-- generic_test_runner/src/lib.rs:841 collecting the output of the native runner -/
  | closing (r : Outcome)
  | ended (r : Outcome)
deriving DecidableEq, Repr

/-- What can be observed. `launched` is a native runner started successfully, and whether it was asked for the manifest
(`ABQ_GENERATE_MANIFEST`, generic_test_runner/src/lib.rs:475-477); `launchFailed` and `noManifest` are failures of it. -/
inductive Event where
  | launched (generate : Bool)
  | launchFailed (generate : Bool)
  | gotManifest
  | noManifest
  | sent (m : Msg)
  | shutdown
  /-- the queue could not be reached, or was lost, while a message was sent -/
  | lost (m : Msg)
  /-- while results were sent -/
  | resultsLost
  /-- the output of the native runner could not be collected -/
  | outputLost
deriving DecidableEq, Repr

/-- `asked`: the runner has to generate the manifest (`send_manifest` is `Some`) (generic_test_runner/src/lib.rs:694-712, generic_test_runner/src/lib.rs:797). -/
structure Run where
  asked : Bool
  stage : Stage := .launching
  events : List Event := []
deriving DecidableEq, Repr

/-- What the environment decides in generic_test_runner/src/lib.rs:694-1069. -/
inductive Act where
  /-- what is awaited succeeds -/
  | ok
  /-- what is awaited fails -/
  | fail
  /-- the queue answers that the run is complete, generic_test_runner/src/lib.rs:938 -/
  | complete (cancelled : Bool)
  /-- the native runner exits -/
  | exits (code : Int)
  /-- results cannot be sent, `results_handler.rs:83-109` -/
  | panic
  | shutdown
deriving DecidableEq, Repr

/-- `exit.rs:12` `ExitCode::CANCELLED`. -/
def cancelledCode : Int := 1

/-- The next stage (generic_test_runner/src/lib.rs:694-1069), with what is observed. -/
def Run.to (r : Run) (s : Stage) (evs : List Event := []) : Run := { r with stage := s, events := r.events ++ evs }

/-- After an acknowledgement: generic_test_runner/src/lib.rs:803-810 and on to generic_test_runner/src/lib.rs:827; generic_test_runner/src/lib.rs:811-818; generic_test_runner/src/lib.rs:1047-1058; generic_test_runner/src/lib.rs:757-771. -/
def Run.follow (r : Run) : Then → Run
  | .restart => r.to .restarting
  | .fail => r.to (.ended .error)
  | .close code => r.to (.closing (.exit code))
  | .cancelled => r.to (.ended (.exit cancelledCode))

/-- One step of sending a message: `retry.rs:13-26` with 5 attempts, then writing and reading, each of them with `unwrap`. -/
def Run.tell (r : Run) (m : Msg) (k : Then) : Conn → Act → Run
  | .connecting _, .ok => r.to (.telling m .writing k)
  | .connecting n, .fail => if n ≥ 5 then r.to (.ended .panic) [.lost m] else r.to (.telling m (.connecting (n + 1)) k)
  | .writing, .ok => r.to (.telling m .reading k) [.sent m]
  | .reading, .ok => r.follow k
  | .writing, .fail | .reading, .fail => r.to (.ended .panic) [.lost m]
  | _, _ => r

/-- The runner has not ended (generic_test_runner/src/lib.rs:753-772). -/
def Stage.live : Stage → Bool
  | .ended _ => false
  | .telling _ _ .cancelled => false
  | _ => true

/-- One step. Simplified: generic_test_runner/src/lib.rs:1047 `notify_all_tests_run` runs while the native runner exits, here after it. -/
def Run.step (r : Run) : Act → Run
  | .shutdown =>
    if r.stage.live then r.to (.telling .cancel (.connecting 1) .cancelled) [.shutdown] else r
  | a =>
    match r.stage, a with
    | .launching, .ok => r.to (if r.asked then .retrieving else .context) [.launched r.asked]
    | .launching, .fail =>
      if r.asked then r.to (.telling .manifestError (.connecting 1) .fail) [.launchFailed true]
      else r.to (.ended .error) [.launchFailed false]
    | .retrieving, .ok => r.to (.telling .manifest (.connecting 1) .restart) [.gotManifest]
    | .retrieving, .fail => r.to (.telling .manifestError (.connecting 1) .fail) [.noManifest]
    | .telling m c k, a => r.tell m k c a
    | .restarting, .ok => r.to .context [.launched false]
    | .restarting, .fail => r.to (.ended .error) [.launchFailed false]
    | .context, .ok => r.to .init
    | .context, .fail => r.to (.closing .error)
    | .context, .complete c => r.to (.fastExit c)
    | .init, .ok => r.to .executing
    | .init, .fail => r.to (.closing .error)
    | .fastExit c, .exits code => r.to (.closing (.exit (if c then max code cancelledCode else code)))
    | .fastExit _, .fail => r.to (.closing .error)
    | .executing, .exits code => r.to (.telling .ranAll (.connecting 1) (.close code))
    | .executing, .fail => r.to (.closing .error)
    | .executing, .panic => r.to (.ended .panic) [.resultsLost]
    | .closing o, .ok => r.to (.ended o)
    | .closing _, .fail => r.to (.ended .panic) [.outputLost]
    | _, _ => r

/-- A schedule (generic_test_runner/src/lib.rs:694-1069). -/
def Run.run (r : Run) (as : List Act) : Run := as.foldl Run.step r

end Abq.RunnerStart
