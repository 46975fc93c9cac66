import Verif.Model.AllRuns

/-!
# Replaying a run

`crates/abq_cli/src/main.rs:461-464` and `workers.rs:32-36, 108`: with a personal access token `abq test` works through a run
without sending results. `crates/abq_workers/src/runner_strategy.rs:137-151`: this is the only difference to other workers.
-/

namespace Abq.Replay

/-- `crates/abq_hosted/src/config.rs:36-41` `AccessTokenKind`. -/
inductive TokenKind where
  | organization | personal
deriving DecidableEq, Repr

/-- `workers.rs:34-37` `ExecutionMode`. -/
inductive Mode where
  | writeNormal | readonly
deriving DecidableEq, Repr

/-- `main.rs:461-464`. -/
def modeOf : Option TokenKind → Mode
  | some .personal => .readonly
  | _ => .writeNormal

/-- What a worker and its runners send to the queue: `negotiate.rs:335-341` to attach, `runner_strategy.rs:193-199` all tests
were run, `:233-246` for the init context, `:286-292` the manifest, `:330-350` cancellation,
`out_of_process_retry_manifest_fetcher.rs` and `persistent_test_fetcher.rs` for tests, `results_handler.rs` the results. -/
inductive Msg (T : Type) where
  | attach (p : JoinParams)
  | initContext (e : Entity)
  | manifest (flat : List (T × Nat)) (md : String)
  | emptyManifest
  | manifestFailed
  | retryManifest (e : Entity)
  | nextTests (e : Entity)
  | results (e : Entity)
  | ranAllTests (e : Entity) (time : Nat)
  | cancel (e : Entity)
deriving DecidableEq, Repr

/-- Which of these a worker sends: `workers.rs:108` `should_send_results` and `runner_strategy.rs:137-151`. -/
def Mode.sends {T : Type} (m : Mode) : Msg T → Bool
  | .results _ => m == .writeNormal
  | _ => true

/-- What the queue does on such a message (`queue.rs:1744-1770, 2000-2360, 2640-2730`). Of results only that the cell is asked for
is in `Model.AllRuns`. -/
def Msg.act {T : Type} (rid : RunId) : Msg T → RunsAct T
  | .attach p => .join p
  | .initContext e => .request rid (.initMetadata e)
  | .manifest flat md => .request rid (.addManifest flat md)
  | .emptyManifest => .request rid .emptyManifest
  | .manifestFailed => .request rid .manifestFailed
  | .retryManifest e => .request rid (.retryManifest e)
  | .nextTests e => .request rid (.nextWork e)
  | .results _ => .request rid .writeCell
  | .ranAllTests e time => .request rid (.complete e time)
  | .cancel e => .request rid (.cancel e .user)

end Abq.Replay
