import Verif.Model.AllRuns

/-!
# The checks the queue makes on itself (`abq_queue/src/queue.rs`, `worker_tracking.rs`)

The queue states what it expects with `log_assert!` and `illegal_state!`
(`abq_utils/src/log_assert.rs:3-20`). An expectation that is not met is logged as an error and the
handler goes on, which is the behaviour of `Verif.Model.AllRuns`; in a build with debug assertions
it panics. Here the checks that fail are listed for each step of the registry.

Left out: `queue.rs:608, 666` (`old_run.is_none()` after `contains_key` said no under the same
write lock), and the checks of the stores (`persistence/manifest/fs.rs:196`,
`persistence/results/fs.rs:201, 247`), which are about the file system.
-/

namespace Abq

/-- A check that failed, with the entity the error names where there is one. -/
inductive Check where
  /-- `worker_tracking.rs:27-31, 46-50` "somehow, a non-worker entity is being tracked" -/
  | notAWorker (e : Entity)
  /-- `queue.rs:362-366` "a run must always be populated when looking up for worker" -/
  | runMissing
  /-- `queue.rs:379-383` "same worker connecting twice for manifest" -/
  | twiceForManifest (e : Entity)
  /-- `queue.rs:427-432` "same worker entity connecting to find run more than once" -/
  | sameEntityTwice (e : Entity)
  /-- `queue.rs:713-716` "can only provide manifest while waiting for manifest" -/
  | manifestAgain
  /-- `queue.rs:1222-1225` "attempting to mark failed to receive manifest after manifest was
  received" -/
  | failedAfterManifest
  /-- `queue.rs:1248-1251` "can only mark complete due to manifest while waiting for manifest" -/
  | emptyAfterManifest
  /-- `queue.rs:846` "work can only be requested after initialization metadata" -/
  | workBeforeManifest (e : Entity)
  /-- `queue.rs:1005-1009` "attempting to fetch retry manifest while waiting for manifest" -/
  | retryBeforeManifest (e : Entity)
  /-- `queue.rs:1069-1073` "should never mark completed worker for non-existent run" -/
  | completeUnknownRun (e : Entity)
  /-- `queue.rs:1080-1084` "should never mark completed worker while still waiting for manifest" -/
  | completeBeforeManifest (e : Entity)
  /-- `queue.rs:1089-1094` "worker was not seen as active before completion notification", in a
  run that is serving tests -/
  | notActive (e : Entity)
  /-- `queue.rs:1099-1103`, the same in a run whose tests are all handed out -/
  | notSeen (e : Entity)
  /-- `queue.rs:1134-1137` "Invalid state - queue is not complete!" -/
  | endTooEarly
  /-- `queue.rs:1153-1156` "tried to mark end of manifest while waiting for manifest" -/
  | endBeforeManifest
  /-- `queue.rs:1384-1390` "test index went backwards" -/
  | indexBackwards
  /-- `queue.rs:2455-2458` "Invalid state: timeout fired for non-existent run ID" -/
  | timerUnknownRun
  /-- `queue.rs:2730-2735` "got a manifest plan, but did not reach end of tests" -/
  | planBeforeEnd
deriving DecidableEq, Repr

/-- `log_assert!(check, ..)` (`log_assert.rs:4-12`): an entry iff the check is false. -/
def logAssert (check : Bool) (c : Check) : List Check := if check then [] else [c]

/-- `worker_tracking.rs:27-31, 46-50`: the check made whenever an entity is recorded. -/
def tracked (e : Entity) : List Check :=
  logAssert (match e.tag with | .runner _ => true | _ => false) (.notAWorker e)

namespace RunState
variable {T : Type}

/-- The checks of `find_or_create_run` once the run is known to exist (`queue.rs:370-504`). -/
def joinChecks (s : RunState T) (e : Entity) : List Check :=
  match s with
  | .waiting ws _ _ _ => tracked e ++ logAssert (ws.insertByTag e ()).2.isNone (.twiceForManifest e)
  | .hasWork _ _ _ act _ =>
    tracked e ++
      match (act.insertByTag e none).2 with
      | none => []
      | some (old, _) => if old.id = e.id then logAssert false (.sameEntityTwice e) else []
  | .done .. => []
  | .cancelled _ => []

/-- The checks of `add_manifest` (`queue.rs:689-740`). -/
def addManifestChecks (s : RunState T) : List Check :=
  match s with
  | .waiting ws _ _ _ => ws.flatMap (fun p => tracked p.1)
  | .cancelled _ => []
  | _ => [.manifestAgain]

/-- The checks of `mark_failed_to_receive_manifest` (`queue.rs:1205-1228`). -/
def manifestFailedChecks (s : RunState T) : List Check :=
  match s with
  | .waiting .. => []
  | .cancelled _ => []
  | _ => [.failedAfterManifest]

/-- The checks of `mark_empty_manifest_complete` (`queue.rs:1231-1274`). -/
def emptyManifestChecks (s : RunState T) : List Check :=
  match s with
  | .waiting .. => []
  | .cancelled _ => []
  | _ => [.emptyAfterManifest]

/-- The checks of `init_metadata` (`queue.rs:759-793`). -/
def initMetadataChecks (s : RunState T) (e : Entity) : List Check :=
  match s with
  | .done _ _ seen _ _ => if seen.containsByTag e then tracked e else []
  | _ => []

/-- The checks of `next_work` before the end is marked (`queue.rs:800-853`). -/
def pullChecks (s : RunState T) (e : Entity) : List Check :=
  match s with
  | .hasWork .. => tracked e
  | .done .. => tracked e
  | .cancelled _ => []
  | .waiting .. => [.workBeforeManifest e]

/-- The checks of `try_mark_reached_end_of_manifest` (`queue.rs:1125-1167`). -/
def markEndChecks (s : RunState T) : List Check :=
  match s with
  | .hasWork q _ _ act _ => logAssert q.isAtEnd .endTooEarly ++ act.flatMap (fun p => tracked p.1)
  | .cancelled _ => []
  | .done .. => []
  | .waiting .. => [.endBeforeManifest]

/-- The checks of `get_retry_manifest` (`queue.rs:1003-1059`). -/
def retryManifestChecks (s : RunState T) (e : Entity) : List Check :=
  match s with
  | .waiting .. => [.retryBeforeManifest e]
  | .hasWork .. => tracked e
  | .done _ _ _ (.cell true) _ => tracked e
  | _ => []

/-- The checks of `mark_worker_complete` (`queue.rs:1078-1108`). -/
def completeChecks (s : RunState T) (e : Entity) (time : Nat) : List Check :=
  match s with
  | .waiting .. => logAssert false (.completeBeforeManifest e)
  | .hasWork _ _ _ act _ =>
    tracked e ++
      logAssert (match (act.insertByTag e (some time)).2 with | some (_, none) => true | _ => false)
        (.notActive e)
  | .done _ _ seen _ _ => tracked e ++ logAssert (seen.insertByTag e false).2.isSome (.notSeen e)
  | .cancelled _ => []

/-- The checks of `mark_cancelled` (`queue.rs:1276-1305`). -/
def cancelChecks (s : RunState T) (e : Entity) : List Check :=
  match s with
  | .done .. => tracked e
  | _ => []

/-- The check of `query_manifest_progress_status` (`queue.rs:1381-1390`). -/
def progressChecks (s : RunState T) (last : Nat) : List Check :=
  match s with
  | .hasWork q _ _ _ _ => logAssert (decide (q.readIndex ≥ last)) .indexBackwards
  | _ => []

end RunState

namespace Runs
variable {T : Type}

/-- The checks a request fails (each method of `AllRuns`, `queue.rs:681-1404`). -/
def reqChecks (s : Option (RunState T)) (r : Req T) : List Check :=
  match s with
  | none =>
    match r with
    | .complete e _ => logAssert false (.completeUnknownRun e)
    | _ => []
  | some s =>
    match r with
    | .addManifest .. => s.addManifestChecks
    | .manifestFailed => s.manifestFailedChecks
    | .emptyManifest => s.emptyManifestChecks
    | .initMetadata e => s.initMetadataChecks e
    | .nextWork e => s.pullChecks e
    | .retryManifest e => s.retryManifestChecks e
    | .complete e time => s.completeChecks e time
    | .cancel e _ => s.cancelChecks e
    | .writeCell => []
    | .readCell => []
    | .status => []

/-- The checks a continuation fails when it is resumed (`queue.rs:352-504, 573-678, 1111-1203, 1333-1404, 2430-2460,
2713-2737`). -/
def contChecks (s : Option (RunState T)) (ans : RemoteAns) (ok : Bool) : Pending T → List Check
  | .joinRemote p =>
    -- the new `WorkerSet` is made before it is known whether the run is still missing
    match ans with
    | .found d => d.seen.flatMap tracked
    | .notFound => tracked p.entity
    | .incompatible => tracked p.entity
    | .error => []
  | .joinRead p =>
    match s with
    | none => [.runMissing]
    | some s => s.joinChecks p.entity
  | .pulled .. => []
  | .markEnd .. =>
    match s with
    | none => []
    | some s => s.markEndChecks
  | .respond _ _ _ eow plan => if ok && plan.isSome then logAssert eow .planBeforeEnd else []
  | .sub _ => []
  | .dumpManifest .. => []
  | .setPersisted _ => []
  | .dumpState .. => []
  | .timer _ last =>
    match s with
    | none => [.timerUnknownRun]
    | some s => s.progressChecks last
  | .timeoutWrite _ last =>
    match s with
    | none => [.timerUnknownRun]
    | some s => s.progressChecks last

/-- The checks a step fails, with the run it is about; a step that is not enabled makes none
(one critical section of `queue.rs:337-1443`). -/
def checks (σ : Runs T) : RunsAct T → List (RunId × Check)
  | .join _ => []
  | .request rid r =>
    if r.writes && σ.readLocked rid then [] else (reqChecks (σ.get rid) r).map (fun c => (rid, c))
  | .resume i ans ok =>
    match σ.pending[i]? with
    | none => []
    | some p =>
      if p.writes && σ.readLocked p.rid then []
      else (contChecks (σ.get p.rid) ans ok p).map (fun c => (p.rid, c))

end Runs
end Abq
