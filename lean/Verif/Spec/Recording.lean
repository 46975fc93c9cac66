import Verif.Model.Recording
/-! # Vocabulary for the recording of a run's results -/

namespace Abq.Recording
variable {T : Type}

/-- What happened to the file of a run. -/
def fileEvents (rid : RunId) (log : List (Obs T)) : List Results.Ev :=
  log.filterMap fun
    | .file r ev => if r = rid then some ev else none
    | _ => none

/-- What the registry was asked and answered. -/
def registryEvents (log : List (Obs T)) : List (Event T) :=
  log.filterMap fun
    | .registry ev => some ev
    | _ => none

/-- What the queue owes to the file of a run: for a manifest it accepted the number of its tests, and each batch of results it took. -/
def due (rid : RunId) (log : List (Obs T)) : List Report.Line :=
  log.filterMap fun
    | .registry (.manifest r flat true) => if r = rid then some (.summary flat.length) else none
    | .registry (.emptyManifest r true) => if r = rid then some (.summary 0) else none
    | .took r gs => if r = rid then some (.results gs) else none
    | _ => none

/-- The batches of results the queue took for a run. -/
def batches (rid : RunId) (log : List (Obs T)) : List (List Report.Group) :=
  log.filterMap fun
    | .took r gs => if r = rid then some gs else none
    | _ => none

/-- What the registry is asked in a schedule: for results of a worker, for the cell to record them. -/
def calls (acts : List (Act T)) : List (RunsAct T) :=
  acts.flatMap fun
    | .call a => [a]
    | .report rid _ => [.request rid .writeCell]
    | _ => []

/-- What is neither in the file nor counted as about to be. -/
def waiting (rid : RunId) (hs : List Handler) : List Report.Line :=
  hs.filterMap fun
    | .summary r n _ => if r = rid then some (.summary n) else none
    | .results r gs _ => if r = rid then some (.results gs) else none
    | .read _ => none

/-- No offload of this run's file is left half done (as in C17). -/
def Act.Safe (rid : RunId) : Act T → Prop
  | .offload r _ _ _ .syncFails => r ≠ rid
  | _ => True

instance (rid : RunId) : DecidablePred (Act.Safe (T := T) rid) := fun a => by
  unfold Act.Safe
  split <;> infer_instance

end Abq.Recording
