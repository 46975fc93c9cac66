import Verif.Model.ManifestStore
import Verif.Model.Names

/-!
# The offload jobs over a directory

`run_offload_job` and `wrapped_offload_one_results_file` of
`abq_queue/src/persistence/{results,manifest}/fs.rs`, which walk the directory of the results files or of the
manifest files. The two walks are the same text; they differ in the suffix of the names and in
`perform_offload`.

A store is the state of the files of all runs: for every run id the machine of its file (`Results.Res`,
`ManifestStore.Store`). That different run ids have different files is property C21; run ids with a slash in
them, for which it fails, have no file in the directory that is walked.
-/

namespace Abq.OffloadJob
open Abq.Names (Str Local join runIdOfPath)
open Abq.Results (OffloadConfig OffloadOut fileEligible)

/-- An entry of the directory as `read_dir` and `DirEntry::metadata` give it (`results/fs.rs:220,244`,
`manifest/fs.rs:171,196`). `name` is `none` if it is not valid UTF-8, `seen` the access time and the size, or
`none` if the metadata could not be read. Simplification: that the entry is a directory is only logged
(`log_assert!`), so it makes no difference here. -/
structure Entry where
  name : Option Str
  seen : Option (Nat × Nat)
deriving DecidableEq, Repr

/-- What a visit of an entry comes to: `Err`, `Ok(None)` or `Ok(Some(run_id))` (`results/fs.rs:240-262`,
`manifest/fs.rs:189-209`). -/
inductive Outcome where
  | failed
  | skipped
  | offloaded (runId : Str)
deriving DecidableEq, Repr

/-- `results/fs.rs:80-97`, `manifest/fs.rs:59-76` `run_id_of_path` of an entry of `root`. -/
def runIdOf (root : Str) (k : Local) (e : Entry) : Option Str :=
  e.name.bind (fun n => runIdOfPath k (join root n))

/-- `wrapped_offload_one_results_file` (`results/fs.rs:238-262`, `manifest/fs.rs:190-209`) up to the call of
`perform_offload`: the run it is called for, if it is. -/
inductive Chosen where
  | failed
  | skipped
  | run (runId : Str)
deriving DecidableEq, Repr

/-- See `Chosen`. The metadata is that read without any lock (`results/fs.rs:215-262`, `manifest/fs.rs:163-209`). -/
def choose (root : Str) (k : Local) (c : OffloadConfig) (now : Nat) (e : Entry) : Chosen :=
  match e.seen with
  | none => .failed
  | some (accessed, size) =>
    if fileEligible c now accessed size then
      match runIdOf root k e with
      | none => .failed
      | some r => .run r
    else .skipped

/-- `results/fs.rs:264-319` `perform_offload`: what it returns, `none` being an error. Its effect on the file
is `Results.offload`. A failure to read the metadata under the lock has the effect of `storeFails`. -/
def performResults (σ : Results.Res) (c : OffloadConfig) (now accessed : Nat) (o : OffloadOut) :
    Results.Res × Option Bool :=
  (Results.offload σ c now accessed o,
    match σ.fd with
    | none => none
    | some .offloaded => some false
    | some .opened =>
      if fileEligible c now accessed σ.disk.length then
        match o with
        | .ok => some true
        | _ => none
      else some false)

/-- `manifest/fs.rs:211-242` `perform_offload`: as `performResults`. `storeFails` is a failure before the
file is truncated: opening it, locking it, reading its metadata. -/
def performManifest (s : ManifestStore.Store) (c : OffloadConfig) (now accessed : Nat) (o : OffloadOut) :
    ManifestStore.Store × Option Bool :=
  match o with
  | .storeFails => (s, none)
  | .ok =>
    (ManifestStore.offload s c now accessed true, some (fileEligible c now accessed s.disk.length))
  | .truncateFails =>
    (ManifestStore.offload s c now accessed false,
      if fileEligible c now accessed s.disk.length then none else some false)
  | .syncFails =>
    (ManifestStore.offload s c now accessed true,
      if fileEligible c now accessed s.disk.length then none else some false)

/-- A job for files of one kind, whose machines have type `S` and steps of type `A` (`results/fs.rs:215-262`,
`manifest/fs.rs:163-209`). -/
structure Job (S A : Type) where
  root : Str
  kind : Local
  config : OffloadConfig
  now : Nat
  /-- a step of anyone else on the file of a run -/
  step : S → A → S
  perform : S → OffloadConfig → Nat → Nat → OffloadOut → S × Option Bool

/-- The job of `results/fs.rs:213-236`. -/
def resultsJob (root : Str) (c : OffloadConfig) (now : Nat) : Job Results.Res Results.Act :=
  { root, kind := .results, config := c, now, step := Results.step, perform := performResults }

/-- The job of `manifest/fs.rs:162-188`. -/
def manifestJob {V : Type} (codec : ManifestStore.Codec V) (root : Str) (c : OffloadConfig) (now : Nat) :
    Job ManifestStore.Store (ManifestStore.Act V) :=
  { root, kind := .manifest, config := c, now, step := fun s a => (ManifestStore.step codec s a).1
    perform := performManifest }

/-- What happens while a job runs: others use the file of a run, or the job visits its next entry. `accessed`
is the access time read under the lock (`results/fs.rs:215-262`, `manifest/fs.rs:163-209`). -/
inductive Move (A : Type) where
  | other (runId : Str) (a : A)
  | visit (e : Entry) (accessed : Nat) (o : OffloadOut)
deriving DecidableEq, Repr

/-- Changing the file of one run (`results/fs.rs:215-262`, `manifest/fs.rs:163-209`). -/
def set {S : Type} (w : Str → S) (r : Str) (s : S) : Str → S := fun r' => if r' = r then s else w r'

/-- One visit: the store afterwards and what the visit came to (`results/fs.rs:238-262`,
`manifest/fs.rs:190-209`). -/
def visit {S A : Type} (j : Job S A) (w : Str → S) (e : Entry) (accessed : Nat) (o : OffloadOut) :
    (Str → S) × Outcome :=
  match choose j.root j.kind j.config j.now e with
  | .failed => (w, .failed)
  | .skipped => (w, .skipped)
  | .run r =>
    let p := j.perform (w r) j.config j.now accessed o
    (set w r p.1,
      match p.2 with
      | none => .failed
      | some false => .skipped
      | some true => .offloaded r)

/-- The loop of `run_offload_job` (`results/fs.rs:221-233`, `manifest/fs.rs:172-185`): the store and the ids
in `offloaded_run_ids`. -/
def runMoves {S A : Type} (j : Job S A) (w : Str → S) : List (Move A) → (Str → S) × List Str
  | [] => (w, [])
  | .other r a :: ms => runMoves j (set w r (j.step (w r) a)) ms
  | .visit e acc o :: ms =>
    let v := visit j w e acc o
    let rest := runMoves j v.1 ms
    (rest.1,
      match v.2 with
      | .offloaded r => r :: rest.2
      | _ => rest.2)

/-- `run_offload_job`: the store and the summary, which is lost if reading the directory fails, at its
beginning or in the middle (`results/fs.rs:218,221`, `manifest/fs.rs:169,172`). -/
def runJob {S A : Type} (j : Job S A) (w : Str → S) (ms : List (Move A)) (listed : Bool) :
    (Str → S) × Option (List Str) :=
  ((runMoves j w ms).1, if listed then some (runMoves j w ms).2 else none)

end Abq.OffloadJob
