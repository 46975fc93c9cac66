import Verif.Model.OffloadJob
import Verif.Model.RunStateDoc

/-!
# The remote persistence of a queue: from its options to the calls

`abq_cli/src/instance/remote_persistence.rs` (which persister the options of `abq start` give),
`abq_cli/src/instance.rs:163-218` (which offload jobs are scheduled),
`abq_queue/src/persistence/remote/{s3,custom}.rs` (what the persisters ask of the object store or of the command).
-/

namespace Abq.RemoteConfig
open Abq.Names (Str Kind buildKey)
open Abq.Results (Bytes LoadOut)

/-- `remote_persistence.rs:20-24` `RemotePersistenceStrategy`. -/
inductive Strategy where
  | s3
  | custom
deriving DecidableEq, Repr

/-- `remote_persistence.rs:26-33` `Display`. -/
def Strategy.str : Strategy → Str
  | .s3 => "s3".toList
  | .custom => "custom".toList

/-- `remote_persistence.rs:35-45` `FromStr`; `none` is the error. -/
def parseStrategy (s : Str) : Option Strategy :=
  if s = "s3".toList then some .s3
  else if s = "custom".toList then some .custom
  else none

/-- The options of `abq start` about remote persistence (`args.rs:148-216`), and
`remote_persistence.rs:47-60`. Cron schedules are taken as opaque. -/
structure Options where
  strategy : Option Strategy
  command : Option Str
  bucket : Option Str
  keyPrefix : Option Str
  offloadManifests : Option Str
  offloadResults : Option Str
  staleHours : Nat
deriving DecidableEq, Repr

/-- The persister a queue works with (`remote_persistence.rs:77-113`). -/
inductive Persister where
  | noop
  | s3 (bucket keyPrefix : Str)
  | custom (command : Str) (headArgs : List Str)
deriving DecidableEq, Repr

/-- Errors of `resolve`: an option is missing (`missing_arg_for`, remote_persistence.rs:116-122), or the program is built without S3. -/
inductive Wrong where
  | missingBucket
  | missingKeyPrefix
  | missingCommand
  | noS3
deriving DecidableEq, Repr

/-- `str::split(',')`: never empty (`remote_persistence.rs:157`). -/
def splitComma : Str → List Str
  | [] => [[]]
  | c :: cs =>
    if c = ',' then [] :: splitComma cs
    else
      match splitComma cs with
      | [] => [[c]]
      | p :: ps => (c :: p) :: ps

/-- `remote_persistence.rs:149-163` `build_custom_strategy`. `Vec::remove(0)` panics on an empty vector, which
`split` never gives; here that case is the empty command. -/
def buildCustom (command : Option Str) : Except Wrong Persister :=
  match command with
  | none => .error .missingCommand
  | some c =>
    match splitComma c with
    | [] => .ok (.custom [] [])
    | p :: ps => .ok (.custom p ps)

/-- `remote_persistence.rs:125-147` `build_s3_strategy`. -/
def buildS3 (bucket keyPrefix : Option Str) : Except Wrong Persister :=
  match bucket with
  | none => .error .missingBucket
  | some b =>
    match keyPrefix with
    | none => .error .missingKeyPrefix
    | some p => .ok (.s3 b p)

/-- `remote_persistence.rs:78-113` `resolve`; `s3Feature` is whether the program is built with S3. -/
def resolve (s3Feature : Bool) (o : Options) : Except Wrong Persister :=
  match o.strategy with
  | none => .ok .noop
  | some .s3 => if s3Feature then buildS3 o.bucket o.keyPrefix else .error .noS3
  | some .custom => buildCustom o.command

/-- `instance.rs:163-218` `build_scheduled_jobs`: the kinds of files that have an offload job. -/
def scheduled (o : Options) : List Names.Local :=
  (match o.offloadManifests with | some _ => [.manifest] | none => []) ++
  (match o.offloadResults with | some _ => [.results] | none => [])

/-- `main.rs:346-355` and `instance.rs:177`: the threshold of these jobs, in seconds. Hours are a `u32`, the
product is taken in `u64`: it does not overflow. -/
def threshold (o : Options) : Nat := (o.staleHours % 2 ^ 32) * 60 * 60 % 2 ^ 64

/-! ## Calls -/

/-- The local files, and what is in the remote: the objects of the bucket, or whatever the command keeps
(`remote.rs:70-99`). -/
structure World (E : Type) where
  disk : Str → Option Bytes
  remote : E

/-- Changing a file (`s3.rs:109-143`, `custom.rs:99-117`). -/
def put {X : Type} (f : Str → Option X) (k : Str) (v : X) : Str → Option X :=
  fun k' => if k' = k then some v else f k'

/-- How the remote takes an upload (`s3.rs:117-122`): it may fail without an effect, and it may have one though an error is
returned, as when the answer is lost. -/
inductive StoreOut where
  | ok
  | refused
  | unanswered
deriving DecidableEq, Repr

/-- `RemotePersistence::{store_from_disk, load_to_disk}`, or a change of a local file by someone else. A download can also be cut
(`remote.rs:72-86`). -/
inductive Op where
  | store (k : Kind) (runId path : Str) (out : StoreOut)
  | load (k : Kind) (runId path : Str) (out : LoadOut)
  | write (path : Str) (bytes : Bytes)
deriving DecidableEq, Repr

/-- The store over S3: `remote/s3.rs:110-147`. The bucket is a map from keys to objects. -/
def s3Step (pre : Str) (w : World (Str → Option Bytes)) : Op → World (Str → Option Bytes) × Bool
  | .write p b => ({ w with disk := put w.disk p b }, true)
  | .store k r p out =>
    match w.disk p with
    | none => (w, false)
    | some b =>
      match out with
      | .ok => ({ w with remote := put w.remote (buildKey pre k r) b }, true)
      | .refused => (w, false)
      | .unanswered => ({ w with remote := put w.remote (buildKey pre k r) b }, false)
  | .load k r p out =>
    match w.remote (buildKey pre k r) with
    | none => (w, false)
    | some b =>
      match out with
      | .ok => ({ w with disk := put w.disk p b }, true)
      | .refused => (w, false)
      | .cut n => ({ w with disk := put w.disk p (b.take n) }, false)

/-- What running a program with arguments does; `none` if it could not be run, otherwise whether it exited with
success (`custom.rs:58-94`). -/
abbrev Exec (E : Type) := Str → List Str → World E → World E × Option Bool

/-- `remote/custom.rs:58-94` `call`. -/
def call {E : Type} (exec : Exec E) (command : Str) (headArgs : List Str) (load : Bool) (k : Kind)
    (runId path : Str) (w : World E) : World E × Bool :=
  let action := if load then "load".toList else "store".toList
  let out := exec command (headArgs ++ [action, k.str, runId, path]) w
  (out.1, out.2 = some true)

/-- `remote/custom.rs:100-118`. Here the program decides what fails. -/
def customStep {E : Type} (exec : Exec E) (command : Str) (headArgs : List Str) (w : World E) :
    Op → World E × Bool
  | .write p b => ({ w with disk := put w.disk p b }, true)
  | .store k r p _ => call exec command headArgs false k r p w
  | .load k r p _ => call exec command headArgs true k r p w

/-- `remote/custom.rs:120-144` `store_run_state`: the document goes through a new temporary file `tmp`. -/
def customStoreState {E : Type} (exec : Exec E) (command : Str) (headArgs : List Str) (runId tmp : Str)
    (doc : Bytes) (w : World E) : World E × Bool :=
  call exec command headArgs false .runState runId tmp { w with disk := put w.disk tmp doc }

/-- `remote/custom.rs:146-180` `try_load_run_state`. The temporary file, which is new and so empty, is reopened
and read whatever the program did with it. -/
def customLoadState {E : Type} (m : RunStateDoc.Meta) (t : RunStateDoc.Text) (exec : Exec E) (command : Str)
    (headArgs : List Str) (runId tmp : Str) (w : World E) : World E × RunStateDoc.Loaded m :=
  let out := call exec command headArgs true .runState runId tmp { w with disk := put w.disk tmp [] }
  (out.1,
    if out.2 then
      match out.1.disk tmp with
      | none => .error
      | some b =>
        match RunStateDoc.deserialize m t b with
        | .ok s => .found s
        | .incompatible v => .incompatible v
        | .other => .error
    else .notFound)

end Abq.RemoteConfig
