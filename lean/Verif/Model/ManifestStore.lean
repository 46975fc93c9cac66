import Verif.Model.ManifestView
import Verif.Model.Results

/-!
# Persistence of manifests on the local disk and in the remote

`abq_queue/src/persistence/manifest/fs.rs`, for the file of one run. Every operation holds the exclusive
lock of the file from beginning to end (`get_locked_file`, manifest/fs.rs:78-105), so that each is one step. A failure
leaves the file as a crash of the queue at that point would, so histories with failures cover crashes:
the persistor keeps no state in memory.
-/

namespace Abq.ManifestStore
open Abq.Results (Bytes LoadOut load store OffloadConfig fileEligible)

/-- What is used of `serde_json`: `encode` is `to_writer`, `decode` is `from_reader`, which reads a file
byte by byte; in case of failure it says how many bytes it had consumed. The laws are assumptions on the
library: what was written is read back; an incomplete document is not a document; and neither is a
document without its beginning (`manifest/fs.rs:106-133, 247-275`). -/
structure Codec (V : Type) where
  encode : V → Bytes
  decode : Bytes → Except Nat V
  roundtrip : ∀ v, decode (encode v) = .ok v
  prefix_fails : ∀ v j, j < (encode v).length → ∃ k, k ≤ j ∧ decode ((encode v).take j) = .error k
  suffix_fails : ∀ v k, 0 < k → ∃ e, decode ((encode v).drop k) = .error e

/-- The local file (empty: none) and the remote copy of the manifest of a run (`manifest/fs.rs:26-36`). -/
structure Store where
  noop : Bool
  disk : Bytes
  remote : Option Bytes
deriving DecidableEq, Repr

/-- Outcome of `dump` (`manifest/fs.rs:247-275`). -/
inductive DumpOut where
  | ok
  | openFails
  /-- the write broke off after `k` bytes -/
  | cut (k : Nat)
  | storeFails
  /-- the file was stored, but the answer was lost -/
  | unanswered
deriving DecidableEq, Repr

/-- The file after writing `bytes` at its beginning. It was opened without truncation
(`manifest/fs.rs:91-96`). -/
def overwrite (disk bytes : Bytes) : Bytes := bytes ++ disk.drop bytes.length

/-- `manifest/fs.rs:247-275` `dump`: whether it succeeded, and the storage afterwards. -/
def dump {V : Type} (c : Codec V) (s : Store) (v : V) : DumpOut → Bool × Store
  | .ok =>
    let disk := overwrite s.disk (c.encode v)
    (true, { s with disk, remote := store s.noop s.remote disk })
  | .openFails => (false, s)
  | .cut k => (false, { s with disk := overwrite s.disk ((c.encode v).take k) })
  | .storeFails => (false, { s with disk := overwrite s.disk (c.encode v) })
  | .unanswered =>
    let disk := overwrite s.disk (c.encode v)
    (false, { s with disk, remote := store s.noop s.remote disk })

/-- `manifest/fs.rs:107-160` `load_manifest_view`. When the file does not parse, the remote copy is written
over it and the same descriptor is read on from where it stood. -/
def fetch {V : Type} (c : Codec V) (s : Store) (openOk : Bool) (o : LoadOut) : Option V × Store :=
  if openOk then
    match c.decode s.disk with
    | .ok v => (some v, s)
    | .error k =>
      let l := load s.remote s.disk o
      if l.1 then
        match c.decode (l.2.drop k) with
        | .ok v => (some v, { s with disk := l.2 })
        | .error _ => (none, { s with disk := l.2 })
      else (none, { s with disk := l.2 })
  else (none, s)

/-- `manifest/fs.rs:211-242` `perform_offload`; `truncated` is whether `set_len` succeeded, what
`sync_all` answers makes no difference to the file. -/
def offload (s : Store) (c : OffloadConfig) (now accessed : Nat) (truncated : Bool) : Store :=
  if fileEligible c now accessed s.disk.length && truncated then { s with disk := [] } else s

/-- An operation, with the answers of the environment (`manifest/fs.rs:106-285`). -/
inductive Act (V : Type) where
  | dump (v : V) (o : DumpOut)
  | fetch (openOk : Bool) (o : LoadOut)
  | offload (c : OffloadConfig) (now accessed : Nat) (truncated : Bool)
deriving DecidableEq, Repr

/-- What an operation answers (`manifest/fs.rs:106-285`). -/
inductive Ev (V : Type) where
  | dumped (v : V) (ok : Bool)
  /-- the view a fetch got at; `get_partition_for_entity` of it is the answer (`manifest/fs.rs:280-288`) -/
  | fetched (v : Option V)
  | offloadJob
deriving DecidableEq, Repr

/-- One operation (`manifest/fs.rs:106-285`). -/
def step {V : Type} (c : Codec V) (s : Store) : Act V → Store × Ev V
  | .dump v o => ((dump c s v o).2, .dumped v (dump c s v o).1)
  | .fetch b o => ((fetch c s b o).2, .fetched (fetch c s b o).1)
  | .offload cfg now acc t => (offload s cfg now acc t, .offloadJob)

/-- A history: the storage and the answers (`manifest/fs.rs:106-285`). -/
def run {V : Type} (c : Codec V) (s : Store) : List (Act V) → Store × List (Ev V)
  | [] => (s, [])
  | a :: as => ((run c (step c s a).1 as).1, (step c s a).2 :: (run c (step c s a).1 as).2)

/-- `manifest/fs.rs:277-285` `get_partition_for_entity`: the answer to a retrying runner. -/
def partition {T : Type} (v : Option (ManifestView T)) (tag : Tag) : Option (List T) :=
  v.bind (fun v => v.getPartitionForEntity tag)

end Abq.ManifestStore
