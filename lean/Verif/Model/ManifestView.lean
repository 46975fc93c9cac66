import Verif.Model.JobQueue

/-! # The persisted view of a manifest (`abq_queue/src/persistence/manifest.rs`) -/

namespace Abq

/-- `manifest.rs:22-26` `struct ManifestView`. -/
structure ManifestView (T : Type) where
  items : List T
  assigned : List Tag
deriving DecidableEq, Repr

/-- `[T]::swap`; `none` is its out-of-bounds panic (called at `manifest.rs:53`). -/
def swapAt {T : Type} (l : List T) (i j : Nat) : Option (List T) :=
  match l[i]?, l[j]? with
  | some a, some b => some ((l.set i b).set j a)
  | _, _ => none

/-- The loop of `manifest.rs:51-56`: `i` is the index of the head of `tags`, `e` is `end`. -/
def partLoop {T : Type} (tag : Tag) : List T → List Tag → Nat → Nat → Option (List T × Nat)
  | items, [], _, e => some (items, e)
  | items, t :: tags, i, e =>
    if t = tag then
      match swapAt items e i with
      | none => none
      | some items' => partLoop tag items' tags (i + 1) (e + 1)
    else partLoop tag items tags (i + 1) e

/-- `manifest.rs:45-59` `get_partition_for_entity`. `none` is a panic. -/
def ManifestView.getPartitionForEntity {T : Type} (v : ManifestView T) (tag : Tag) :
    Option (List T) :=
  match partLoop tag v.items v.assigned 0 0 with
  | none => none
  | some (items, e) => some (items.take e)

/-- `job_queue.rs:180-199` `into_manifest_view` packaged as a `ManifestView`. -/
def JobQueue.manifestView {T : Type} (q : JobQueue T) : ManifestView T :=
  { items := q.intoManifestView.1, assigned := q.intoManifestView.2 }

/-- The batch size of a run (`queue.rs:1735-1743`): the client's hint, at most
`MAX_BATCH_SIZE` (`queue.rs:147`). -/
def clampBatch (hint : Nat) : Nat := if hint > 100 then 100 else hint

end Abq
