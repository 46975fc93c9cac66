import Verif.Model.JobQueue

/-!
# What C01 - C08 speak about

The theorems of `Props/JobQueue.lean` speak about the observable fields of the state of a run that is being served, the answers
`resps` (tests `items` and end-of-work mark `eow` given to the request of `tag`), the answers `parts` to retry requests and the
run's `phase`, and about the following.
-/

namespace Abq.Spec.Queue
open Abq

variable {T : Type}

/-- The tests of the manifest, in order. -/
def manifest (queue : List (T × Nat)) : List T := queue.map Prod.fst

/-- The elements at the positions from `s` up to, but not including, `e`. -/
def between (s e : Nat) (l : List T) : List T := (l.drop s).take (e - s)

/-- All the tests handed out in answers so far. -/
def answered (σ : Sys T) : List T := σ.resps.flatMap (·.items)

/-- The tests of requests that have taken their tests but have not been answered yet. -/
def inFlight (σ : Sys T) : List T :=
  (σ.pcs.filterMap Pc.claim?).flatMap (fun c => between c.s c.e (manifest σ.queue))

/-- No request is being processed. -/
def Quiet (σ : Sys T) : Prop := ∀ pc ∈ σ.pcs, pc = .idle

/-- Test `t` was handed to `tag`: it is in an answer, or in the bundle of an unanswered
request, of that tag. -/
def handedTo (σ : Sys T) (tag : Tag) (t : T) : Prop :=
  (∃ r ∈ σ.resps, r.tag = tag ∧ t ∈ r.items) ∨
  (∃ c ∈ σ.pcs.filterMap Pc.claim?, c.tag = tag ∧ t ∈ between c.s c.e (manifest σ.queue))

/-- Equal groups are contiguous in the manifest (as flattening produces them, see C39). -/
def GroupsContiguous (queue : List (T × Nat)) : Prop :=
  ∀ i j k : Nat, i ≤ j → j ≤ k → ∀ x y z : T × Nat, queue[i]? = some x → queue[j]? = some y →
    queue[k]? = some z → x.2 = z.2 → y.2 = x.2

end Abq.Spec.Queue

namespace Abq

/-- Successive requests executed without interference: the queue afterwards and the bundles.
`none` if one of them panics. -/
def JobQueue.getWorks {T : Type} (q : JobQueue T) :
    List (Tag × Nat) → Option (JobQueue T × List (List T))
  | [] => some (q, [])
  | (tag, n) :: rest =>
    match q.getWork tag n with
    | none => none
    | some (q', items) =>
      match q'.getWorks rest with
      | none => none
      | some (q'', more) => some (q'', items :: more)

end Abq
