import Verif.Model.Attach
import Verif.Spec.AllRuns

/-! # Vocabulary of C85 and C86 -/

namespace Abq.Attach
open Abq.Spec

/-- What worker `w` with `n` runners should do on an answer of the queue. -/
def Follows (q : Queue) (w n : Nat) (a : Assigned) (s : Started) : Prop :=
  let reaches (r : Runner) : Prop := r.work = ⟨q.publicIp, q.work.port⟩ ∧ r.results = ⟨q.publicIp, q.results.port⟩
  let numbered (rs : List Runner) : Prop := rs.map (·.tag) = (List.range n).map fun i => .runner ⟨w, i + 1⟩
  match a with
  | .fresh g d => ∃ rs, s = .pool d rs ∧ numbered rs ∧
      ∀ r ∈ rs, reaches r ∧ r.sources = [.queue] ∧ (r.generatesManifest = true ↔ g = true ∧ r.tag = .runner ⟨w, 1⟩)
  | .retry d => ∃ rs, s = .pool d rs ∧ numbered rs ∧
      ∀ r ∈ rs, reaches r ∧ r.sources = [.retryManifest, .queue] ∧ r.generatesManifest = false
  | .alreadyDone x => s = .redundant x
  | .cancelled r => s = .cancelled r
  | .fatal => s = .panicked
  | .runUnknown => False

/-- The runners told to generate the manifest of a run when a worker is answered; `num` says how many runners the worker that
joins has. -/
def generators {T : Type} (q : Queue) (num : JoinParams → Nat) (rid : RunId) : Event T → List (Tag × JoinParams)
  | .joined p a =>
    match p.entity.tag, (waitForContext [.message (q.message a)]).2 with
    | .runner wr, some d =>
      match start wr.worker (num p) d with
      | .pool _ rs => if p.rid = rid then (rs.filter (·.generatesManifest)).map fun r => (r.tag, p) else []
      | _ => []
    | _, _ => []
  | _ => []

/-- The test was handed to some runner of worker `w`. -/
def pulledByWorker {T : Type} (rid : RunId) (w : Nat) : Event T → List (WorkerTest T)
  | .pulled r e items =>
    match e.tag with
    | .runner wr => if r = rid ∧ wr.worker = w then items else []
    | _ => []
  | _ => []

/-- All tests handed to a worker. -/
def handedToWorker {T : Type} (rid : RunId) (w : Nat) (evs : List (Event T)) : List (WorkerTest T) :=
  evs.flatMap (pulledByWorker rid w)

/-- The test was handed to one of the runners 1 to `n` of worker `w`. -/
def pulledByRunners {T : Type} (rid : RunId) (w n : Nat) : Event T → List (WorkerTest T)
  | .pulled r e items =>
    match e.tag with
    | .runner wr => if r = rid ∧ wr.worker = w ∧ 1 ≤ wr.runner ∧ wr.runner ≤ n then items else []
    | _ => []
  | _ => []

/-- All tests handed to the runners 1 to `n` of a worker. -/
def handedToRunners {T : Type} (rid : RunId) (w n : Nat) (evs : List (Event T)) : List (WorkerTest T) :=
  evs.flatMap (pulledByRunners rid w n)

/-- The tests a runner is given in answer to a request for its retry manifest. -/
def retried {T : Type} : List (Event T) → List (WorkerTest T)
  | [.retry _ _ (.manifest items)] => items
  | _ => []

end Abq.Attach
