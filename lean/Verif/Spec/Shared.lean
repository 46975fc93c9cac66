import Verif.Spec.EndToEnd
import Verif.Spec.MessageBuffer

/-! # Vocabulary of C143: a queue and all the runners of a run, at some time during the run -/

namespace Abq.EndToEnd
open Abq.Retries Abq.Fetch Abq.Fetch.Spec Abq.Pipe Abq.RunnerEnd

/-- The tests that a runner has begun, as first attempts: those that came out of its buffer. -/
def Runner.begun (r : Runner) (mx : Nat) (rid : RunId) (evs : List (Event TestSpec)) : List TestSpec :=
  ((MsgBuf.Spec.items (r.life mx rid evs).pipe.buf.received).filter (·.runNumber == 1)).map (·.spec)

/-- A runner in the midst of a run: it could restart its native runner and got no error when it asked for tests. It has one
request at a time: an answer that was written to it and that it has not read is the answer to the request it waits with. -/
structure AtWork (l : Life) (n : Nat) (rid : RunId) (e : Entity) (evs : List (Event TestSpec)) : Prop where
  restarts : l.failed = false
  fetches : l.pipe.sys.failed = false
  unread : supplied l.pipe.sys.fetcher.sources = [] ∨
    (l.pipe.buf.prod = .fetching ∧ (supplied l.pipe.sys.fetcher.sources).length ≤ n)
  noMore : Ends (script rid e evs)

/-- The queue has handed out all of the manifest, never more than `n` tests at a time; no answer failed to be written or is
being written; the runners are those it wrote to, each once. -/
structure HandedOut (acts : List (RunsAct TestSpec)) (rid : RunId) (flat : List (TestSpec × Nat)) (mx n : Nat)
    (runners : List Runner) : Prop where
  exhausted : Abq.Spec.phaseOf ((Runs.init : Runs TestSpec).run acts) rid = some .exhausted
  manifest : flat ∈ Abq.Spec.manifests rid ((Runs.init : Runs TestSpec).run acts).events
  written : ((Runs.init : Runs TestSpec).run acts).events.flatMap (Abq.Spec.lostIn rid) = []
  answered : ((Runs.init : Runs TestSpec).run acts).pending.flatMap (Abq.Spec.inFlight rid) = []
  size : ∀ e items eow, Event.delivered rid e items eow ∈ ((Runs.init : Runs TestSpec).run acts).events → items.length ≤ n
  /-- work ids are unique, and tests come without focus -/
  unique : (flat.map (·.1.workId)).Nodup
  noFocus : ∀ p ∈ flat, p.1.focus = none
  distinct : (runners.map (·.entity)).Nodup
  all : ∀ e items eow, Event.delivered rid e items eow ∈ ((Runs.init : Runs TestSpec).run acts).events →
    e ∈ runners.map (·.entity)
  atWork : ∀ r ∈ runners, AtWork (r.life mx rid ((Runs.init : Runs TestSpec).run acts).events) n rid r.entity
    ((Runs.init : Runs TestSpec).run acts).events

end Abq.EndToEnd
