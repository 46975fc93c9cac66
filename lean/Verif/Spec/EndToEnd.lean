import Verif.Spec.AllRuns
import Verif.Spec.RunnerEnd

/-! # Vocabulary of C76: a queue and all the runners of a run -/

namespace Abq.EndToEnd
open Abq.Retries Abq.Fetch Abq.Fetch.Spec Abq.Pipe Abq.RunnerEnd

/-- A test as the queue hands it out, as the runner reads it. -/
def received (t : Abq.WorkerTest TestSpec) : Retries.WorkerTest := ⟨t.spec, t.runNumber⟩

/-- An answer of the queue written to the connection of a runner, as it is read. -/
def answerTo (rid : RunId) (e : Entity) : Event TestSpec → Option Fetch.Resp
  | .delivered r e' items eow => if r = rid ∧ e' = e then some (.bundle ⟨items.map received, eow⟩) else none
  | _ => none

/-- All answers written to a runner, in order. -/
def answersTo (rid : RunId) (e : Entity) (evs : List (Event TestSpec)) : List Fetch.Resp := evs.filterMap (answerTo rid e)

def isEnd : Fetch.Resp → Bool
  | .bundle b => b.eow
  | .error => false

/-- What a runner gets when it asks the queue for tests: the answers written to it. If it was not told the end of work and
asked once more, it would get an error. -/
def script (rid : RunId) (e : Entity) (evs : List (Event TestSpec)) : List Fetch.Resp :=
  answersTo rid e evs ++ if (answersTo rid e evs).any isEnd then [] else [.error]

/-- A runner: who it is, the size of its batches of results, and how its tasks, its native runner and its timers behave. -/
structure Runner where
  entity : Entity
  batchSize : Nat
  schedule : List RunnerEnd.Act

/-- The runner in a run with the given history of the queue. -/
def Runner.life (r : Runner) (mx : Nat) (rid : RunId) (evs : List (Event TestSpec)) : Life :=
  (RunnerEnd.init [script rid r.entity evs] mx r.batchSize).run r.schedule

/-- What the runner reports. -/
def Runner.reported (r : Runner) (mx : Nat) (rid : RunId) (evs : List (Event TestSpec)) : List Results :=
  (r.life mx rid evs).pipe.reported

/-- The runner ended, and took part properly: it read every answer that was written to it, did not ask on after the end of
work, and could restart its native runner. The native runner may have failed, or tests timed out. -/
structure Ended (l : Life) (rid : RunId) (e : Entity) (evs : List (Event TestSpec)) : Prop where
  finished : l.finished = true
  restarts : l.failed = false
  fetches : l.pipe.sys.failed = false
  read : supplied l.pipe.sys.fetcher.sources = []
  noMore : Ends (script rid e evs)

/-- A whole run: the queue took the manifest, has handed out all of it and answered every request, and no answer failed to be
written; the runners are those it wrote to, each once, and they all ended. -/
structure WholeRun (acts : List (RunsAct TestSpec)) (rid : RunId) (flat : List (TestSpec × Nat)) (mx : Nat)
    (runners : List Runner) : Prop where
  exhausted : Abq.Spec.phaseOf ((Runs.init : Runs TestSpec).run acts) rid = some .exhausted
  manifest : flat ∈ Abq.Spec.manifests rid ((Runs.init : Runs TestSpec).run acts).events
  written : ((Runs.init : Runs TestSpec).run acts).events.flatMap (Abq.Spec.lostIn rid) = []
  answered : ((Runs.init : Runs TestSpec).run acts).pending.flatMap (Abq.Spec.inFlight rid) = []
  /-- work ids are unique, and tests come without focus -/
  unique : (flat.map (·.1.workId)).Nodup
  noFocus : ∀ p ∈ flat, p.1.focus = none
  distinct : (runners.map (·.entity)).Nodup
  all : ∀ e items eow, Event.delivered rid e items eow ∈ ((Runs.init : Runs TestSpec).run acts).events →
    e ∈ runners.map (·.entity)
  ended : ∀ r ∈ runners, Ended (r.life mx rid ((Runs.init : Runs TestSpec).run acts).events) rid r.entity
    ((Runs.init : Runs TestSpec).run acts).events

end Abq.EndToEnd
