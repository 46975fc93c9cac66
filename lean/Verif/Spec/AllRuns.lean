import Verif.Model.AllRuns

/-!
# Vocabulary for the properties of the registry of runs

Everything here is read off the history of answers, without the functions of the code.
-/

namespace Abq.Spec
open Abq
variable {T : Type}

/-- The phases of a run. -/
inductive Phase where
  | waiting | serving | exhausted | cancelled
deriving DecidableEq, Repr

/-- The phase of a run state. -/
def phase : RunState T → Phase
  | .waiting .. => .waiting
  | .hasWork .. => .serving
  | .done .. => .exhausted
  | .cancelled _ => .cancelled

/-- The phases a run may be in later. -/
def Phase.later : Phase → Phase → Bool
  | .waiting, _ => true
  | .serving, .waiting => false
  | .serving, _ => true
  | .exhausted, .exhausted => true
  | .exhausted, _ => false
  | .cancelled, .cancelled => true
  | .cancelled, _ => false

/-- The phase of run `rid` in a state of the queue. -/
def phaseOf (σ : Runs T) (rid : RunId) : Option Phase := (σ.get rid).map phase

/-- Manifests accepted for a run. -/
def manifestIn (rid : RunId) : Event T → Option (List (T × Nat))
  | .manifest r flat true => if r = rid then some flat else none
  | _ => none

/-- All the manifests accepted for a run. -/
def manifests (rid : RunId) (evs : List (Event T)) : List (List (T × Nat)) :=
  evs.filterMap (manifestIn rid)

/-- The tests of a manifest as first attempts. -/
def firstAttempts (flat : List (T × Nat)) : List (WorkerTest T) := flat.map (fun p => ⟨p.1, 1⟩)

/-- Tests taken from the queue of a run. -/
def pulledIn (rid : RunId) : Event T → List (WorkerTest T)
  | .pulled r _ items => if r = rid then items else []
  | _ => []

/-- All the tests of a run taken from its queue so far, in order. -/
def handedOut (rid : RunId) (evs : List (Event T)) : List (WorkerTest T) :=
  evs.flatMap (pulledIn rid)

/-- Tests taken from the queue of a run for one runner. -/
def pulledBy (rid : RunId) (tag : Tag) : Event T → List (WorkerTest T)
  | .pulled r e items => if r = rid ∧ e.tag = tag then items else []
  | _ => []

/-- All the tests taken from the queue of a run for one runner, in order. -/
def handedTo (rid : RunId) (tag : Tag) (evs : List (Event T)) : List (WorkerTest T) :=
  evs.flatMap (pulledBy rid tag)

/-- An answer that tells a worker to generate the manifest of a run. -/
def asksToGenerate (rid : RunId) : Event T → Bool
  | .joined p (.fresh true _) => p.rid == rid
  | _ => false

/-- The tests in an answer, of whatever kind, for a run. -/
def testsIn (rid : RunId) : Event T → List (WorkerTest T)
  | .pulled r _ items => if r = rid then items else []
  | .work r _ items _ => if r = rid then items else []
  | .retry r _ (.manifest items) => if r = rid then items else []
  | _ => []

/-- Events that can precede the creation of a run: failed joins, and requests for an unknown
run. -/
def beforeCreation : Event T → Bool
  | .joined _ .fatal => true
  | .noRun _ _ => true
  | _ => false

/-- The run was taken over from the remote store. -/
def isLoad (rid : RunId) : Event T → Bool
  | .loaded r _ => r == rid
  | _ => false

/-- The manifest of the run turned out to be empty. -/
def isEmptyManifest (rid : RunId) : Event T → Bool
  | .emptyManifest r true => r == rid
  | _ => false

/-- The worker runner `tag` took part in the run: it was admitted to it, or handed tests. -/
def tookPart (rid : RunId) (tag : Tag) : Event T → Bool
  | .joined p (.fresh ..) => p.rid == rid && p.entity.tag == tag
  | .joined p (.retry _) => p.rid == rid && p.entity.tag == tag
  | .pulled r e _ => r == rid && e.tag == tag
  | _ => false

/-- The worker runner `tag` asked something of the run other than joining it. -/
def asked (rid : RunId) (tag : Tag) : Event T → Bool
  | .work r e _ _ => r == rid && e.tag == tag
  | .retry r e _ => r == rid && e.tag == tag
  | .complete r e => r == rid && e.tag == tag
  | .cancel r e _ => r == rid && e.tag == tag
  | _ => false

/-- The run was taken over from the remote store and `tag` had taken part in it there. -/
def loadedWith (rid : RunId) (tag : Tag) : Event T → Bool
  | .loaded r d => r == rid && d.seen.any (fun e => e.tag == tag)
  | _ => false

/-- The queue has heard of `tag` in this run. -/
def known (rid : RunId) (tag : Tag) (evs : List (Event T)) : Bool :=
  evs.any (fun ev => tookPart rid tag ev || asked rid tag ev || loadedWith rid tag ev)

/-- Whether the runner `tag` has work of the run it has not reported the completion of. A runner
that cancels an exhausted run has given up its work. -/
def owes (rid : RunId) (tag : Tag) (evs : List (Event T)) : Bool :=
  evs.foldl (fun b ev =>
    match ev with
    | .pulled r e items => if r = rid ∧ e.tag = tag ∧ items ≠ [] then true else b
    | .retry r e (.manifest items) => if r = rid ∧ e.tag = tag ∧ items ≠ [] then true else b
    | .retry r e .fetchFromPersistence => if r = rid ∧ e.tag = tag then true else b
    | .complete r e => if r = rid ∧ e.tag = tag then false else b
    | .cancel r e true => if r = rid ∧ e.tag = tag then false else b
    | _ => b) false

/-- Whether the runner `tag` reported completion, and has not joined the run again since. -/
def finished (rid : RunId) (tag : Tag) (evs : List (Event T)) : Bool :=
  evs.foldl (fun b ev =>
    match ev with
    | .complete r e => if r = rid ∧ e.tag = tag then true else b
    | .joined _ .fatal => b
    | .joined p _ => if p.rid = rid ∧ p.entity.tag = tag then false else b
    | .retry r e _ => if r = rid ∧ e.tag = tag then false else b
    | _ => b) false

/-- If the runner `tag` reported completion, it asks for tests only after joining again. -/
def NoFetchAfterCompletion (rid : RunId) (tag : Tag) (evs : List (Event T)) : Prop :=
  ∀ a e items b, evs = a ++ .pulled rid e items :: b → e.tag = tag → items ≠ [] → finished rid tag a = false

/-- Whether the runner `tag`, after the manifest was received, reported completion or gave up, and has not come back since: to join
the run, or to ask for what it needs to run tests, or for the tests it had. -/
def gone (rid : RunId) (tag : Tag) (evs : List (Event T)) : Bool :=
  evs.foldl (fun b ev =>
    match ev with
    | .complete r e => if r = rid ∧ e.tag = tag then true else b
    | .cancel r e true => if r = rid ∧ e.tag = tag then true else b
    | .manifest r _ true => if r = rid then false else b
    | .emptyManifest r true => if r = rid then false else b
    | .joined p (.fresh ..) => if p.rid = rid ∧ p.entity.tag = tag then false else b
    | .joined p (.retry _) => if p.rid = rid ∧ p.entity.tag = tag then false else b
    | .retry r e (.manifest _) => if r = rid ∧ e.tag = tag then false else b
    | .retry r e .fetchFromPersistence => if r = rid ∧ e.tag = tag then false else b
    | .initMeta r e (.metadata _) => if r = rid ∧ e.tag = tag then false else b
    | _ => b) false

/-- Tests written to the connection of a worker. -/
def deliveredIn (rid : RunId) : Event T → List (WorkerTest T)
  | .delivered r _ items _ => if r = rid then items else []
  | _ => []

/-- Tests that could not be written to the connection of a worker. -/
def lostIn (rid : RunId) : Event T → List (WorkerTest T)
  | .lost r _ items _ => if r = rid then items else []
  | _ => []

/-- Tests taken from the queue for requests still being answered. -/
def inFlight (rid : RunId) : Pending T → List (WorkerTest T)
  | .pulled r _ items => if r = rid then items else []
  | .markEnd r _ items => if r = rid then items else []
  | .respond r _ items _ _ => if r = rid then items else []
  | _ => []

/-- The run is waiting for its manifest or serving tests. -/
def activeRun (s : RunState T) : Bool :=
  match phase s with
  | .waiting => true
  | .serving => true
  | _ => false

/-- The number of runs waiting for their manifest or serving tests. -/
def activeRuns (σ : Runs T) : Nat := σ.runs.countP (fun p => activeRun p.2)

/-- A transition of a run whose decrement of the counter is still to be executed. -/
def isSub : Pending T → Bool
  | .sub _ => true
  | _ => false

/-- The number of decrements of the counter still to be executed. -/
def pendingSubs (σ : Runs T) : Nat := σ.pending.countP isSub

/-- The request cancels a run that is cancelled already. -/
def cancelsAgain (σ : Runs T) : RunsAct T → Nat
  | .request rid (.cancel ..) => if phaseOf σ rid = some .cancelled then 1 else 0
  | _ => 0

/-- The number of requests in a schedule that cancel a run that is cancelled already. -/
def repeatedCancellations (σ : Runs T) : List (RunsAct T) → Nat
  | [] => 0
  | a :: as => cancelsAgain σ a + repeatedCancellations (σ.step a) as

/-- A run that had its manifest was cancelled: by a request, or for lack of progress. -/
def cancelsServing (rid : RunId) : Event T → Bool
  | .cancel r _ false => r == rid
  | .progress r _ .cancelledNoProgress => r == rid
  | _ => false

/-- Persisting the manifest of the run was hit by a failure: the last bundle could not be written
to the worker, or storage failed. -/
def persistenceFailure (rid : RunId) : Event T → Bool
  | .lost r _ _ true => r == rid
  | .storeFailed r => r == rid
  | _ => false

/-- A task in progress for the run that will mark its manifest as persisted. -/
def persistenceTask (rid : RunId) : Pending T → Bool
  | .respond r _ _ true (some _) => r == rid
  | .dumpManifest r _ => r == rid
  | .setPersisted r => r == rid
  | _ => false

/-- An armed progress timer of the run, or its handler. -/
def timerOf (rid : RunId) : Pending T → Bool
  | .timer r _ => r == rid
  | .timeoutWrite r _ => r == rid
  | _ => false

/-- The command hash that came with the creation of a run. -/
def commandOf : Event T → Option String
  | .joined p _ => some p.hash
  | .loaded _ d => d.hash
  | _ => none

/-- What the queue answers to a request made now. -/
def answer (σ : Runs T) (rid : RunId) (r : Req T) : List (Event T) :=
  (σ.step (.request rid r)).events.drop σ.events.length

/-- An answer that fits a cancelled run (or is about another run): no tests, no metadata, no
admission. -/
def cancelledAnswer (rid : RunId) : Event T → Bool
  | .joined _ (.cancelled _) => true
  | .joined _ .fatal => true
  | .joined p _ => p.rid != rid
  | .loaded r _ => r != rid
  | .manifest r _ added => r != rid || !added
  | .emptyManifest r recorded => r != rid || !recorded
  | .initMeta _ _ (.alreadyCompleted true) => true
  | .initMeta r _ _ => r != rid
  | .pulled r _ _ => r != rid
  | .work r _ items eow => r != rid || (items.isEmpty && eow)
  | .retry _ _ .runCancelled => true
  | .retry r _ _ => r != rid
  | .cancel r _ refused => r != rid || !refused
  | .progress r _ a => r != rid || a == .runComplete
  | .write r a => r != rid || a == .runCancelled
  | .read r a => r != rid || a == .runCancelled || a == .manifestNeverReceived
  | .status r a => r != rid || a == .cancelled
  | .noRun r _ => r != rid
  | .panicked r => r != rid
  | .storeFailed r => r != rid
  | .manifestFailed _ => true
  | .complete _ _ => true
  | .delivered .. => true
  | .lost .. => true

end Abq.Spec
