import Verif.Model.Checks
import Verif.Spec.AllRuns

/-! What C141 speaks about. Everything but `ofItself` is read off the history of answers. -/

namespace Abq.Spec
open Abq
variable {T : Type}

/-- The checks that do not depend on what workers do, only on the queue itself. -/
def ofItself : Check → Bool
  | .runMissing => true
  | .endTooEarly => true
  | .endBeforeManifest => true
  | .indexBackwards => true
  | .timerUnknownRun => true
  | .planBeforeEnd => true
  | _ => false

/-- The manifest of the run is known: it was accepted, it was empty, or the run was taken over from
the remote store. -/
def settles (rid : RunId) : Event T → Bool
  | .manifest r _ true => r == rid
  | .emptyManifest r true => r == rid
  | .loaded r _ => r == rid
  | _ => false

/-- The manifest of the run is known. -/
def settled (rid : RunId) (evs : List (Event T)) : Bool := evs.any (settles rid)

/-- The run was created by a worker that joined it. -/
def createdHere (rid : RunId) (evs : List (Event T)) : Bool := evs.any (asksToGenerate rid)

/-- The run is in the registry. -/
def inRegistry (rid : RunId) (evs : List (Event T)) : Bool :=
  evs.any (fun ev => asksToGenerate rid ev || isLoad rid ev)

/-- What is to be thought of a runner of a run. -/
inductive Standing where
  /-- never heard of -/
  | unknown
  /-- at work, last seen as this entity -/
  | atWork (e : Entity)
  /-- reported completion as this entity, and has not come back to the run since -/
  | finished (e : Entity)
deriving DecidableEq, Repr

/-- One answer seen: whether the manifest was accepted before, and the standing of the runner. -/
def standingEv (rid : RunId) (tag : Tag) (x : Bool × Standing) : Event T → Bool × Standing
  | .joined p (.fresh ..) => if p.rid = rid ∧ p.entity.tag = tag then (x.1, .atWork p.entity) else x
  | .joined p (.retry _) => if p.rid = rid ∧ p.entity.tag = tag then (x.1, .atWork p.entity) else x
  | .manifest r _ true => if r = rid then (true, x.2) else x
  | .pulled r e _ => if r = rid ∧ e.tag = tag ∧ x.2 = .unknown then (x.1, .atWork e) else x
  | .retry r e (.manifest _) => if r = rid ∧ e.tag = tag then (x.1, .atWork e) else x
  | .complete r e => if r = rid ∧ e.tag = tag ∧ x.1 = true then (x.1, .finished e) else x
  | _ => x

/-- The standing of the runner `tag`: being admitted to the run, fetching tests (if not heard of
before) or the tests it had puts it at work, reporting completion after the manifest was accepted
ends that. -/
def standing (rid : RunId) (tag : Tag) (evs : List (Event T)) : Standing :=
  (evs.foldl (standingEv rid tag) (false, .unknown)).2

/-- The entity a runner was last seen as. -/
def Standing.entity : Standing → Option Entity
  | .unknown => none
  | .atWork e => some e
  | .finished e => some e

/-- A worker runner, as opposed to a client outside. -/
def isRunner (e : Entity) : Bool :=
  match e.tag with
  | .runner _ => true
  | _ => false

/-- What the history must show for a check to fail. -/
def Explained (rid : RunId) (evs : List (Event T)) : Check → Prop
  | .notAWorker e => isRunner e = false
  | .twiceForManifest e => settled rid evs = false ∧ (standing rid e.tag evs).entity.isSome = true
  | .sameEntityTwice e => settled rid evs = true ∧
      ∃ e', (standing rid e.tag evs).entity = some e' ∧ e'.id = e.id
  | .manifestAgain => settled rid evs = true
  | .failedAfterManifest => settled rid evs = true
  | .emptyAfterManifest => settled rid evs = true
  | .workBeforeManifest _ => settled rid evs = false
  | .retryBeforeManifest _ => settled rid evs = false
  | .completeBeforeManifest _ => settled rid evs = false
  | .completeUnknownRun _ => inRegistry rid evs = false
  | .notActive e => ∀ e', standing rid e.tag evs ≠ .atWork e'
  | .notSeen e => evs.any (tookPart rid e.tag) = false ∨ evs.any (isEmptyManifest rid) = true
  | _ => False

/-- The joins in a schedule. -/
def joinsIn : List (RunsAct T) → List JoinParams
  | [] => []
  | .join p :: as => p :: joinsIn as
  | _ :: as => joinsIn as

/-- Nothing but joining is asked in a schedule. -/
def onlyJoins : List (RunsAct T) → Bool
  | [] => true
  | .request .. :: _ => false
  | _ :: as => onlyJoins as

end Abq.Spec
