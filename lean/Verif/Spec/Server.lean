import Verif.Model.Server
/-!
# What may happen on a connection
-/

namespace Abq.Server
variable {T R : Type}

/-- What happened on connection `i`. -/
def logOf (i : Nat) (log : List (Nat × Ev T R)) : List (Ev T R) :=
  log.filterMap fun p => if p.1 = i then some p.2 else none

/-- The kinds of requests. -/
inductive Kind (T R : Type) where
  /-- Answered without a look at the runs. -/
  | plain
  /-- Acknowledged first, carried out then. -/
  | ackFirst (a : Call T)
  /-- Carried out first, answered then. -/
  | answerAfter (a : Call T)
  /-- Results to be kept. -/
  | results (rid : RunId) (rs : R)
  /-- The connection stays open to ask for tests. -/
  | stays (rid : RunId) (e : Entity)

/-- What each message asks for. -/
def kindOf (e : Entity) : Msg T R → Kind T R
  | .health _ => .plain
  | .activeTestRuns => .plain
  | .negotiatorInfo => .plain
  | .cancelRun rid => .ackFirst (.request rid (.cancel e .user))
  | .manifest rid [] _ => .ackFirst (.request rid .emptyManifest)
  | .manifest rid (t :: ts) md => .ackFirst (.request rid (.addManifest (t :: ts) md))
  | .manifestError rid => .ackFirst (.request rid .manifestFailed)
  | .workerResult rid rs => .results rid rs
  | .ranAllTests rid time => .ackFirst (.request rid (.complete e time))
  | .testResults rid => .answerAfter (.request rid .readCell)
  | .runStatus rid => .answerAfter (.request rid .status)
  | .initContext rid => .answerAfter (.request rid (.initMetadata e))
  | .nextTests rid => .stays rid e
  | .retryManifest rid e' => .answerAfter (.request rid (.retryManifest e'))
  | .wantsToAttach p => .answerAfter (.join p)

/-- The answer was written, or it could not be written. -/
def Tried (x : Ev T R) : Prop := x = .answered ∨ x = .unanswered

/-- All that may happen on a connection from when its message has arrived to its end. -/
inductive Course : Kind T R → List (Ev T R) → Prop where
  | plain {x : Ev T R} : Tried x → Course .plain [x]
  /-- Acknowledged and carried out. -/
  | acked {a : Call T} {evs : List (Event T)} : (∀ rid, evs ≠ [.noRun rid true]) →
      Course (.ackFirst a) [.answered, .called a evs]
  /-- Acknowledged although there is no such run. -/
  | ackedNoRun {a : Call T} {rid : RunId} : Course (.ackFirst a) [.answered, .called a [.noRun rid true], .panicked]
  /-- The acknowledgment could not be written: nothing else happens. -/
  | ackLost {a : Call T} : Course (.ackFirst a) [.unanswered]
  | after {a : Call T} {evs : List (Event T)} {x : Ev T R} : (∀ rid, evs ≠ [.noRun rid true]) → Tried x →
      Course (.answerAfter a) [.called a evs, x]
  | afterNoRun {a : Call T} {rid : RunId} : Course (.answerAfter a) [.called a [.noRun rid true], .panicked]
  /-- The status of a run that does not exist is not answered. -/
  | silent {rid : RunId} : Course (.answerAfter (.request rid .status)) [.called (.request rid .status) [.noRun rid false]]
  /-- Results are kept whether or not they could be acknowledged. -/
  | kept {rid : RunId} {rs : R} {b : Bool} {x : Ev T R} : Tried x →
      Course (.results rid rs) [.called (.request rid .writeCell) [.write rid (.cell b)], x, .persisted rid rs]
  /-- Results that there is no place for, for the run has not started, is cancelled or does not exist. -/
  | refused {rid : RunId} {rs : R} {evs : List (Event T)} {x : Ev T R} : (∀ b, evs ≠ [.write rid (.cell b)]) → Tried x →
      Course (.results rid rs) [.called (.request rid .writeCell) evs, x]
  /-- Any number of requests for tests. -/
  | stays {rid : RunId} {e : Entity} {answers : List (List (Event T))} :
      Course (.stays rid e) (answers.map fun evs => .called (.request rid (.nextWork e)) evs)
  | staysNoRun {rid rid' : RunId} {e : Entity} {answers : List (List (Event T))} :
      Course (.stays rid e) ((answers.map fun evs => .called (.request rid (.nextWork e)) evs)
        ++ [.called (.request rid (.nextWork e)) [.noRun rid' true], .panicked])

/-- The calls of the registry that are in a log, in their order. -/
def calls (log : List (Nat × Ev T R)) : List (Call T) :=
  log.filterMap fun p => match p.2 with | .called a _ => some a | _ => none

/-- The connection a step is about. -/
def Act.conn : Act T R → Option Nat
  | .accept _ i => some i
  | .handshake i _ => some i
  | .receive i _ => some i
  | .exec i => some i
  | .write i _ => some i
  | .ask i _ => some i
  | _ => none

/-- A continuation of the registry, as opposed to a call. -/
def IsResume (a : RunsAct T) : Bool :=
  match a with
  | .resume .. => true
  | _ => false

end Abq.Server
