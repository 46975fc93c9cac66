import Verif.Model.AllRuns

/-!
# Which worker runners a run has seen
-/

namespace Abq.Spec
variable {T : Type}

/-- What became of a run, and of one worker runner in it: whether the tests of the run are known, whether there were found to be
none, whether they are used up, whether the runner was seen, and whether it is taken to be at work. -/
structure Attendance where
  received : Bool
  empty : Bool
  exhausted : Bool
  seen : Bool
  active : Bool
deriving DecidableEq, Repr

/-- The runner is seen, and at work. -/
def Attendance.comes (k : Attendance) : Attendance := { k with seen := true, active := true }

/-- The runner is seen; if it is for the first time, it is at work. -/
def Attendance.asks (k : Attendance) : Attendance := { k with seen := true, active := k.active || !k.seen }

/-- The runner is seen, and no longer at work. -/
def Attendance.leaves (k : Attendance) : Attendance := { k with seen := true, active := false }

/-- The runner `tag` is seen in a run, and at work, when it is admitted to it, or handed its tests for the first time. Once the tests
of the run are known, it is also seen when it asks for the tests it had, which puts it to work, and when it reports its completion, or
cancels the run in vain, which ends its work. Asking for tests puts a runner to work only if it was not seen before. Once the tests
are used up, whoever joins again is put to work by the request for what is needed to run tests. The runners seen in a run that is taken
over from the remote store are those written there, and a run that has no tests forgets those it saw before. -/
def Attendance.after (rid : RunId) (tag : Tag) (k : Attendance) : Event T → Attendance
  | .joined p (.fresh ..) => if p.rid = rid ∧ p.entity.tag = tag then k.comes else k
  | .joined p (.retry _) => if p.rid = rid ∧ p.entity.tag = tag ∧ k.exhausted = false then k.comes else k
  | .loaded r d => if r = rid then ⟨true, false, true, d.seen.any (fun e => e.tag == tag), false⟩ else k
  | .manifest r _ true => if r = rid then { k with received := true } else k
  | .emptyManifest r true => if r = rid then ⟨true, true, true, false, false⟩ else k
  | .pulled r e _ => if r = rid ∧ e.tag = tag then k.asks else k
  | .work r e _ eow =>
    if r = rid ∧ k.received = true then
      { (if e.tag = tag then k.asks else k) with exhausted := k.exhausted || eow }
    else k
  | .retry r e (.manifest _) => if r = rid ∧ e.tag = tag ∧ k.empty = false then k.comes else k
  | .retry r e .fetchFromPersistence => if r = rid ∧ e.tag = tag then k.comes else k
  | .complete r e => if r = rid ∧ e.tag = tag ∧ k.received = true then k.leaves else k
  | .cancel r e true => if r = rid ∧ e.tag = tag then k.leaves else k
  | .initMeta r e (.metadata _) => if r = rid ∧ e.tag = tag ∧ k.exhausted = true then k.comes else k
  | _ => k

/-- What a history says about a run and a worker runner. -/
def attendance (rid : RunId) (tag : Tag) (evs : List (Event T)) : Attendance :=
  evs.foldl (Attendance.after rid tag) ⟨false, false, false, false, false⟩

/-- The answer to who asks for the results of an exhausted run while these runners are at work. -/
def readable : List Tag → ReadAns
  | [] => .readFromCell
  | ts => .inProgress ts

end Abq.Spec
