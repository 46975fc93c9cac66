import Verif.Model.Retries

/-!
# Vocabulary of C25, C26, C58

What a worker's tests went through, told without the tracker: the tests it was given, the attempt it is
in, the tests of this attempt whose results are not known yet, and all the results so far.
-/

namespace Abq.Retries.Spec

/-- A call to the tracker. -/
inductive Call where
  | hydrate (ws : List WorkerTest) (eow : Bool)
  | account (rs : List Results)
  | assemble
deriving DecidableEq, Repr

structure Hist where
  manifest : List TestSpec
  complete : Bool
  attempt : Nat
  todo : List WorkId
  log : List Results
deriving DecidableEq, Repr

def start : Hist := { manifest := [], complete := false, attempt := 1, todo := [], log := [] }

/-- A result like a failure was reported for the test in attempt `j`. -/
def failedOn (log : List Results) (id : WorkId) (j : Nat) : Bool :=
  log.any (fun r => r.workId == id && r.runNumber == j && r.results.any (fun x => x.failed))

/-- The test failed on all of the attempts 1, ..., `k`. -/
def alwaysFailed (log : List Results) (id : WorkId) (k : Nat) : Bool :=
  (List.range k).all (fun j => failedOn log id (j + 1))

/-- The tests to retry after attempt `k`: those that failed on each attempt, in the order of the
manifest. -/
def toRetry (h : Hist) : List TestSpec :=
  h.manifest.filter (fun s => alwaysFailed h.log s.workId h.attempt)

/-- What a call to `assemble` should answer, for a non-empty manifest: end of work when the attempts are
used up; nothing yet while results are outstanding; else the tests to retry, or end of work if there is
none. -/
def answer (max : Nat) (h : Hist) : Option (List WorkId × Bool) :=
  if h.attempt = max then some ([], true)
  else if h.todo = [] then some ((toRetry h).map (·.workId), (toRetry h).isEmpty)
  else none

/-- How the worker uses the tracker: tests come before their results, in first attempts, each piece of
work once and without focus, until the end of work; results come in the order of the tests, in batches of
any size; and retries are asked for once the manifest, which is not empty, is complete. -/
def Legal (h : Hist) : Call → Prop
  | .hydrate ws _ =>
    h.complete = false ∧ ((h.manifest ++ ws.map (·.spec)).map (·.workId)).Nodup ∧
      ∀ w ∈ ws, w.runNumber = 1 ∧ w.spec.focus = none
  | .account rs => rs.map (·.workId) <+: h.todo ∧ ∀ r ∈ rs, r.runNumber = h.attempt
  | .assemble => h.complete = true ∧ h.manifest ≠ []

/-- How a call changes the history. -/
def next (max : Nat) (h : Hist) : Call → Hist
  | .hydrate ws eow =>
    { h with manifest := h.manifest ++ ws.map (·.spec), todo := h.todo ++ ws.map (·.spec.workId)
             complete := eow }
  | .account rs => { h with todo := h.todo.drop rs.length, log := h.log ++ rs }
  | .assemble =>
    match answer max h with
    | some (id :: ids, _) => { h with attempt := h.attempt + 1, todo := id :: ids }
    | _ => h

def Legals (max : Nat) : Hist → List Call → Prop
  | _, [] => True
  | h, c :: cs => Legal h c ∧ Legals max (next max h c) cs

def after (max : Nat) (cs : List Call) : Hist := cs.foldl (next max) start

/-- The tracker after the calls; `none` if one panicked. -/
def call (t : Tracker) : Call → Option (Tracker × Option Bundle)
  | .hydrate ws eow => (t.hydrate ws eow).map (fun p => (p.1, none))
  | .account rs => (t.account rs).map (fun t => (t, none))
  | .assemble => some t.assemble

def runCalls (t : Tracker) : List Call → Option Tracker
  | [] => some t
  | c :: cs =>
    match call t c with
    | none => none
    | some (t, _) => runCalls t cs

/-- The non-empty batches of retries handed out, in order. -/
def given (t : Tracker) : List Call → List (List WorkerTest)
  | [] => []
  | c :: cs =>
    match call t c with
    | none => []
    | some (t, some ⟨w :: ws, _⟩) => (w :: ws) :: given t cs
    | some (t, _) => given t cs

/-- Test ids a piece of work is narrowed to. -/
def focused (s : TestSpec) (x : TestId) : Prop := ∃ l, s.focus = some l ∧ x ∈ l

end Abq.Retries.Spec
