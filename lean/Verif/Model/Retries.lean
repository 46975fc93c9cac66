/-!
# Retrying failed tests inside a worker

`abq_workers/src/test_fetching/retries.rs`. The tracker is shared behind a mutex held for the whole of
each call, so each call is one step. `debug_assert`s are not compiled into releases and are left out;
`log_assert`s only log.
-/

namespace Abq.Retries

/-- `net_protocol.rs` `workers::WorkId`, the keys of `retries.rs:13-23`. -/
abbrev WorkId := Nat
/-- `v0_2.rs` `TestId`, the keys of `retries.rs:26-33`. -/
abbrev TestId := Nat

/-- `net_protocol.rs` `TestSpec`: the id of the piece of work and what is used of the test case, its focus
(`runners/v0_2.rs:98-131`). `case` stands for the rest of the test case. -/
structure TestSpec where
  workId : WorkId
  case : Nat
  focus : Option (List TestId) := none
deriving DecidableEq, Repr

/-- `net_protocol.rs` `WorkerTest`. Run numbers are `u32` in the code; simplified: they are unbounded here. -/
structure WorkerTest where
  spec : TestSpec
  runNumber : Nat
deriving DecidableEq, Repr

/-- `net_protocol.rs:434-441` `NextWorkBundle`. -/
structure Bundle where
  work : List WorkerTest
  eow : Bool
deriving DecidableEq, Repr

/-- `retries.rs:25-33` `Status`. -/
inductive Status where
  | hasNonFailingAttempt
  | alwaysFailedOn (last : Nat)
deriving DecidableEq, Repr

/-- `retries.rs:35-41` `TestEntry`. -/
structure Entry where
  spec : TestSpec
  status : Status
deriving DecidableEq, Repr

/-- `retries.rs:44-62` `AssembledState`. -/
inductive Assembled where
  | notStarted
  | waiting (last : WorkId) (processed : Bool)
  | hydrated (last : WorkId) (processed : Bool)
deriving DecidableEq, Repr

/-- `retries.rs:66-74` `HydrationStatus`. -/
inductive Hydration where
  | stillHydrating
  | emptyManifest
  | endOfManifest
deriving DecidableEq, Repr

/-- `retries.rs:13-23` `RetryManifestTracker`. The map `entry_indices` is recomputed from the entries: it
holds the last position of each work id. -/
structure Tracker where
  entries : List Entry
  maxRunNumber : Nat
  currentRunNumber : Nat
  state : Assembled
deriving DecidableEq, Repr

/-- `net_protocol.rs` `INIT_RUN_NUMBER`. -/
def initRunNumber : Nat := 1

/-- `retries.rs:136-144` `new`. -/
def Tracker.new (maxRunNumber : Nat) : Tracker :=
  { entries := [], maxRunNumber, currentRunNumber := initRunNumber, state := .notStarted }

/-- `retries.rs:77-89` `note_seen_manifest_item`; `none` is the panic. -/
def Assembled.noteItem (id : WorkId) : Assembled → Option Assembled
  | .notStarted => some (.waiting id false)
  | .waiting _ _ => some (.waiting id false)
  | .hydrated _ _ => none

/-- `retries.rs:91-109` `note_end_of_manifest`. -/
def Assembled.noteEnd : Assembled → Option (Assembled × Hydration)
  | .notStarted => some (.notStarted, .emptyManifest)
  | .waiting l p => some (.hydrated l p, .endOfManifest)
  | .hydrated _ _ => none

/-- `retries.rs:111-132` `note_accounted_result`. -/
def Assembled.noteResult (id : WorkId) : Assembled → Option Assembled
  | .notStarted => none
  | .waiting l _ => some (.waiting l (id == l))
  | .hydrated l _ => some (.hydrated l (id == l))

/-- The loop of `retries.rs:152-155`, with `hydrate_ordered_manifest_item` (retries.rs:163-183). -/
def Tracker.hydrateItems (t : Tracker) : List WorkerTest → Option Tracker
  | [] => some t
  | w :: ws =>
    match t.state.noteItem w.spec.workId with
    | none => none
    | some s =>
      Tracker.hydrateItems
        { t with state := s, entries := t.entries ++ [⟨w.spec, .hasNonFailingAttempt⟩] } ws

/-- `retries.rs:146-161` `hydrate_ordered_manifest_slice`. -/
def Tracker.hydrate (t : Tracker) (ws : List WorkerTest) (eow : Bool) : Option (Tracker × Hydration) :=
  match t.hydrateItems ws with
  | none => none
  | some t =>
    if eow then
      match t.state.noteEnd with
      | none => none
      | some (s, h) => some ({ t with state := s }, h)
    else some (t, .stillHydrating)

/-- `runners/v0_2.rs:119-131` `add_focus`. -/
def TestSpec.addFocus (s : TestSpec) (id : TestId) : TestSpec :=
  match s.focus with
  | none => { s with focus := some [id] }
  | some ids => if ids.contains id then s else { s with focus := some (ids ++ [id]) }

/-- `retries.rs:207-231` `account_failure`, on the entry found. -/
def Entry.accountFailure (e : Entry) (run : Nat) (id : TestId) : Entry :=
  let setFailed :=
    match e.status with
    | .hasNonFailingAttempt => run == initRunNumber
    | .alwaysFailedOn last => last + 1 == run
  if setFailed then { spec := e.spec.addFocus id, status := .alwaysFailedOn run } else e

/-- The position `entry_indices` holds for a work id (`retries.rs:178-179`). -/
def lastIdx (id : WorkId) (es : List Entry) : Option Nat :=
  match es.reverse.findIdx? (fun e => e.spec.workId == id) with
  | none => none
  | some i => some (es.length - 1 - i)

/-- One result of a test: its id and whether it is like a failure (`runners.rs:620-628`). -/
structure Result where
  id : TestId
  failed : Bool
deriving DecidableEq, Repr

/-- `net_protocol.rs` `AssociatedTestResults`. -/
structure Results where
  workId : WorkId
  runNumber : Nat
  results : List Result
deriving DecidableEq, Repr

/-- `retries.rs:198-202`: the failures of one piece of work; `none` is the panic of an unknown id. -/
def accountFailures (es : List Entry) (id : WorkId) (run : Nat) : List Result → Option (List Entry)
  | [] => some es
  | r :: rs =>
    if r.failed then
      match lastIdx id es with
      | none => none
      | some i => accountFailures (es.modify i (fun e => e.accountFailure run r.id)) id run rs
    else accountFailures es id run rs

/-- `retries.rs:185-204` `account_results`. -/
def Tracker.account (t : Tracker) : List Results → Option Tracker
  | [] => some t
  | r :: rs =>
    match accountFailures t.entries r.workId r.runNumber r.results with
    | none => none
    | some es =>
      match t.state.noteResult r.workId with
      | none => none
      | some s => Tracker.account { t with entries := es, state := s } rs

/-- `retries.rs:279-291` `failing_subset`. -/
def failingSubset (es : List Entry) (run : Nat) : List TestSpec :=
  es.filterMap (fun e =>
    match e.status with
    | .hasNonFailingAttempt => none
    | .alwaysFailedOn last => if last = run then some e.spec else none)

/-- `retries.rs:233-276` `try_assemble_retry_manifest`. -/
def Tracker.assemble (t : Tracker) : Tracker × Option Bundle :=
  if t.currentRunNumber = t.maxRunNumber then (t, some ⟨[], true⟩)
  else
    match t.state with
    | .notStarted => (t, none)
    | .waiting _ _ => (t, none)
    | .hydrated _ processed =>
      if processed then
        let next := t.currentRunNumber + 1
        let subset := (failingSubset t.entries t.currentRunNumber).map (fun s => ⟨s, next⟩)
        match subset.getLast? with
        | some w =>
          ({ t with state := .hydrated w.spec.workId false, currentRunNumber := next },
            some ⟨subset, false⟩)
        | none => (t, some ⟨[], true⟩)
      else (t, none)

end Abq.Retries
