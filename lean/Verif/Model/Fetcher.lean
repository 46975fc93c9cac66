import Verif.Model.Retries

/-!
# Where a runner's tests come from

`crates/abq_workers/src/test_fetching.rs`. The sources are scripts: the answers each source gives, in
order. The answer of the queue is one bundle per request (`persistent_test_fetcher.rs:66-94`), the
answer for a retry manifest one bundle or an error (`out_of_process_retry_manifest_fetcher.rs:68-123`);
their reconnections and waiting, and the panic when all attempts fail, are in `Model/TestsConn`.
-/

namespace Abq.Fetch
open Abq.Retries

/-- An answer of a source (`persistent_test_fetcher.rs:66-94`). -/
inductive Resp where
  | bundle (b : Bundle)
  | error
deriving DecidableEq, Repr

/-- `test_fetching.rs:41-45` `Fetcher`: the sources still to be asked, in order (the code holds them
reversed and pops the last), and the retry tracker. -/
structure Fetcher where
  sources : List (List Resp)
  tracker : Tracker
deriving DecidableEq, Repr

/-- What a call of `get_next_tests` comes to: a bundle, an error, a panic; or it waits, for a source or
for results (`test_fetching.rs:142-238`). -/
inductive Outcome where
  | bundle (b : Bundle)
  | error
  | panic
  | waiting
deriving DecidableEq, Repr

/-- `test_fetching.rs:209-224`, one turn of the loop that waits for retries. -/
def fetchRetries (t : Tracker) : Fetcher × Outcome :=
  match t.assemble with
  | (t, some b) => (⟨[], t⟩, .bundle b)
  | (t, none) => (⟨[], t⟩, .waiting)

/-- `test_fetching.rs:155-207`, the loop while the first source is `rs` and the others are `rest`;
`after` is the loop with the sources `rest`. -/
def fetchSource (rest : List (List Resp)) (after : Tracker → Fetcher × Outcome) :
    List Resp → Tracker → Fetcher × Outcome
  | [], t => (⟨[] :: rest, t⟩, .waiting)
  | .error :: rs, t => (⟨rs :: rest, t⟩, .error)
  | .bundle b :: rs, t =>
    let left := if b.eow then rest else rs :: rest
    if b.work.isEmpty && !left.isEmpty then
      if b.eow then after t else fetchSource rest after rs t
    else
      let eow := b.eow && left.isEmpty
      match t.hydrate b.work eow with
      | none => (⟨left, t⟩, .panic)
      | some (t, .stillHydrating) => (⟨left, t⟩, .bundle ⟨b.work, eow⟩)
      | some (t, .emptyManifest) => (⟨left, t⟩, .bundle ⟨b.work, eow⟩)
      | some (t, .endOfManifest) =>
        if b.work.isEmpty then
          if b.eow then after t else fetchSource rest after rs t
        else (⟨left, t⟩, .bundle ⟨b.work, false⟩)

/-- `test_fetching.rs:143-229` `fetch_next_tests`. -/
def fetchFrom : List (List Resp) → Tracker → Fetcher × Outcome
  | [] => fetchRetries
  | rs :: rest => fetchSource rest (fetchFrom rest) rs

/-- `test_fetching.rs:142-238` `get_next_tests`. -/
def Fetcher.fetch (f : Fetcher) : Fetcher × Outcome := fetchFrom f.sources f.tracker

/-- A runner: its fetcher, and what it was given and has reported. It stops asking after the end of work
or an error (`abq_generic_test_runner` lib.rs:905-1000). -/
structure Sys where
  fetcher : Fetcher
  delivered : List Bundle
  log : List Results
  stopped : Bool
  failed : Bool
  panicked : Bool
deriving DecidableEq, Repr

/-- The calls of a runner (`test_fetching.rs:142-238`, `retries.rs:338-343`). -/
inductive Act where
  | fetch
  | account (rs : List Results)
deriving DecidableEq, Repr

/-- All tests given so far (`test_fetching.rs:142-238`). -/
def Sys.given (s : Sys) : List WorkerTest := s.delivered.flatMap (·.work)

/-- Results are reported for the tests in the order they were given, in batches (`lib.rs` executes them one
by one; `results_handler.rs` passes each batch to the tracker before sending it). -/
def Sys.inOrder (s : Sys) (rs : List Results) : Bool :=
  ((s.log ++ rs).map (fun r => (r.workId, r.runNumber))).isPrefixOf
    (s.given.map (fun w => (w.spec.workId, w.runNumber)))

/-- A call of `get_next_tests`, or a batch of results reaching the tracker. Batches that are not in order
are no steps of the worker (`test_fetching.rs:142-238`, `retries.rs:338-343`). -/
def step (s : Sys) : Act → Sys
  | .fetch =>
    if s.stopped || s.panicked then s
    else
      match s.fetcher.fetch with
      | (f, .bundle b) => { s with fetcher := f, delivered := s.delivered ++ [b], stopped := b.eow }
      | (f, .error) => { s with fetcher := f, stopped := true, failed := true }
      | (f, .panic) => { s with fetcher := f, panicked := true }
      | (f, .waiting) => { s with fetcher := f }
  | .account rs =>
    if s.inOrder rs && !s.panicked then
      match s.fetcher.tracker.account rs with
      | some t => { s with fetcher := { s.fetcher with tracker := t }, log := s.log ++ rs }
      | none => { s with panicked := true }
    else s

/-- `test_fetching.rs:56-91` `new`, `new_help`. -/
def init (sources : List (List Resp)) (max : Nat) : Sys :=
  { fetcher := ⟨sources, Tracker.new max⟩, delivered := [], log := [], stopped := false, failed := false
    panicked := false }

/-- A schedule (`test_fetching.rs:142-238`, `retries.rs:338-343`). -/
def run (s : Sys) (as : List Act) : Sys := as.foldl step s

end Abq.Fetch
