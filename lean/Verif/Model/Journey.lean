import Verif.Model.RwxDoc

/-!
# From the text of a native runner to the JSON report

What native runners write for their tests, on its way through the runners of the workers, the queue and its file of results, and
`abq report`, to the reporter `rwx-v1-json` (`Model/RwxDoc.lean`). Every text is bytes; what the steps do to each message is in
`Model/Protocol.lean`, `Model/Messages.lean` and `Model/JsonText.lean`, and is only put together here. That messages are neither lost
nor reordered on the way, that the file keeps its lines and that `abq report` gets all of them are other properties (C28, C29, C35, C36,
C97, C98, C114).
-/

namespace Abq.Journey
open Protocol (TestResult ResultSpec ResultMessage Incremental decResultMessage decIncremental)
open Messages (Result Associated Stdio RunnerMeta Line send receive encRequest decRequest encLine decLine)
open JsonText (Floats)

/-- A message read from a native runner, the time at which it was, and the output captured since the message before
(`generic_test_runner/src/lib.rs:1190-1226`). -/
structure Heard where
  text : List JsonText.Byte
  now : Nat
  captured : Stdio

/-- `generic_test_runner/src/lib.rs:1268-1272` `attach_pipe_output_to_test_result`. -/
def attach (o : Stdio) : ResultSpec → ResultSpec
  | .mk r past => .mk { r with stdout := some o.stdout, stderr := some o.stderr } past

/-- A result of a message, with its source (`runners.rs:770-829`, `v0_2.rs:327-356`) and the captured output. All results of a message
get the same output (`generic_test_runner/src/lib.rs:1252-1266`). -/
def result (source : RunnerMeta) (h : Heard) (r : TestResult) : Result := ⟨source, attach h.captured (r.spec h.now)⟩

/-- `generic_test_runner/src/lib.rs:1209-1240`: the loop over incremental results. The list has the messages that are read for the test:
the last one has to end the loop. -/
def increments (f : Floats) (source : RunnerMeta) (results : List Result) :
    Incremental → Heard → List Heard → Option (List Result × Option Stdio)
  | .one _, _, [] => none
  | .one r, h, next :: more =>
    match receive decIncremental f next.text with
    | none => none
    | some m => increments f source (results ++ [result source h r]) m next more
  | .done (some r), h, [] => some (results ++ [result source h r], none)
  | .done none, h, [] => some (results, some h.captured)
  | .done _, _, _ :: _ => none

/-- A test that was handed to a native runner, and the messages that were read for it (`generic_test_runner/src/lib.rs:1165-1190`). -/
structure Told where
  source : RunnerMeta
  workId : List Nat
  runNumber : Nat
  before : Stdio
  heard : List Heard

/-- `generic_test_runner/src/lib.rs:1165-1250` `send_and_wait_for_test_results`; `none` if a message cannot be read. -/
def Told.answered (f : Floats) (t : Told) : Option Associated :=
  match t.heard with
  | [] => none
  | h :: more =>
    match receive decResultMessage f h.text, more with
    | some (.single r), [] => some ⟨t.workId, t.runNumber, [result t.source h r], t.before, none⟩
    | some (.multiple rs), [] => some ⟨t.workId, t.runNumber, rs.map (result t.source h), t.before, none⟩
    | some (.incremental m), more =>
      (increments f t.source [] m h more).map fun x => ⟨t.workId, t.runNumber, x.1, t.before, x.2⟩
    | _, _ => none

/-- Something is made of each of them, or nothing of all (the `?` in a loop, as at `net_protocol.rs:759-765`). -/
def each {α β : Type} (g : α → Option β) : List α → Option (List β)
  | [] => some []
  | a :: as =>
    match g a, each g as with
    | some b, some bs => some (b :: bs)
    | _, _ => none

/-- The request with the results of a worker's tests (`results_handler.rs:81-85`). -/
def requestText (f : Floats) (run : String) (x : RunStateDoc.Entity × List Told) : Option (List JsonText.Byte) :=
  (each (Told.answered f) x.2).map fun rs => send encRequest ⟨x.1, .workerResult run rs⟩

/-- `queue.rs:1950-1966`, `queue.rs:2264-2312` `handle_worker_results`, `persistence/results.rs:133-147`, `fs.rs:324-344` `dump`: the line
that is written to the file of the run for a request. -/
def recorded (f : Floats) (run : String) (text : List JsonText.Byte) : Option (List JsonText.Byte) :=
  match receive decRequest f text with
  | some ⟨_, .workerResult run' rs⟩ => if run' = run then some (send encLine (.results rs)) else none
  | _ => none

/-- `net_protocol.rs:759-765` `decode`, called at `report.rs:278-283`. -/
def fetched (f : Floats) (lines : List (List JsonText.Byte)) : Option (List Line) := each (receive decLine f) lines

/-- `report.rs:133-146`: what is put on the heap. -/
def heap : List Line → List Associated
  | [] => []
  | .results rs :: ls => rs ++ heap ls
  | .summary .. :: ls => heap ls

/-- The derived order of arrays of bytes (`ordered_results.rs:38`). -/
def cmpBytes : List Nat → List Nat → Ordering
  | [], [] => .eq
  | [], _ :: _ => .lt
  | _ :: _, [] => .gt
  | a :: as, b :: bs => (compare a b).then (cmpBytes as bs)

/-- The time of the first result (`ordered_results.rs:49`). -/
def firstTime (a : Associated) : Option Nat :=
  match a.results with
  | [] => none
  | ⟨_, .mk r _⟩ :: _ => some r.timestamp

/-- The derived order of `Option`: `None` is least (`ordered_results.rs:38`). -/
def cmpTime : Option Nat → Option Nat → Ordering
  | none, none => .eq
  | none, some _ => .lt
  | some _, none => .gt
  | some a, some b => compare a b

/-- `ordered_results.rs:46-52`, `ordered_results.rs:73-75`: the order of the heap. -/
def cmp (a b : Associated) : Ordering :=
  (cmpBytes a.workId b.workId).then ((cmpTime (firstTime a) (firstTime b)).then (compare a.runNumber b.runNumber))

/-- The contract of `BinaryHeap::into_sorted_vec` (`ordered_results.rs:33-35`). -/
structure IsSort (sort : List Associated → List Associated) : Prop where
  perm : ∀ l, (sort l).Perm l
  ascending : ∀ l, (sort l).Pairwise fun a b => cmp a b ≠ .gt

/-- `report.rs:148-156`, `report.rs:313-364`: the results a reporter is given, one after the other. -/
def pushed (sort : List Associated → List Associated) (ls : List Line) : List Result := (sort (heap ls)).flatMap (·.results)

/-- All the way: what the reporter is given when workers sent these tests for the run, one request after the other. -/
def reporterGets (f : Floats) (sort : List Associated → List Associated) (run : String)
    (sent : List (RunStateDoc.Entity × List Told)) : Option (List Result) :=
  (each (requestText f run) sent).bind fun requests =>
  (each (recorded f run) requests).bind fun lines =>
  (fetched f lines).map (pushed sort)

/-- `report.rs:138-144`: the summary of the run; of several, the last one counts. -/
def summarised : List Line → Option (Nat × Protocol.Version × Protocol.Specification)
  | [] => none
  | .results _ :: ls => summarised ls
  | .summary n v s :: ls => some ((summarised ls).getD (n, v, s))

/-- The same when the summary of the run is in the file too, as `queue.rs:2746-2762` has it recorded, after `k` other lines: the results
that the reporter is given, and the summary. -/
def reporterGetsAll (f : Floats) (sort : List Associated → List Associated) (run : String)
    (sent : List (RunStateDoc.Entity × List Told)) (k n : Nat) (v : Protocol.Version) (s : Protocol.Specification) :
    Option (List Result × Option (Nat × Protocol.Version × Protocol.Specification)) :=
  (each (requestText f run) sent).bind fun requests =>
  (each (recorded f run) requests).bind fun lines =>
  (fetched f (lines.take k ++ send encLine (.summary n v s) :: lines.drop k)).map fun ls => (pushed sort ls, summarised ls)

end Abq.Journey
