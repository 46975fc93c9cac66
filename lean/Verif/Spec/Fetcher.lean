import Verif.Model.Fetcher

/-! # Vocabulary of C27 -/

namespace Abq.Fetch.Spec
open Abq.Retries

/-- The tests an answer brings. -/
def Resp.work : Resp → List WorkerTest
  | .bundle b => b.work
  | .error => []

/-- All tests the sources supply, in order. -/
def supplied (sources : List (List Resp)) : List WorkerTest :=
  sources.flatMap (fun src => src.flatMap Resp.work)

/-- A source answers until its end of work, or fails. -/
def Ends : List Resp → Prop
  | [] => False
  | .error :: _ => True
  | .bundle b :: rs => if b.eow then rs = [] else Ends rs

/-- What the queue provides: at least one source; each ends; no piece of work comes twice, and all are
first attempts. -/
structure WellFormed (sources : List (List Resp)) : Prop where
  some : sources ≠ []
  ends : ∀ src ∈ sources, Ends src
  once : ((supplied sources).map (·.spec.workId)).Nodup
  first : ∀ w ∈ supplied sources, w.runNumber = 1 ∧ w.spec.focus = none

end Abq.Fetch.Spec
