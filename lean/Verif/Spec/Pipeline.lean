import Verif.Model.Pipeline
import Verif.Spec.Fetcher

/-! # Vocabulary of C45 and C60 -/

namespace Abq.Pipe
open Abq.Retries

/-- Which test a result is of, and which attempt at it. -/
def keyOf (r : Results) : WorkId × Nat := (r.workId, r.runNumber)
def keyOfTest (w : WorkerTest) : WorkId × Nat := (w.spec.workId, w.runNumber)

/-- All results handed to the results handler so far. -/
def Pipe.reported (p : Pipe) : List Results := p.out.sent.flatten

/-- All tests fetched so far. -/
def Pipe.given (p : Pipe) : List WorkerTest := p.sys.given

/-- The results the native runner yielded and that are on their way to the handler. -/
def Pipe.underway (p : Pipe) : List Results :=
  p.out.buffer ++ p.chan.filterMap (fun m => match m with | .results r => some r | .forceFlush => none)

/-- The state after the first `n` actions of a schedule. -/
def after (p : Pipe) (f : Nat → Act) : Nat → Pipe
  | 0 => p
  | n + 1 => step (after p f n) (f n)

/-- A schedule in which every task gets its turn again and again, and the native runner answers again and
again. It may also fail at any time. -/
structure Fair (f : Nat → Act) : Prop where
  fetch : ∀ n, ∃ m, n ≤ m ∧ f m = .fetch
  produce : ∀ n, ∃ m, n ≤ m ∧ f m = .produce
  consume : ∀ n, ∃ m, n ≤ m ∧ f m = .consume
  result : ∀ n, ∃ m rs, n ≤ m ∧ f m = .result rs
  send : ∀ n, ∃ m, n ≤ m ∧ f m = .send
  take : ∀ n, ∃ m, n ≤ m ∧ f m = .take

end Abq.Pipe
