import Verif.Spec.TestsConn
import Verif.Spec.Answers

/-!
# Vocabulary for the tests of a run that reach its runners (C117)
-/

namespace Abq.TestsConn
open Abq.Spec
variable {T : Type}

/-- What the queue answers to a request for tests: tests, and whether they are the last. -/
abbrev Tests (T : Type) := List (WorkerTest T) × Bool

/-- A runner and what happened on its connections. -/
structure Member (T : Type) where
  entity : Entity
  acts : List (Act (Tests T))

/-- The connections of a runner after all of that. -/
def Member.world (m : Member T) : World (Tests T) := (World.new (Tests T)).run (·.2) m.acts

/-- The tests a runner received. -/
def Member.received (m : Member T) : List (WorkerTest T) := m.world.got.flatMap (·.2.1)

/-- What the queue answered to the requests of one runner for the tests of a run. -/
def answersFor (rid : RunId) (e : Entity) (evs : List (Event T)) : List (Tests T) :=
  ((answersMade evs).filter fun a => decide (a.1 = rid ∧ a.2.1 = e)).map (·.2.2)

/-- These are the runners that took part in a run, each with its own connections; the bundles taken for a runner are the answers the
queue made for it. -/
structure Members (rid : RunId) (evs : List (Event T)) (ms : List (Member T)) : Prop where
  distinct : (ms.map (·.entity)).Nodup
  all : ∀ a ∈ answersMade evs, a.1 = rid → a.2.1 ∈ ms.map (·.entity)
  served : ∀ m ∈ ms, (m.world.pulled.map (·.2)).Perm (answersFor rid m.entity evs)

end Abq.TestsConn
