import Verif.Model.Flatten

/-! # What a flat manifest should be -/

namespace Abq.Flatten

mutual
/-- The tests of a tree in document order, depth first. -/
def Tree.tests : Tree → List Test
  | .test t => [t]
  | .group ms => testsL ms
def testsL : List Tree → List Test
  | [] => []
  | t :: ts => t.tests ++ testsL ts
end

/-- The test of an entry. -/
def Entry.test (e : Entry) : Test := ⟨e.id, e.metadata⟩

/-- The tests of the manifest in document order, each with the position of the top-level member it is in. -/
def located (members : List Tree) : List (Test × Nat) :=
  (members.zipIdx.map fun p => p.1.tests.map fun t => (t, p.2)).flatten

end Abq.Flatten
