/-!
# Flattening a manifest

`crates/abq_utils/src/net_protocol/runners.rs:338-391`.
-/

namespace Abq.Flatten

/-- `v0_2.rs:32-36` `Test`, without its tags: its id and metadata. -/
structure Test where
  id : String
  metadata : String
deriving DecidableEq, Repr

/-- `v0_2.rs:39-53` `TestOrGroup`, `Group`. Names, tags and metadata of groups are left out; flattening drops them. -/
inductive Tree where
  | test (t : Test)
  | group (members : List Tree)
deriving Repr

/-- An entry of the flat manifest (`TestSpec`, `GroupId`): `work_id`, the test case's `id`, `meta` and `focus`, and the
group. Ids made by `WorkId::new` and `GroupId::new` (random UUIDs) are numbered in the order in which they are
made (runners.rs:371-391). -/
structure Entry where
  workId : Nat
  id : String
  metadata : String
  focus : Option (List String)
  group : Nat
deriving DecidableEq, Repr

/-- The vector `collected` and the number of UUIDs made so far (runners.rs:341-345). -/
structure St where
  collected : List Entry
  made : Nat
deriving DecidableEq, Repr

/-- runners.rs:371-391 `add_test_to_collected`. -/
def St.add (s : St) (t : Test) (group : Nat) : St :=
  { collected := s.collected ++ [⟨s.made, t.id, t.metadata, none, group⟩], made := s.made + 1 }

mutual
/-- Number of nodes, for termination (of `TestOrGroup`; not in the code). -/
def Tree.nodes : Tree → Nat
  | .test _ => 1
  | .group ms => 1 + nodesL ms
/-- As above, for the members of a group. -/
def nodesL : List Tree → Nat
  | [] => 0
  | t :: ts => t.nodes + nodesL ts
end

/-- The vector `queue` is a list with its last element first: `extend` pushes one element after the other (runners.rs:354-364). -/
def extend (queue items : List Tree) : List Tree := items.foldl (fun q t => t :: q) queue

theorem extend_eq (queue items : List Tree) : extend queue items = items.reverse ++ queue := by
  unfold extend
  induction items generalizing queue with
  | nil => rfl
  | cons t ts ih => simp [List.foldl_cons, ih]

theorem nodesL_append (a b : List Tree) : nodesL (a ++ b) = nodesL a + nodesL b := by
  induction a with
  | nil => simp [nodesL]
  | cons t ts ih => simp [nodesL, ih]; omega

/-- runners.rs:354-364 the loop `while let Some(test_or_group) = queue.pop()`. -/
def drain (group : Nat) (s : St) : List Tree → St
  | [] => s
  | .test t :: queue => drain group (s.add t group) queue
  | .group members :: queue => drain group s (extend queue members.reverse)
termination_by queue => nodesL queue
decreasing_by
  · simp [nodesL, Tree.nodes]
  · rw [extend_eq, nodesL_append]; simp [nodesL, Tree.nodes]

/-- runners.rs:346-366 one iteration of the loop over the top-level members. -/
def topLevel (s : St) (m : Tree) : St :=
  let group := s.made
  let s := { s with made := s.made + 1 }
  match m with
  | .test t => s.add t group
  | .group members => drain group s (extend [] members.reverse)

/-- runners.rs:340-368 `flatten_manifest`. -/
def flatten (members : List Tree) : List Entry := (members.foldl topLevel ⟨[], 0⟩).collected

end Abq.Flatten
