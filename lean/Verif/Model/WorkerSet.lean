import Verif.Model.Basic

/-!
# Sets of workers and small associative lists

`abq_queue/src/worker_tracking.rs` and `abq_utils/src/vec_map.rs`.
-/

namespace Abq

/-- `worker_tracking.rs:6-7` `struct WorkerSet<T>(Vec<(Entity, T)>)`. -/
abbrev WorkerSet (α : Type) := List (Entity × α)

namespace WorkerSet
variable {α : Type}

/-- `worker_tracking.rs:20-22` `contains_by_tag`. -/
def containsByTag (ws : WorkerSet α) (e : Entity) : Bool := ws.any (fun p => p.1.tag == e.tag)

/-- `worker_tracking.rs:24-43` `insert_by_tag`: the new set and the entry that was replaced.
The `log_assert!` on the kind of tag, which only logs, is modelled in `Verif.Model.Checks`. -/
def insertByTag (ws : WorkerSet α) (e : Entity) (v : α) : WorkerSet α × Option (Entity × α) :=
  match ws.findIdx? (fun p => p.1.tag == e.tag) with
  | some i => (ws.set i (e, v), ws[i]?)
  | none => (ws ++ [(e, v)], none)

/-- `worker_tracking.rs:45-54` `insert_by_tag_if_missing`. -/
def insertByTagIfMissing (ws : WorkerSet α) (e : Entity) (v : α) : WorkerSet α :=
  if ws.any (fun p => p.1.tag == e.tag) then ws else ws ++ [(e, v)]

/-- `worker_tracking.rs:88-98` `FromIterator`: the loop inserts one by one. -/
def ofList (l : List (Entity × α)) : WorkerSet α :=
  l.foldl (fun ws p => (insertByTag ws p.1 p.2).1) []

/-- The `filter_map` of `worker_tracking.rs:69-74`. -/
def workerOf : Tag → Option Nat
  | .runner wr => some wr.worker
  | _ => none

/-- `Vec::dedup` (called in `worker_tracking.rs:76`): removes consecutive repetitions. -/
def dedup : List Nat → List Nat
  | [] => []
  | [a] => [a]
  | a :: b :: l => if a = b then dedup (b :: l) else a :: dedup (b :: l)

/-- `worker_tracking.rs:64-78` `worker_count`. `sort_unstable` of numbers is modelled by the
(stable) merge sort of the Lean library, which gives the same list of numbers. -/
def workerCount (ws : WorkerSet α) : Nat :=
  (dedup ((ws.filterMap (fun p => workerOf p.1.tag)).mergeSort)).length

end WorkerSet

/-- `vec_map.rs:4-6` `struct VecMap<K, V>`. -/
abbrev VecMap (κ ν : Type) := List (κ × ν)

namespace VecMap
variable {κ ν : Type} [DecidableEq κ]

/-- `vec_map.rs:31-45` `insert`. -/
def insert (m : VecMap κ ν) (k : κ) (v : ν) : VecMap κ ν × Option ν :=
  match m.findIdx? (fun p => p.1 == k) with
  | some i => (m.set i (k, v), m[i]?.map Prod.snd)
  | none => (m ++ [(k, v)], none)

/-- `Vec::swap_remove` (called in `vec_map.rs:51`): the last element takes the place of the
removed one. -/
def swapRemove {γ : Type} (l : List γ) (i : Nat) : List γ × Option γ :=
  match l[i]?, l.getLast? with
  | some x, some y => ((l.set i y).dropLast, some x)
  | _, _ => (l, none)

/-- `vec_map.rs:47-52` `remove`. -/
def remove (m : VecMap κ ν) (k : κ) : VecMap κ ν × Option ν :=
  match m.findIdx? (fun p => p.1 == k) with
  | some i => ((swapRemove m i).1, (swapRemove m i).2.map Prod.snd)
  | none => (m, none)

/-- `vec_map.rs:54-56` `get`. -/
def get (m : VecMap κ ν) (k : κ) : Option ν := (m.find? (fun p => p.1 == k)).map Prod.snd

/-- `vec_map.rs:58-60` `contains`. -/
def contains (m : VecMap κ ν) (k : κ) : Bool := m.any (fun p => p.1 == k)

/-- `vec_map.rs:77-87` `FromIterator`. -/
def ofList (l : List (κ × ν)) : VecMap κ ν := l.foldl (fun m p => (insert m p.1 p.2).1) []

end VecMap
end Abq
