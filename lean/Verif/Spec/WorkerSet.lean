import Verif.Model.WorkerSet

/-! What C30 and C53 speak about. -/

namespace Abq.Props
open Abq WorkerSet

/-- The first record with the tag. -/
def lookup {α : Type} (ws : WorkerSet α) (t : Tag) : Option (Entity × α) :=
  ws.find? (fun p => decide (p.1.tag = t))

/-- At most one record per tag. -/
def OnePerTag {α : Type} (ws : WorkerSet α) : Prop := (ws.map (fun p => p.1.tag)).Nodup

/-- The two ways in which the queue adds workers. -/
inductive SetOp (α : Type) where
  | insert (e : Entity) (v : α)
  | insertIfMissing (e : Entity) (v : α)

/-- Executing one of them. -/
def SetOp.exec {α : Type} (ws : WorkerSet α) : SetOp α → WorkerSet α
  | .insert e v => (insertByTag ws e v).1
  | .insertIfMissing e v => insertByTagIfMissing ws e v

/-- The operations of the associative list. -/
inductive MapOp (κ ν : Type) where
  | insert (k : κ) (v : ν)
  | remove (k : κ)

/-- Executing one. -/
def MapOp.exec {κ ν : Type} [DecidableEq κ] (m : VecMap κ ν) : MapOp κ ν → VecMap κ ν
  | .insert k v => (m.insert k v).1
  | .remove k => (m.remove k).1

/-- The specification: a function from keys to values. -/
def MapOp.spec {κ ν : Type} [DecidableEq κ] (f : κ → Option ν) : MapOp κ ν → κ → Option ν
  | .insert k v => fun k' => if k' = k then some v else f k'
  | .remove k => fun k' => if k' = k then none else f k'

end Abq.Props
