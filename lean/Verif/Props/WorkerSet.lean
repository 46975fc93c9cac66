import Verif.Proof.WorkerSet
import Verif.Spec.WorkerSet

/-!
# C30, C53: worker tracking and the small associative list

A record of the worker tracking is a pair of an entity and a value. `lookup ws t` is the record
of tag `t`, read off the list without the functions of the code (`Spec/WorkerSet.lean`).
-/

namespace Abq.Props
open Abq WorkerSet

/-- C30: however often workers are recorded, and in whatever order, there is at most one record
per tag. -/
theorem C30_one_record_per_tag {α : Type} (ops : List (SetOp α)) :
    OnePerTag (ops.foldl SetOp.exec []) := by
  suffices h : ∀ ws : WorkerSet α, OnePerTag ws → OnePerTag (ops.foldl SetOp.exec ws) from
    h [] (by simp [OnePerTag])
  induction ops with
  | nil => exact fun ws h => h
  | cons op ops ih =>
    intro ws h
    refine ih _ ?_
    cases op with
    | insert e v => exact nodup_insertByTag h e v
    | insertIfMissing e v => exact nodup_insertByTagIfMissing h e v

theorem lookup_append {α : Type} (a b : WorkerSet α) (t : Tag) :
    lookup (a ++ b) t = (lookup a t).or (lookup b t) := by
  simp [lookup, List.find?_append]

theorem lookup_cons {α : Type} (p : Entity × α) (b : WorkerSet α) (t : Tag) :
    lookup (p :: b) t = if p.1.tag = t then some p else lookup b t := by
  unfold lookup
  rw [List.find?_cons]
  by_cases h : p.1.tag = t <;> simp [h]

theorem lookup_none {α : Type} {ws : WorkerSet α} {t : Tag} (h : ∀ y ∈ ws, y.1.tag ≠ t) :
    lookup ws t = none := by
  simp only [lookup, List.find?_eq_none, decide_eq_true_eq]
  exact h

/-- C30: recording a worker returns the record of the same tag it replaces, if any; afterwards
the record of that tag is the new one and the records of all other tags are as before. -/
theorem C30_insert_replaces {α : Type} (ws : WorkerSet α) (e : Entity) (v : α) :
    (insertByTag ws e v).2 = lookup ws e.tag ∧
      ∀ t, lookup (insertByTag ws e v).1 t = if t = e.tag then some (e, v) else lookup ws t := by
  rcases insertByTag_cases ws e v with ⟨a, x, b, rfl, hx, hn, h⟩ | ⟨hn, h⟩
  · rw [h]
    refine ⟨?_, fun t => ?_⟩
    · rw [lookup_append, lookup_none hn, lookup_cons, if_pos hx]; rfl
    · rw [lookup_append, lookup_append, lookup_cons, lookup_cons]
      by_cases ht : t = e.tag
      · subst ht
        rw [lookup_none hn]; simp
      · rw [if_neg ht, if_neg (fun h' => ht h'.symm), if_neg (fun h' => ht (by rw [← hx, h']))]
  · rw [h]
    refine ⟨(lookup_none hn).symm, fun t => ?_⟩
    rw [lookup_append, lookup_cons]
    by_cases ht : t = e.tag
    · subst ht
      rw [lookup_none hn]; simp
    · rw [if_neg ht, if_neg (fun h' => ht h'.symm)]
      simp [lookup]

/-- C30: the order of the tags is not disturbed; a new tag goes last. -/
theorem C30_order_kept {α : Type} (ws : WorkerSet α) (e : Entity) (v : α) :
    (insertByTag ws e v).1.map (fun p => p.1.tag) =
      if e.tag ∈ ws.map (fun p => p.1.tag) then ws.map (fun p => p.1.tag)
      else ws.map (fun p => p.1.tag) ++ [e.tag] :=
  tags_insertByTag ws e v

/-- C30: recording a worker only if it is missing leaves an existing record, and every other
record, alone. -/
theorem C30_insert_if_missing {α : Type} (ws : WorkerSet α) (e : Entity) (v : α) (t : Tag) :
    lookup (insertByTagIfMissing ws e v) t =
      match lookup ws t with
      | some p => some p
      | none => if t = e.tag then some (e, v) else none := by
  unfold insertByTagIfMissing
  split
  · rename_i h
    rw [List.any_eq_true] at h
    obtain ⟨p, hp, hpt⟩ := h
    cases hl : lookup ws t with
    | some p => rfl
    | none =>
      simp only
      rw [if_neg]
      rintro rfl
      simp only [lookup, List.find?_eq_none] at hl
      exact absurd (by simpa using hpt) (by simpa using hl p hp)
  · rw [lookup_append]
    cases hl : lookup ws t with
    | some p => rfl
    | none =>
      rw [lookup_cons]
      by_cases ht : t = e.tag
      · simp [ht]
      · rw [if_neg ht, if_neg (fun h' => ht h'.symm)]
        rfl

/-- C30: a worker is contained iff there is a record of its tag. -/
theorem C30_contains {α : Type} (ws : WorkerSet α) (e : Entity) :
    ws.containsByTag e = (lookup ws e.tag).isSome := by
  unfold containsByTag lookup
  induction ws with
  | nil => rfl
  | cons p ws ih =>
    rw [List.any_cons, List.find?_cons]
    by_cases h : p.1.tag = e.tag <;> simp [h, ih]

/-- C30: the number of workers counts the workers with at least one runner, each once. -/
theorem C30_worker_count {α : Type} (ws : WorkerSet α) (l : List Nat) (hl : l.Nodup)
    (h : ∀ w, w ∈ l ↔ ∃ p ∈ ws, ∃ r, p.1.tag = .runner ⟨w, r⟩) :
    workerCount ws = l.length := by
  refine workerCount_eq ws l hl ?_
  intro w
  rw [h]
  constructor
  · rintro ⟨p, hp, r, hr⟩
    exact ⟨p, hp, by rw [hr]; rfl⟩
  · rintro ⟨p, hp, hr⟩
    refine ⟨p, hp, ?_⟩
    unfold workerOf at hr
    split at hr
    · rename_i wr hwr
      cases hr
      exact ⟨wr.runner, hwr⟩
    · cases hr

/-- Two processes of runner (1,1) and one each of (1,2), (2,1). -/
def demoSet : List (SetOp Nat) :=
  [.insert ⟨10, .runner ⟨1, 1⟩⟩ 0, .insert ⟨11, .runner ⟨1, 2⟩⟩ 1, .insert ⟨12, .runner ⟨1, 1⟩⟩ 2,
   .insertIfMissing ⟨13, .runner ⟨2, 1⟩⟩ 3, .insertIfMissing ⟨14, .runner ⟨1, 1⟩⟩ 4]

example : demoSet.foldl SetOp.exec [] =
    [(⟨12, .runner ⟨1, 1⟩⟩, 2), (⟨11, .runner ⟨1, 2⟩⟩, 1), (⟨13, .runner ⟨2, 1⟩⟩, 3)] := by
  decide
example : workerCount (demoSet.foldl SetOp.exec []) = [1, 2].length :=
  C30_worker_count _ _ (by decide) (by
    have h : demoSet.foldl SetOp.exec [] =
        [(⟨12, .runner ⟨1, 1⟩⟩, 2), (⟨11, .runner ⟨1, 2⟩⟩, 1), (⟨13, .runner ⟨2, 1⟩⟩, 3)] := by
      decide
    intro w
    rw [h]
    simp
    omega)

/-! ## The associative list -/

theorem vecMap_inv {κ ν : Type} [DecidableEq κ] (m : VecMap κ ν) (h : (VecMap.keys m).Nodup)
    (op : MapOp κ ν) : (VecMap.keys (op.exec m)).Nodup ∧
      VecMap.get (op.exec m) = op.spec (VecMap.get m) := by
  cases op with
  | insert k v =>
    rcases VecMap.insert_cases m k v with ⟨a, x, b, rfl, hx, hn, h'⟩ | ⟨hn, h'⟩
    · simp only [MapOp.exec, h']
      refine ⟨by subst hx; simpa [VecMap.keys] using h, ?_⟩
      funext k'
      simp only [MapOp.spec]
      rw [VecMap.get_append, VecMap.get_append, VecMap.get_cons, VecMap.get_cons]
      by_cases hk : k' = k
      · subst hk
        rw [VecMap.get_none hn]; simp
      · rw [if_neg hk, if_neg (fun h => hk h.symm), if_neg (fun h => hk (by rw [← hx, h]))]
    · simp only [MapOp.exec, h']
      refine ⟨?_, ?_⟩
      · have : VecMap.keys (m ++ [(k, v)]) = VecMap.keys m ++ [k] := by simp [VecMap.keys]
        rw [this]
        refine nodup_snoc h ?_
        simp only [VecMap.keys, List.mem_map, not_exists, not_and]
        exact fun y hy => hn y hy
      · funext k'
        simp only [MapOp.spec]
        rw [VecMap.get_append, VecMap.get_cons]
        by_cases hk : k' = k
        · subst hk
          rw [VecMap.get_none hn]; simp
        · rw [if_neg hk, if_neg (fun h => hk h.symm)]
          cases VecMap.get m k' <;> rfl
  | remove k =>
    rcases VecMap.remove_cases m k with ⟨a, x, b, rfl, hx, hn, hp, _⟩ | ⟨hn, h'⟩
    · simp only [MapOp.exec]
      have hk1 : (VecMap.keys (VecMap.remove (a ++ x :: b) k).1).Perm
          (VecMap.keys (a ++ b)) := hp.map _
      have hnd : (VecMap.keys (a ++ b)).Nodup ∧ k ∉ VecMap.keys (a ++ b) := by
        have h1 : (VecMap.keys a ++ x.1 :: VecMap.keys b).Nodup := by simpa [VecMap.keys] using h
        have h2 : (x.1 :: (VecMap.keys a ++ VecMap.keys b)).Nodup :=
          (List.perm_middle (a := x.1) (l₁ := VecMap.keys a)
            (l₂ := VecMap.keys b)).nodup_iff.1 h1
        rw [hx] at h2
        have := List.nodup_cons.1 h2
        simpa [VecMap.keys] using this.symm
      have hnd' := hk1.nodup_iff.2 hnd.1
      refine ⟨hnd', ?_⟩
      funext k'
      simp only [MapOp.spec]
      apply Option.ext
      intro v
      rw [VecMap.get_eq_some_iff hnd']
      by_cases hk : k' = k
      · rw [if_pos hk]
        simp only [reduceCtorEq, iff_false]
        intro hm
        exact hnd.2 (hk ▸ List.mem_map.2 ⟨_, hp.mem_iff.1 hm, rfl⟩)
      · rw [if_neg hk, VecMap.get_eq_some_iff h, hp.mem_iff]
        simp only [List.mem_append, List.mem_cons]
        constructor
        · rintro (h1 | h1)
          · exact Or.inl h1
          · exact Or.inr (Or.inr h1)
        · rintro (h1 | h1 | h1)
          · exact Or.inl h1
          · exact absurd (by rw [← hx, ← h1]) hk
          · exact Or.inr h1
    · simp only [MapOp.exec, h']
      refine ⟨h, ?_⟩
      funext k'
      simp only [MapOp.spec]
      by_cases hk : k' = k
      · rw [if_pos hk, hk, VecMap.get_none hn]
      · rw [if_neg hk]

/-- C53: after any sequence of insertions and removals the associative list looks up exactly
what a function updated by the same sequence gives, and holds each key at most once. -/
theorem C53_behaves_like_a_map {κ ν : Type} [DecidableEq κ] (ops : List (MapOp κ ν)) (k : κ) :
    VecMap.get (ops.foldl MapOp.exec []) k = ops.foldl MapOp.spec (fun _ => none) k ∧
      ((ops.foldl MapOp.exec [] : VecMap κ ν).map Prod.fst).Nodup := by
  suffices h : ∀ (m : VecMap κ ν), (VecMap.keys m).Nodup →
      (VecMap.keys (ops.foldl MapOp.exec m)).Nodup ∧
      VecMap.get (ops.foldl MapOp.exec m) = ops.foldl MapOp.spec (VecMap.get m) by
    have h0 := h [] (by simp [VecMap.keys])
    refine ⟨?_, h0.1⟩
    rw [h0.2]
    rfl
  induction ops with
  | nil => exact fun m h => ⟨h, rfl⟩
  | cons op ops ih =>
    intro m hm
    have h1 := vecMap_inv m hm op
    have h2 := ih _ h1.1
    rw [List.foldl_cons, List.foldl_cons, ← h1.2]
    exact h2

/-- C53: insertion and removal return the previous value of the key, and `contains` says whether
there is one. -/
theorem C53_returns_previous {κ ν : Type} [DecidableEq κ] (ops : List (MapOp κ ν)) (k : κ) (v : ν) :
    let m : VecMap κ ν := ops.foldl MapOp.exec []
    (m.insert k v).2 = m.get k ∧ (m.remove k).2 = m.get k ∧ m.contains k = (m.get k).isSome := by
  intro m
  refine ⟨?_, ?_, ?_⟩
  · rcases VecMap.insert_cases m k v with ⟨a, x, b, hm, hx, hn, h⟩ | ⟨hn, h⟩
    · rw [h, hm, VecMap.get_append, VecMap.get_none hn, VecMap.get_cons, if_pos hx]
    · rw [h, VecMap.get_none hn]
  · rcases VecMap.remove_cases m k with ⟨a, x, b, hm, hx, hn, hp, h⟩ | ⟨hn, h⟩
    · rw [h, hm, VecMap.get_append, VecMap.get_none hn, VecMap.get_cons, if_pos hx]
    · rw [h, VecMap.get_none hn]
  · generalize m = m
    unfold VecMap.contains
    induction m with
    | nil => rfl
    | cons p m ih =>
      rw [List.any_cons, VecMap.get_cons]
      by_cases h : p.1 = k
      · simp [h]
      · have : (p.1 == k) = false := by simpa using h
        rw [this, Bool.false_or, if_neg h, ih]

example : VecMap.get ([.insert 1 "a", .insert 2 "b", .insert 3 "c", .remove 1, .insert 2 "d"].foldl
    MapOp.exec ([] : VecMap Nat String)) 2 = some "d" := by decide

end Abq.Props
