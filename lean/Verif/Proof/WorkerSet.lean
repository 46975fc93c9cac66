import Verif.Model.WorkerSet

/-! Lemmas about `WorkerSet` and `VecMap`. -/

namespace Abq

/-- Replacing or appending at a key, on any list of pairs with a key function. -/
theorem findIdx?_some_split {γ : Type} {p : γ → Bool} {l : List γ} {i : Nat}
    (h : l.findIdx? p = some i) :
    ∃ a x b, l = a ++ x :: b ∧ a.length = i ∧ p x = true ∧ ∀ y ∈ a, p y = false := by
  induction l generalizing i with
  | nil => simp at h
  | cons x xs ih =>
    rw [List.findIdx?_cons] at h
    by_cases hx : p x = true
    · simp only [hx, if_true, Option.some.injEq] at h
      exact ⟨[], x, xs, rfl, by simpa using h, hx, by simp⟩
    · simp only [hx, Bool.false_eq_true, if_false, Option.map_eq_some_iff] at h
      obtain ⟨j, hj, rfl⟩ := h
      obtain ⟨a, y, b, hl, ha, hy, hn⟩ := ih hj
      refine ⟨x :: a, y, b, by rw [hl]; rfl, by simp [ha], hy, ?_⟩
      intro z hz
      rcases List.mem_cons.1 hz with rfl | hz
      · simpa using hx
      · exact hn z hz

theorem set_split {γ : Type} (a b : List γ) (x y : γ) :
    (a ++ x :: b).set a.length y = a ++ y :: b := by
  rw [List.set_append_right _ _ (Nat.le_refl _)]
  simp

namespace WorkerSet
variable {α : Type}

/-- The tags of a set, in its order. -/
def tags (ws : WorkerSet α) : List Tag := ws.map (fun p => p.1.tag)

theorem insertByTag_cases (ws : WorkerSet α) (e : Entity) (v : α) :
    (∃ a x b, ws = a ++ x :: b ∧ x.1.tag = e.tag ∧ (∀ y ∈ a, y.1.tag ≠ e.tag) ∧
      insertByTag ws e v = (a ++ (e, v) :: b, some x)) ∨
    ((∀ y ∈ ws, y.1.tag ≠ e.tag) ∧ insertByTag ws e v = (ws ++ [(e, v)], none)) := by
  unfold insertByTag
  split
  · rename_i i hi
    obtain ⟨a, x, b, rfl, rfl, hx, hn⟩ := findIdx?_some_split hi
    refine Or.inl ⟨a, x, b, rfl, by simpa using hx, fun y hy => by simpa using hn y hy, ?_⟩
    rw [set_split]
    simp
  · rename_i hi
    refine Or.inr ⟨fun y hy => ?_, rfl⟩
    simpa using List.findIdx?_eq_none_iff.1 hi y hy

theorem tags_insertByTag (ws : WorkerSet α) (e : Entity) (v : α) :
    tags (insertByTag ws e v).1 = if e.tag ∈ tags ws then tags ws else tags ws ++ [e.tag] := by
  rcases insertByTag_cases ws e v with ⟨a, x, b, rfl, hx, _, h⟩ | ⟨hn, h⟩
  · rw [h, if_pos (by simp [tags, hx])]
    simp [tags, hx]
  · rw [h, if_neg]
    · simp [tags]
    · simp only [tags, List.mem_map, not_exists, not_and]
      exact fun y hy => hn y hy

theorem tags_insertByTagIfMissing (ws : WorkerSet α) (e : Entity) (v : α) :
    tags (insertByTagIfMissing ws e v) =
      if e.tag ∈ tags ws then tags ws else tags ws ++ [e.tag] := by
  unfold insertByTagIfMissing
  have : (ws.any (fun p => p.1.tag == e.tag) = true) ↔ e.tag ∈ tags ws := by
    simp [tags, List.any_eq_true]
  by_cases h : e.tag ∈ tags ws
  · rw [if_pos (this.2 h), if_pos h]
  · rw [if_neg (fun h' => h (this.1 h')), if_neg h]
    simp [tags]

theorem nodup_snoc {γ : Type} {l : List γ} {x : γ} (h : l.Nodup) (hx : x ∉ l) : (l ++ [x]).Nodup := by
  rw [List.nodup_append]
  refine ⟨h, by simp, ?_⟩
  intro a ha b hb
  simp only [List.mem_singleton] at hb
  subst hb
  exact fun h => hx (h ▸ ha)

theorem nodup_insertByTag {ws : WorkerSet α} (h : (tags ws).Nodup) (e : Entity) (v : α) :
    (tags (insertByTag ws e v).1).Nodup := by
  rw [tags_insertByTag]
  split
  · exact h
  · exact nodup_snoc h ‹_›

theorem nodup_insertByTagIfMissing {ws : WorkerSet α} (h : (tags ws).Nodup) (e : Entity) (v : α) :
    (tags (insertByTagIfMissing ws e v)).Nodup := by
  rw [tags_insertByTagIfMissing]
  split
  · exact h
  · exact nodup_snoc h ‹_›

theorem mem_tags_insertByTag {ws : WorkerSet α} {e : Entity} {v : α} {t : Tag} :
    t ∈ tags (insertByTag ws e v).1 ↔ t ∈ tags ws ∨ t = e.tag := by
  rw [tags_insertByTag]
  split
  · rename_i h
    constructor
    · exact Or.inl
    · rintro (h' | rfl)
      · exact h'
      · exact h
  · simp

theorem mem_tags_insertByTagIfMissing {ws : WorkerSet α} {e : Entity} {v : α} {t : Tag} :
    t ∈ tags (insertByTagIfMissing ws e v) ↔ t ∈ tags ws ∨ t = e.tag := by
  rw [tags_insertByTagIfMissing]
  split
  · rename_i h
    constructor
    · exact Or.inl
    · rintro (h' | rfl)
      · exact h'
      · exact h
  · simp

theorem containsByTag_iff {ws : WorkerSet α} {e : Entity} :
    ws.containsByTag e = true ↔ e.tag ∈ tags ws := by
  simp [containsByTag, tags, List.any_eq_true]

theorem insertByTag_old {ws : WorkerSet α} {e : Entity} {v : α} :
    (insertByTag ws e v).2.isSome = true ↔ e.tag ∈ tags ws := by
  rcases insertByTag_cases ws e v with ⟨a, x, b, rfl, hx, _, h⟩ | ⟨hn, h⟩
  · rw [h]; simp [tags, hx]
  · rw [h]
    simp only [Option.isSome_none, Bool.false_eq_true, false_iff, tags, List.mem_map, not_exists,
      not_and]
    exact fun y hy => hn y hy

/-- Rebuilding a set by inserting its members with a new value. -/
theorem foldl_insert_tags {β : Type} (l : WorkerSet β) (acc : WorkerSet α) (f : β → α) (t : Tag) :
    t ∈ tags (l.foldl (fun a p => (insertByTag a p.1 (f p.2)).1) acc) ↔
      t ∈ tags acc ∨ t ∈ tags l := by
  induction l generalizing acc with
  | nil => simp [tags]
  | cons p l ih =>
    rw [List.foldl_cons, ih, mem_tags_insertByTag]
    have : t ∈ tags (p :: l) ↔ t = p.1.tag ∨ t ∈ tags l := by simp [tags]
    rw [this, or_assoc]

theorem foldl_insert_nodup {β : Type} (l : WorkerSet β) (acc : WorkerSet α) (f : β → α)
    (h : (tags acc).Nodup) :
    (tags (l.foldl (fun a p => (insertByTag a p.1 (f p.2)).1) acc)).Nodup := by
  induction l generalizing acc with
  | nil => exact h
  | cons p l ih => exact ih _ (nodup_insertByTag h _ _)

/-- When the tags are distinct, rebuilding is just mapping. -/
theorem foldl_insert_map {β : Type} (l : WorkerSet β) (acc : WorkerSet α) (f : β → α)
    (h : (tags l).Nodup) (hd : ∀ t ∈ tags l, t ∉ tags acc) :
    l.foldl (fun a p => (insertByTag a p.1 (f p.2)).1) acc =
      acc ++ l.map (fun p => (p.1, f p.2)) := by
  induction l generalizing acc with
  | nil => simp
  | cons p l ih =>
    have hp : p.1.tag ∉ tags acc := hd _ (by simp [tags])
    have hi : insertByTag acc p.1 (f p.2) = (acc ++ [(p.1, f p.2)], none) := by
      rcases insertByTag_cases acc p.1 (f p.2) with ⟨a, x, b, rfl, hx, _, _⟩ | ⟨_, h⟩
      · exact absurd (by simp [tags, hx]) hp
      · exact h
    have hn : (tags l).Nodup ∧ p.1.tag ∉ tags l := by
      have : (p.1.tag :: tags l).Nodup := by simpa [tags] using h
      rw [List.nodup_cons] at this
      exact ⟨this.2, this.1⟩
    rw [List.foldl_cons, hi, ih _ hn.1]
    · simp
    · intro t ht h'
      have : t ∈ tags acc ∨ t = p.1.tag := by simpa [tags] using h'
      rcases this with h1 | rfl
      · exact hd t (by simp only [tags, List.map_cons, List.mem_cons]; exact Or.inr ht) h1
      · exact hn.2 ht

theorem dedup_mem (l : List Nat) (x : Nat) : x ∈ dedup l ↔ x ∈ l := by
  fun_induction dedup l with
  | case1 => simp
  | case2 => simp
  | case3 a l ih =>
    rw [ih]
    simp
  | case4 a b l h ih => simp only [List.mem_cons] at ih ⊢; rw [ih]

theorem dedup_pairwise (l : List Nat) (h : l.Pairwise (· ≤ ·)) : (dedup l).Pairwise (· < ·) := by
  fun_induction dedup l with
  | case1 => simp
  | case2 => simp
  | case3 a l ih =>
    exact ih (List.pairwise_cons.1 h).2
  | case4 a b l hab ih =>
    have h' := List.pairwise_cons.1 h
    refine List.pairwise_cons.2 ⟨?_, ih h'.2⟩
    intro x hx
    rw [dedup_mem] at hx
    have hb : a ≤ b := h'.1 b (by simp)
    rcases List.mem_cons.1 hx with rfl | hx
    · omega
    · have := (List.pairwise_cons.1 h'.2).1 x hx
      omega

theorem nodup_length_eq {l m : List Nat} (hl : l.Nodup) (hm : m.Nodup) (h : ∀ x, x ∈ l ↔ x ∈ m) :
    l.length = m.length := by
  have : l.Perm m := (List.perm_ext_iff_of_nodup hl hm).2 h
  exact this.length_eq

theorem workerCount_eq (ws : WorkerSet α) (l : List Nat) (hl : l.Nodup)
    (h : ∀ w, w ∈ l ↔ ∃ p ∈ ws, workerOf p.1.tag = some w) : workerCount ws = l.length := by
  unfold workerCount
  refine nodup_length_eq ?_ hl ?_
  · have hs := List.pairwise_mergeSort (le := fun a b : Nat => decide (a ≤ b))
      (fun a b c h1 h2 => by simp at *; omega) (fun a b => by simp; omega)
      (ws.filterMap (fun p => workerOf p.1.tag))
    have hs' : List.Pairwise (· ≤ ·) ((ws.filterMap (fun p => workerOf p.1.tag)).mergeSort) := by
      refine List.Pairwise.imp ?_ hs
      intro a b hab
      simpa using hab
    exact (dedup_pairwise _ hs').imp (fun h => Nat.ne_of_lt h)
  · intro w
    rw [dedup_mem, List.mem_mergeSort, h]
    simp

end WorkerSet

namespace VecMap
variable {κ ν : Type} [DecidableEq κ]

/-- The keys in order. -/
def keys (m : VecMap κ ν) : List κ := m.map Prod.fst

theorem insert_cases (m : VecMap κ ν) (k : κ) (v : ν) :
    (∃ a x b, m = a ++ x :: b ∧ x.1 = k ∧ (∀ y ∈ a, y.1 ≠ k) ∧
      insert m k v = (a ++ (k, v) :: b, some x.2)) ∨
    ((∀ y ∈ m, y.1 ≠ k) ∧ insert m k v = (m ++ [(k, v)], none)) := by
  unfold insert
  split
  · rename_i i hi
    obtain ⟨a, x, b, rfl, rfl, hx, hn⟩ := findIdx?_some_split hi
    refine Or.inl ⟨a, x, b, rfl, by simpa using hx, fun y hy => by simpa using hn y hy, ?_⟩
    rw [set_split]
    simp
  · rename_i hi
    refine Or.inr ⟨fun y hy => ?_, rfl⟩
    simpa using List.findIdx?_eq_none_iff.1 hi y hy

theorem get_append (m n : VecMap κ ν) (k : κ) :
    get (m ++ n) k = match get m k with | some v => some v | none => get n k := by
  unfold get
  rw [List.find?_append]
  cases List.find? (fun p => p.1 == k) m <;> simp

theorem get_cons (p : κ × ν) (m : VecMap κ ν) (k : κ) :
    get (p :: m) k = if p.1 = k then some p.2 else get m k := by
  unfold get
  rw [List.find?_cons]
  by_cases h : p.1 = k
  · simp [h]
  · have : (p.1 == k) = false := by simpa using h
    simp [h, this]

theorem get_none {m : VecMap κ ν} {k : κ} (h : ∀ y ∈ m, y.1 ≠ k) : get m k = none := by
  induction m with
  | nil => rfl
  | cons p m ih =>
    rw [get_cons, if_neg (h p (by simp))]
    exact ih (fun y hy => h y (List.mem_cons_of_mem _ hy))

theorem get_eq_some_iff {m : VecMap κ ν} (h : (keys m).Nodup) {k : κ} {v : ν} :
    get m k = some v ↔ (k, v) ∈ m := by
  induction m with
  | nil => simp [get]
  | cons p m ih =>
    have hn : p.1 ∉ keys m ∧ (keys m).Nodup := by
      have : (p.1 :: keys m).Nodup := by simpa [keys] using h
      exact List.nodup_cons.1 this
    rw [get_cons]
    by_cases hk : p.1 = k
    · rw [if_pos hk]
      constructor
      · intro h'
        cases h'
        cases hk
        simp
      · intro h'
        rcases List.mem_cons.1 h' with h' | h'
        · rw [← h']
        · exact absurd (by subst hk; exact List.mem_map.2 ⟨_, h', rfl⟩) hn.1
    · rw [if_neg hk, ih hn.2]
      constructor
      · exact List.mem_cons_of_mem _
      · intro h'
        rcases List.mem_cons.1 h' with h' | h'
        · exact absurd (by rw [← h']) hk
        · exact h'

/-- The elements left by `swap_remove` are the elements without the removed one. -/
theorem swapRemove_perm {γ : Type} (a b : List γ) (x : γ) :
    (swapRemove (a ++ x :: b) a.length).1.Perm (a ++ b) ∧
      (swapRemove (a ++ x :: b) a.length).2 = some x := by
  unfold swapRemove
  have h1 : (a ++ x :: b)[a.length]? = some x := by simp
  rw [h1]
  rcases List.eq_nil_or_concat b with rfl | ⟨b', y, rfl⟩
  · have h2 : (a ++ [x]).getLast? = some x := by simp
    rw [h2]
    refine ⟨?_, rfl⟩
    simp only
    rw [set_split]
    simp
  · have h2 : (a ++ x :: (b' ++ [y])).getLast? = some y := by
      rw [show a ++ x :: (b' ++ [y]) = (a ++ x :: b') ++ [y] by simp, List.getLast?_append]
      simp
    simp only [List.concat_eq_append]
    rw [h2]
    refine ⟨?_, rfl⟩
    simp only
    rw [set_split, show a ++ y :: (b' ++ [y]) = (a ++ y :: b') ++ [y] by simp, List.dropLast_concat]
    refine List.Perm.append_left a ?_
    exact (List.perm_append_comm (l₁ := b') (l₂ := [y])).symm

theorem remove_cases (m : VecMap κ ν) (k : κ) :
    (∃ a x b, m = a ++ x :: b ∧ x.1 = k ∧ (∀ y ∈ a, y.1 ≠ k) ∧
      (remove m k).1.Perm (a ++ b) ∧ (remove m k).2 = some x.2) ∨
    ((∀ y ∈ m, y.1 ≠ k) ∧ remove m k = (m, none)) := by
  unfold remove
  split
  · rename_i i hi
    obtain ⟨a, x, b, rfl, rfl, hx, hn⟩ := findIdx?_some_split hi
    refine Or.inl ⟨a, x, b, rfl, by simpa using hx, fun y hy => by simpa using hn y hy, ?_⟩
    have := swapRemove_perm a b x
    exact ⟨this.1, by rw [this.2]; rfl⟩
  · rename_i hi
    refine Or.inr ⟨fun y hy => ?_, rfl⟩
    simpa using List.findIdx?_eq_none_iff.1 hi y hy

end VecMap
end Abq
