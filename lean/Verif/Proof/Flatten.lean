import Verif.Spec.Flatten

/-! # Lemmas about flattening -/

namespace Abq.Flatten

theorem testsL_append (a b : List Tree) : testsL (a ++ b) = testsL a ++ testsL b := by
  induction a with
  | nil => rfl
  | cons t ts ih => simp [testsL, ih]

theorem testsL_eq (a : List Tree) : testsL a = a.flatMap Tree.tests := by
  induction a with
  | nil => rfl
  | cons t ts ih => simp [testsL, ih]

/-- The entries that come of a list of tests. -/
def entries (group : Nat) (made : Nat) : List Test → List Entry
  | [] => []
  | t :: ts => ⟨made, t.id, t.metadata, none, group⟩ :: entries group (made + 1) ts

theorem drain_eq (group : Nat) (s : St) (queue : List Tree) : drain group s queue =
    ⟨s.collected ++ entries group s.made (testsL queue), s.made + (testsL queue).length⟩ := by
  fun_induction drain group s queue with
  | case1 s => simp [testsL, entries]
  | case2 s t queue ih =>
    rw [ih]
    simp [testsL, Tree.tests, St.add, entries]; omega
  | case3 s members queue ih =>
    have e : members.attach.reverse.unattach = members.reverse := by
      rw [List.unattach_reverse, List.unattach_attach]
    rw [e] at ih
    rw [ih, extend_eq, List.reverse_reverse, testsL_append]
    simp [testsL, Tree.tests]

theorem topLevel_eq (s : St) (m : Tree) : topLevel s m =
    ⟨s.collected ++ entries s.made (s.made + 1) m.tests, s.made + 1 + m.tests.length⟩ := by
  cases m with
  | test t => simp [topLevel, St.add, Tree.tests, entries]
  | group ms =>
    simp only [topLevel, drain_eq, extend_eq, List.reverse_reverse, List.append_nil, Tree.tests]

/-- The numbers of the groups: `made` when the member is reached. -/
def starts (made : Nat) : List Tree → List Nat
  | [] => []
  | m :: ms => made :: starts (made + 1 + m.tests.length) ms

theorem foldl_collected (members : List Tree) : ∀ s : St, (members.foldl topLevel s).collected =
    s.collected ++ ((members.zip (starts s.made members)).map
      fun p => entries p.2 (p.2 + 1) p.1.tests).flatten := by
  induction members with
  | nil => intro s; simp
  | cons m ms ih =>
    intro s
    rw [List.foldl_cons, ih, topLevel_eq]
    simp [starts, List.append_assoc]

theorem flatten_eq (members : List Tree) : flatten members =
    ((members.zip (starts 0 members)).map fun p => entries p.2 (p.2 + 1) p.1.tests).flatten := by
  unfold flatten; rw [foldl_collected]; rfl

theorem entries_test (g k : Nat) (ts : List Test) : (entries g k ts).map Entry.test = ts := by
  induction ts generalizing k with
  | nil => rfl
  | cons t ts ih => simp [entries, Entry.test, ih]

theorem entries_group (g k : Nat) (ts : List Test) : ∀ e ∈ entries g k ts, e.group = g ∧ e.focus = none := by
  induction ts generalizing k with
  | nil => intro e he; cases he
  | cons t ts ih =>
    intro e he
    rcases List.mem_cons.mp he with rfl | he
    · exact ⟨rfl, rfl⟩
    · exact ih _ e he

theorem entries_work (g k : Nat) (ts : List Test) : ∀ e ∈ entries g k ts, k ≤ e.workId ∧ e.workId < k + ts.length := by
  induction ts generalizing k with
  | nil => intro e he; cases he
  | cons t ts ih =>
    intro e he
    rcases List.mem_cons.mp he with rfl | he
    · simp
    · have := ih _ e he; simp; omega

theorem entries_nodup (g k : Nat) (ts : List Test) : ((entries g k ts).map Entry.workId).Nodup := by
  induction ts generalizing k with
  | nil => exact List.nodup_nil
  | cons t ts ih =>
    simp only [entries, List.map_cons, List.nodup_cons]
    refine ⟨?_, ih _⟩
    intro h
    obtain ⟨e, he, h⟩ := List.mem_map.mp h
    have := entries_work _ _ _ e he
    omega

theorem starts_length (k : Nat) (ms : List Tree) : (starts k ms).length = ms.length := by
  induction ms generalizing k with
  | nil => rfl
  | cons m ms ih => simp [starts, ih]

theorem starts_ge (k : Nat) (ms : List Tree) : ∀ g ∈ starts k ms, k ≤ g := by
  induction ms generalizing k with
  | nil => intro g hg; cases hg
  | cons m ms ih =>
    intro g hg
    rcases List.mem_cons.mp hg with rfl | hg
    · exact Nat.le_refl _
    · have := ih _ g hg; omega

theorem starts_nodup (k : Nat) (ms : List Tree) : (starts k ms).Nodup := by
  induction ms generalizing k with
  | nil => exact List.nodup_nil
  | cons m ms ih =>
    refine List.nodup_cons.mpr ⟨?_, ih _⟩
    intro h
    have := starts_ge _ _ _ h
    omega

/-- The same with the members' positions in place of the numbers. -/
theorem map_group (f : Nat → Nat) (g k : Nat) (ts : List Test) (i : Nat) (h : f g = i) :
    (entries g k ts).map (fun e => (e.test, f e.group)) = ts.map fun t => (t, i) := by
  induction ts generalizing k with
  | nil => rfl
  | cons t ts ih =>
    rw [entries, List.map_cons, List.map_cons, ih]
    rw [h]; rfl

theorem zip_starts (members : List Tree) : ∀ (k j : Nat) (f : Nat → Nat),
    (∀ (i g : Nat), (starts k members)[i]? = some g → f g = j + i) →
    ((members.zip (starts k members)).map fun p => (entries p.2 (p.2 + 1) p.1.tests).map
      fun e => (e.test, f e.group)) = (members.zipIdx j).map fun p => p.1.tests.map fun t => (t, p.2) := by
  induction members with
  | nil => intro k j f _; rfl
  | cons m ms ih =>
    intro k j f hf
    simp only [starts, List.zip_cons_cons, List.map_cons, List.zipIdx_cons]
    rw [map_group f k _ _ j (by have := hf 0 k rfl; simpa using this)]
    congr 1
    apply ih
    intro i g hg
    have := hf (i + 1) g (by simpa [starts] using hg)
    omega

theorem flatten_work (members : List Tree) : ∀ k, (((members.zip (starts k members)).map
    fun p => entries p.2 (p.2 + 1) p.1.tests).flatten.map Entry.workId).Nodup ∧
    ∀ e ∈ ((members.zip (starts k members)).map fun p => entries p.2 (p.2 + 1) p.1.tests).flatten, k < e.workId := by
  induction members with
  | nil => intro k; exact ⟨List.nodup_nil, fun e he => by cases he⟩
  | cons m ms ih =>
    intro k
    obtain ⟨i1, i2⟩ := ih (k + 1 + m.tests.length)
    simp only [starts, List.zip_cons_cons, List.map_cons, List.flatten_cons, List.map_append]
    constructor
    · refine List.nodup_append.mpr ⟨entries_nodup _ _ _, i1, ?_⟩
      intro a ha b hb hab
      obtain ⟨e, he, rfl⟩ := List.mem_map.mp ha
      obtain ⟨e', he', rfl⟩ := List.mem_map.mp hb
      have h1 := entries_work _ _ _ e he
      have h2 := i2 e' he'
      omega
    · intro e he
      rcases List.mem_append.mp he with he | he
      · have := entries_work _ _ _ e he; omega
      · have := i2 e he; omega

end Abq.Flatten
