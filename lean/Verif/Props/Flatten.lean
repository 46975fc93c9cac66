import Verif.Proof.Flatten

/-!
# Flattening a manifest (C39)
-/

namespace Abq.Props
open Abq.Flatten

/-- **C39.** The flat manifest has exactly the tests of the tree, with their metadata, in document order. -/
theorem C39_tests_in_order (members : List Tree) :
    (flatten members).map Entry.test = testsL members ∧ ∀ e ∈ flatten members, e.focus = none := by
  have hlen : ∀ (ms : List Tree) (k : Nat), ((ms.zip (starts k ms)).map
      fun p => entries p.2 (p.2 + 1) p.1.tests).flatten.map Entry.test = testsL ms := by
    intro ms
    induction ms with
    | nil => intro k; rfl
    | cons m ms ih => intro k; simp [starts, testsL, entries_test, ih]
  rw [flatten_eq]
  refine ⟨hlen _ _, ?_⟩
  intro e he
  obtain ⟨l, hl, he⟩ := List.mem_flatten.mp he
  obtain ⟨p, -, rfl⟩ := List.mem_map.mp hl
  exact (entries_group _ _ _ e he).2

/-- **C39.** All work ids are different. -/
theorem C39_distinct_work_ids (members : List Tree) : ((flatten members).map Entry.workId).Nodup := by
  rw [flatten_eq]; exact (flatten_work members 0).1

/-- **C39.** There is a numbering of the groups such that every test is in the group with the number of its top-level
member, and different members have different groups: `f` inverts the groups of the members. -/
theorem C39_groups (members : List Tree) : ∃ f : Nat → Nat,
    (flatten members).map (fun e => (e.test, f e.group)) = located members ∧
    ∀ e ∈ flatten members, ∀ e' ∈ flatten members, f e.group = f e'.group → e.group = e'.group := by
  -- the position of a group among the groups made
  let f : Nat → Nat := fun g => (starts 0 members).idxOf g
  have hf : ∀ (i g : Nat), (starts 0 members)[i]? = some g → f g = 0 + i := by
    intro i g h
    obtain ⟨hi, h⟩ := List.getElem?_eq_some_iff.mp h
    show (starts 0 members).idxOf g = 0 + i
    rw [← h, (starts_nodup 0 members).idxOf_getElem]; omega
  refine ⟨f, ?_, ?_⟩
  · rw [flatten_eq, List.map_flatten, List.map_map]
    unfold located
    rw [← zip_starts members 0 0 f hf]
    rfl
  · have hmem : ∀ e ∈ flatten members, e.group ∈ starts 0 members := by
      intro e he
      rw [flatten_eq] at he
      obtain ⟨l, hl, he⟩ := List.mem_flatten.mp he
      obtain ⟨p, hp, rfl⟩ := List.mem_map.mp hl
      rw [(entries_group _ _ _ e he).1]
      exact (List.of_mem_zip hp).2
    intro e he e' he' h
    have h1 := List.idxOf_lt_length_of_mem (hmem e he)
    have h2 := List.idxOf_lt_length_of_mem (hmem e' he')
    have e1 : (starts 0 members)[(starts 0 members).idxOf e.group] = e.group := List.getElem_idxOf h1
    have e2 : (starts 0 members)[(starts 0 members).idxOf e'.group] = e'.group := List.getElem_idxOf h2
    have h : (starts 0 members).idxOf e.group = (starts 0 members).idxOf e'.group := h
    simp only [h] at e1
    rw [← e1, e2]

/-- **C39.** Two tests are in the same group exactly if they are in the same top-level member. -/
theorem C39_same_group_iff (members : List Tree) (i j : Nat) (e e' : Entry) (p p' : Abq.Flatten.Test × Nat)
    (h1 : (flatten members)[i]? = some e) (h2 : (flatten members)[j]? = some e')
    (h3 : (located members)[i]? = some p) (h4 : (located members)[j]? = some p') :
    e.group = e'.group ↔ p.2 = p'.2 := by
  obtain ⟨f, hf, hinj⟩ := C39_groups members
  rw [← hf, List.getElem?_map, h1] at h3
  rw [← hf, List.getElem?_map, h2] at h4
  cases h3; cases h4
  constructor
  · intro h; exact congrArg f h
  · exact hinj e (List.mem_of_getElem? h1) e' (List.mem_of_getElem? h2)

/-- **C39.** Groups are contiguous: what lies between two tests of a group is in that group. -/
theorem C39_contiguous (members : List Tree) (i j k : Nat) (hij : i ≤ j) (hjk : j ≤ k) (e e' e'' : Entry)
    (h1 : (flatten members)[i]? = some e) (h2 : (flatten members)[j]? = some e') (h3 : (flatten members)[k]? = some e'')
    (h : e.group = e''.group) : e'.group = e.group := by
  -- positions of members only grow
  have sorted : ((located members).map Prod.snd).Pairwise (· ≤ ·) := by
    unfold located
    have gen : ∀ (ms : List Tree) (n : Nat),
        (((ms.zipIdx n).map fun p => p.1.tests.map fun t => (t, p.2)).flatten.map Prod.snd).Pairwise (· ≤ ·) ∧
        ∀ x ∈ ((ms.zipIdx n).map fun p => p.1.tests.map fun t => (t, p.2)).flatten.map Prod.snd, n ≤ x := by
      intro ms
      induction ms with
      | nil => intro n; exact ⟨List.Pairwise.nil, fun x hx => by cases hx⟩
      | cons m ms ih =>
        intro n
        obtain ⟨i1, i2⟩ := ih (n + 1)
        have hc : ∀ x ∈ (m.tests.map fun t => (t, n)).map Prod.snd, x = n := by
          intro x hx
          simp only [List.map_map, List.mem_map, Function.comp_apply] at hx
          obtain ⟨_, _, rfl⟩ := hx
          rfl
        simp only [List.zipIdx_cons, List.map_cons, List.flatten_cons, List.map_append]
        refine ⟨List.pairwise_append.mpr ⟨?_, i1, ?_⟩, ?_⟩
        · apply List.pairwise_iff_forall_sublist.mpr
          intro a b hs
          have ha := hc a (hs.subset (by simp))
          have hb := hc b (hs.subset (by simp))
          omega
        · intro a ha b hb
          have := hc a ha
          have := i2 b hb
          omega
        · intro x hx
          rcases List.mem_append.mp hx with hx | hx
          · rw [hc x hx]; exact Nat.le_refl _
          · have := i2 x hx; omega
    exact (gen members 0).1
  obtain ⟨f, hf, hinj⟩ := C39_groups members
  have key : ∀ (n : Nat) (x : Entry), (flatten members)[n]? = some x →
      ((located members).map Prod.snd)[n]? = some (f x.group) := by
    intro n x hx
    rw [← hf, List.getElem?_map, List.getElem?_map, hx]; rfl
  have le : ∀ (a b x y : Nat), a ≤ b → ((located members).map Prod.snd)[a]? = some x →
      ((located members).map Prod.snd)[b]? = some y → x ≤ y := by
    intro a b x y hab hx hy
    obtain ⟨ha, rfl⟩ := List.getElem?_eq_some_iff.mp hx
    obtain ⟨hb, rfl⟩ := List.getElem?_eq_some_iff.mp hy
    rcases Nat.lt_or_eq_of_le hab with h | h
    · exact List.pairwise_iff_getElem.mp sorted a b ha hb h
    · subst h; exact Nat.le_refl _
  have l1 := le i j _ _ hij (key i e h1) (key j e' h2)
  have l2 := le j k _ _ hjk (key j e' h2) (key k e'' h3)
  rw [← h] at l2
  exact hinj e' (List.mem_of_getElem? h2) e (List.mem_of_getElem? h1) (by omega)

/-- A manifest with a test at the top, nested groups, an empty group and a test after the groups. -/
def sampleTree : List Tree :=
  [.test ⟨"a", "1"⟩, .group [.test ⟨"b", "2"⟩, .group [.test ⟨"c", "3"⟩, .group []], .test ⟨"d", "4"⟩], .group [],
    .test ⟨"e", "5"⟩]

example : (flatten sampleTree).map (fun e => (e.workId, e.id, e.group)) =
    [(1, "a", 0), (3, "b", 2), (4, "c", 2), (5, "d", 2), (8, "e", 7)] := by
  simp [flatten, sampleTree, topLevel, drain, St.add, extend]
example : located sampleTree = [(⟨"a", "1"⟩, 0), (⟨"b", "2"⟩, 1), (⟨"c", "3"⟩, 1), (⟨"d", "4"⟩, 1), (⟨"e", "5"⟩, 3)] := by
  rfl

end Abq.Props
