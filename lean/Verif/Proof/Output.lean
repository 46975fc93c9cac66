import Verif.Spec.Output
import Verif.Proof.Summary
import Verif.Proof.Terminal
/-! # Lemmas on the text of a report -/

namespace Abq.Output
open Summary
open Terminal (Text)

/-! ## Numbers of files -/

def Keys (l : List (String × Nat)) : Prop := (l.map (·.1)).Nodup ∧ ∀ x ∈ l, 0 < x.2

theorem keys_nil : Keys [] := ⟨List.nodup_nil, by simp⟩

theorem addTo_keys (l : List (String × Nat)) (x : String × Nat) (f : String) :
    f ∈ (addTo l x).map (·.1) ↔ f ∈ l.map (·.1) ∨ f = x.1 := by
  induction l with
  | nil => simp [addTo]
  | cons y l ih =>
    obtain ⟨k, n⟩ := y
    unfold addTo
    split
    · rename_i h; subst h; simp; grind
    · rw [List.map_cons, List.mem_cons, ih, List.map_cons, List.mem_cons]; grind

theorem Keys.addTo {l : List (String × Nat)} (h : Keys l) (x : String × Nat) (hx : 0 < x.2) : Keys (addTo l x) := by
  induction l with
  | nil => exact ⟨by simp [Output.addTo], by simpa [Output.addTo] using hx⟩
  | cons y l ih =>
    obtain ⟨k, n⟩ := y
    obtain ⟨h1, h2⟩ := h
    rw [List.map_cons, List.nodup_cons] at h1
    unfold Output.addTo
    split
    · refine ⟨by simpa using h1, ?_⟩
      intro z hz
      rcases List.mem_cons.1 hz with rfl | hz
      · simp; omega
      · exact h2 z (List.mem_cons_of_mem _ hz)
    · rename_i hne
      have ih := ih ⟨h1.2, fun z hz => h2 z (List.mem_cons_of_mem _ hz)⟩
      refine ⟨?_, ?_⟩
      · rw [List.map_cons, List.nodup_cons]
        refine ⟨?_, ih.1⟩
        rw [addTo_keys]
        rintro (h | h)
        · exact h1.1 h
        · exact hne h
      · intro z hz
        rcases List.mem_cons.1 hz with rfl | hz
        · exact h2 _ (List.mem_cons_self ..)
        · exact ih.2 z hz

theorem Keys.foldl {l : List (String × Nat)} (h : Keys l) (m : List (String × Nat)) (hm : ∀ x ∈ m, 0 < x.2) :
    Keys (m.foldl Output.addTo l) := by
  induction m generalizing l with
  | nil => exact h
  | cons x m ih =>
    exact ih (h.addTo x (hm x (List.mem_cons_self ..))) fun y hy => hm y (List.mem_cons_of_mem _ hy)

theorem Keys.bump {l : List (String × Nat)} (h : Keys l) (f : String) : Keys (bump f l) := by
  have : Summary.bump f l = Output.addTo l (f, 1) := by
    induction l with
    | nil => rfl
    | cons y l ih =>
      obtain ⟨k, n⟩ := y
      unfold Summary.bump Output.addTo
      split
      · rfl
      · rw [ih ⟨(List.nodup_cons.1 h.1).2, fun z hz => h.2 z (List.mem_cons_of_mem _ hz)⟩]
  rw [this]
  exact h.addTo _ (by simp)

theorem numberOf_addTo (l : List (String × Nat)) (x : String × Nat) (f : String) :
    numberOf f (addTo l x) = numberOf f l + if x.1 = f then x.2 else 0 := by
  induction l with
  | nil =>
    unfold addTo numberOf
    by_cases h : x.1 = f <;> simp [h]
  | cons y l ih =>
    obtain ⟨k, n⟩ := y
    unfold addTo
    split
    · rename_i h
      unfold numberOf
      by_cases hk : k = f
      · have : x.1 = f := h ▸ hk
        simp [hk, this]
      · have : ¬ x.1 = f := fun e => hk (h.trans e)
        simp [hk, this]
    · rename_i h
      unfold numberOf at ih ⊢
      by_cases hk : k = f
      · have : ¬ x.1 = f := fun e => h (hk.trans e.symm)
        simp [hk, this]
      · simpa [hk] using ih

theorem numberOf_foldl (m l : List (String × Nat)) (f : String) (hm : (m.map (·.1)).Nodup) :
    numberOf f (m.foldl addTo l) = numberOf f l + numberOf f m := by
  induction m generalizing l with
  | nil => simp [numberOf]
  | cons x m ih =>
    rw [List.map_cons, List.nodup_cons] at hm
    rw [List.foldl_cons, ih _ hm.2, numberOf_addTo]
    have hc : numberOf f (x :: m) = (if x.1 = f then x.2 else 0) + numberOf f m := by
      by_cases h : x.1 = f
      · have h0 : numberOf f m = 0 := by
          unfold numberOf
          have : m.find? (·.1 == f) = none := by
            rw [List.find?_eq_none]
            intro y hy
            have : y.1 ≠ f := fun e => hm.1 (List.mem_map.2 ⟨y, hy, e.trans h.symm⟩)
            simpa using this
          rw [this]
        rw [h0]; unfold numberOf; simp [h]
      · unfold numberOf; simp [h]
    rw [hc]; omega

theorem mem_iff_numberOf {l : List (String × Nat)} (h : Keys l) (f : String) (n : Nat) :
    (f, n) ∈ l ↔ numberOf f l = n ∧ 0 < n := by
  induction l with
  | nil => simp [numberOf]; omega
  | cons y l ih =>
    obtain ⟨k, m⟩ := y
    have h1 := List.nodup_cons.1 h.1
    have ih := ih ⟨h1.2, fun z hz => h.2 z (List.mem_cons_of_mem _ hz)⟩
    have hm : 0 < m := h.2 (k, m) (List.mem_cons_self ..)
    rw [List.mem_cons, ih]
    by_cases hk : k = f
    · subst hk
      have h0 : numberOf k l = 0 := by
        unfold numberOf
        have : l.find? (·.1 == k) = none := by
          rw [List.find?_eq_none]
          intro y hy
          have : y.1 ≠ k := fun e => h1.1 (List.mem_map.2 ⟨y, hy, e⟩)
          simpa using this
        rw [this]
      rw [h0]
      unfold numberOf
      simp
      omega
    · unfold numberOf
      simp [hk]
      intro e; exact absurd e.symm hk

/-! ## Summaries of runners -/

def Good (s : RunnerSummary) : Prop := Keys s.failuresPerFile ∧ Keys s.retriesPerFile

theorem good_count {s : RunnerSummary} (h : Good s) (t : TestStatus) : Good (s.count t) := by
  obtain ⟨tag, retried, file, runner⟩ := t
  have hb := fun f => h.1.bump f
  have hr := fun f => h.2.bump f
  cases file with
  | none =>
    cases retried <;> rcases tag with _ | (_ | _) | _ | _ <;> exact h
  | some f =>
    cases retried <;> rcases tag with _ | (_ | _) | _ | _ <;>
      first | exact h | exact ⟨hb f, h.2⟩ | exact ⟨h.1, hr f⟩ | exact ⟨hb f, hr f⟩

theorem good_countRunner (t : TestStatus) (l : List RunnerSummary) (h : ∀ s ∈ l, Good s) :
    ∀ s ∈ countRunner t l, Good s := by
  have hn : Good (RunnerSummary.count ⟨t.runner, [], []⟩ t) := good_count ⟨keys_nil, keys_nil⟩ t
  induction l with
  | nil =>
    intro s hs
    rw [countRunner, List.mem_singleton] at hs
    rw [hs]; exact hn
  | cons a l ih =>
    have ha := h a (List.mem_cons_self ..)
    have hl := fun s hs => h s (List.mem_cons_of_mem _ hs)
    intro s hs
    unfold countRunner at hs
    split at hs
    · rcases List.mem_cons.1 hs with rfl | hs
      · exact good_count ha t
      · exact hl s hs
    · split at hs
      · rcases List.mem_cons.1 hs with rfl | hs
        · exact hn
        · exact h s hs
      · rcases List.mem_cons.1 hs with rfl | hs
        · exact ha
        · exact ih hl s hs

theorem good_foldl (ts : List TestStatus) (l : List RunnerSummary) (h : ∀ s ∈ l, Good s) :
    ∀ s ∈ ts.foldl (fun ss s => countRunner s ss) l, Good s := by
  induction ts generalizing l with
  | nil => exact h
  | cons t ts ih => exact ih _ (good_countRunner t l h)

/-- The sum of a number over the runners of a group. -/
def sumOf (g : Grouping) (k : Nat) (num : RunnerSummary → Nat) (l : List RunnerSummary) : Nat :=
  (l.map fun s => if g.key s.runner = k then num s else 0).sum

theorem sumOf_countRunner (g : Grouping) (k : Nat) (num : RunnerSummary → Nat) (p : TestStatus → Bool)
    (hg : ∀ s t, num (RunnerSummary.count s t) = num s + if p t then 1 else 0) (h0 : ∀ r, num ⟨r, [], []⟩ = 0)
    (t : TestStatus) (l : List RunnerSummary) :
    sumOf g k num (countRunner t l) = sumOf g k num l + if g.key t.runner = k ∧ p t = true then 1 else 0 := by
  induction l with
  | nil =>
    simp only [countRunner, sumOf, List.map_cons, List.map_nil, List.sum_cons, List.sum_nil, count_runner, hg, h0]
    by_cases hk : g.key t.runner = k <;> simp [hk]
  | cons a l ih =>
    unfold countRunner
    split
    · rename_i he
      simp only [sumOf, List.map_cons, List.sum_cons, count_runner, hg]
      rw [he]
      by_cases hk : g.key t.runner = k <;> simp [hk]; omega
    · split
      · simp only [sumOf, List.map_cons, List.sum_cons, count_runner, hg, h0]
        by_cases hk : g.key t.runner = k <;> simp [hk]; omega
      · simp only [sumOf, List.map_cons, List.sum_cons] at ih ⊢
        rw [ih]; omega

theorem sumOf_foldl (g : Grouping) (k : Nat) (num : RunnerSummary → Nat) (p : TestStatus → Bool)
    (hg : ∀ s t, num (RunnerSummary.count s t) = num s + if p t then 1 else 0) (h0 : ∀ r, num ⟨r, [], []⟩ = 0)
    (ts : List TestStatus) (l : List RunnerSummary) :
    sumOf g k num (ts.foldl (fun ss s => countRunner s ss) l)
      = sumOf g k num l + ts.countP fun t => g.key t.runner == k && p t := by
  induction ts generalizing l with
  | nil => simp
  | cons t ts ih =>
    rw [List.foldl_cons, ih, sumOf_countRunner g k num p hg h0, List.countP_cons]
    by_cases hk : g.key t.runner = k <;> cases p t <;> simp [hk] <;> omega

/-! ## Groups -/

/-- What is kept of the groups: ordered, labelled by their keys, with the sums. -/
structure GInv (g : Grouping) (l : List RunnerSummary) (m : List (Nat × RunnerSummary)) : Prop where
  ordered : m.Pairwise fun a b => a.1 < b.1
  label : ∀ x ∈ m, g.key x.2.runner = x.1
  good : ∀ x ∈ m, Good x.2
  keys : ∀ k, k ∈ m.map (·.1) ↔ ∃ s ∈ l, g.key s.runner = k
  failures : ∀ x ∈ m, ∀ f, numberOf f x.2.failuresPerFile = sumOf g x.1 (fun s => numberOf f s.failuresPerFile) l
  retries : ∀ x ∈ m, ∀ f, numberOf f x.2.retriesPerFile = sumOf g x.1 (fun s => numberOf f s.retriesPerFile) l

theorem mem_groupOne (g : Grouping) (s : RunnerSummary) (m : List (Nat × RunnerSummary))
    (ho : m.Pairwise fun a b => a.1 < b.1) (x : Nat × RunnerSummary) :
    x ∈ groupOne g s m ↔
      (x ∈ m ∧ x.1 ≠ g.key s.runner) ∨
      (x.1 = g.key s.runner ∧ ((∃ e, (x.1, e) ∈ m ∧ x.2 = union e s) ∨ ((∀ y ∈ m, y.1 ≠ g.key s.runner) ∧ x.2 = s))) := by
  induction m with
  | nil =>
    obtain ⟨k, y⟩ := x
    simp only [groupOne, List.mem_singleton, Prod.mk.injEq]
    simp
  | cons a m ih =>
    obtain ⟨k, e⟩ := a
    rw [List.pairwise_cons] at ho
    have ih := ih ho.2
    obtain ⟨kx, y⟩ := x
    unfold groupOne
    split
    · rename_i hk
      have hne : ∀ z ∈ m, z.1 ≠ k := fun z hz e => by have := ho.1 z hz; simp at this; omega
      simp only [List.mem_cons, Prod.mk.injEq]
      constructor
      · rintro (⟨rfl, rfl⟩ | h)
        · exact .inr ⟨hk, .inl ⟨e, .inl ⟨rfl, rfl⟩, rfl⟩⟩
        · exact .inl ⟨.inr h, hk ▸ hne _ h⟩
      · rintro (⟨⟨rfl, rfl⟩ | h, hx⟩ | ⟨hx, ⟨e', (⟨rfl, rfl⟩ | h), rfl⟩ | ⟨h, rfl⟩⟩)
        · exact absurd hk hx
        · exact .inr h
        · exact .inl ⟨rfl, rfl⟩
        · exact absurd (hx.trans hk.symm) (hne _ h)
        · exact absurd hk (h _ (.inl rfl))
    · rename_i hk
      split
      · rename_i hlt
        have hne : ∀ z ∈ (k, e) :: m, z.1 ≠ g.key s.runner := by
          intro z hz h
          rcases List.mem_cons.1 hz with rfl | hz
          · exact hk h
          · have := ho.1 z hz; simp at this; omega
        rw [List.mem_cons]
        constructor
        · rintro (h | h)
          · obtain ⟨rfl, rfl⟩ := Prod.mk.injEq .. ▸ h
            exact .inr ⟨rfl, .inr ⟨hne, rfl⟩⟩
          · exact .inl ⟨h, hne _ h⟩
        · rintro (⟨h, -⟩ | ⟨hx, ⟨e', h, rfl⟩ | ⟨h, rfl⟩⟩)
          · exact .inr h
          · exact absurd hx (hne (kx, e') h)
          · dsimp only at hx; subst hx; exact .inl rfl
      · rw [List.mem_cons, ih]
        constructor
        · rintro (h | ⟨h, hx⟩ | ⟨hx, ⟨e', h, rfl⟩ | ⟨h, rfl⟩⟩)
          · obtain ⟨rfl, rfl⟩ := Prod.mk.injEq .. ▸ h
            exact .inl ⟨List.mem_cons_self .., hk⟩
          · exact .inl ⟨List.mem_cons_of_mem _ h, hx⟩
          · exact .inr ⟨hx, .inl ⟨e', List.mem_cons_of_mem _ h, rfl⟩⟩
          · refine .inr ⟨hx, .inr ⟨?_, rfl⟩⟩
            intro z hz
            rcases List.mem_cons.1 hz with rfl | hz
            · exact hk
            · exact h z hz
        · rintro (⟨h, hx⟩ | ⟨hx, ⟨e', h, rfl⟩ | ⟨h, rfl⟩⟩)
          · rcases List.mem_cons.1 h with h | h
            · exact .inl h
            · exact .inr (.inl ⟨h, hx⟩)
          · rcases List.mem_cons.1 h with h | h
            · obtain ⟨rfl, rfl⟩ := Prod.mk.injEq .. ▸ h
              exact absurd hx hk
            · exact .inr (.inr ⟨hx, .inl ⟨e', h, rfl⟩⟩)
          · exact .inr (.inr ⟨hx, .inr ⟨fun z hz => h z (List.mem_cons_of_mem _ hz), rfl⟩⟩)

theorem ordered_groupOne (g : Grouping) (s : RunnerSummary) (m : List (Nat × RunnerSummary))
    (ho : m.Pairwise fun a b => a.1 < b.1) : (groupOne g s m).Pairwise fun a b => a.1 < b.1 := by
  induction m with
  | nil => simp [groupOne]
  | cons a m ih =>
    obtain ⟨k, e⟩ := a
    rw [List.pairwise_cons] at ho
    unfold groupOne
    split
    · exact List.pairwise_cons.2 ⟨ho.1, ho.2⟩
    · rename_i hk
      split
      · rename_i hlt
        refine List.pairwise_cons.2 ⟨?_, List.pairwise_cons.2 ho⟩
        intro z hz
        rcases List.mem_cons.1 hz with rfl | hz
        · exact hlt
        · have := ho.1 z hz; simp at this ⊢; omega
      · refine List.pairwise_cons.2 ⟨?_, ih ho.2⟩
        intro z hz
        rcases (mem_groupOne g s m ho.2 z).1 hz with ⟨h, -⟩ | ⟨h, -⟩
        · exact ho.1 z h
        · simp; omega

theorem sumOf_append (g : Grouping) (k : Nat) (num : RunnerSummary → Nat) (l : List RunnerSummary) (s : RunnerSummary) :
    sumOf g k num (l ++ [s]) = sumOf g k num l + if g.key s.runner = k then num s else 0 := by
  simp [sumOf, List.sum_append]

theorem sumOf_none (g : Grouping) (k : Nat) (num : RunnerSummary → Nat) (l : List RunnerSummary)
    (h : ¬ ∃ s ∈ l, g.key s.runner = k) : sumOf g k num l = 0 := by
  induction l with
  | nil => rfl
  | cons a l ih =>
    have ha : ¬ g.key a.runner = k := fun e => h ⟨a, List.mem_cons_self .., e⟩
    have := ih fun ⟨s, hs, e⟩ => h ⟨s, List.mem_cons_of_mem _ hs, e⟩
    simp only [sumOf, List.map_cons, List.sum_cons] at this ⊢
    simp [ha, this]

theorem ginv_step {g : Grouping} {l : List RunnerSummary} {m : List (Nat × RunnerSummary)} (i : GInv g l m)
    (s : RunnerSummary) (hs : Good s) : GInv g (l ++ [s]) (groupOne g s m) := by
  have hm := mem_groupOne g s m i.ordered
  refine ⟨ordered_groupOne g s m i.ordered, ?_, ?_, ?_, ?_, ?_⟩
  · intro x hx
    rcases (hm x).1 hx with ⟨h, -⟩ | ⟨hk, ⟨e, h, hu⟩ | ⟨h, hu⟩⟩
    · exact i.label x h
    · rw [hu]; exact i.label (x.1, e) h
    · rw [hu, hk]
  · intro x hx
    rcases (hm x).1 hx with ⟨h, -⟩ | ⟨hk, ⟨e, h, hu⟩ | ⟨h, hu⟩⟩
    · exact i.good x h
    · have he := i.good _ h
      rw [hu]
      exact ⟨he.1.foldl _ hs.1.2, he.2.foldl _ hs.2.2⟩
    · rw [hu]; exact hs
  · intro k
    have hk : (k ∈ (groupOne g s m).map (·.1)) ↔ (k ∈ m.map (·.1) ∨ k = g.key s.runner) := by
      constructor
      · intro h
        obtain ⟨x, hx, rfl⟩ := List.mem_map.1 h
        rcases (hm x).1 hx with ⟨h, -⟩ | ⟨hk, -⟩
        · exact .inl (List.mem_map.2 ⟨x, h, rfl⟩)
        · exact .inr hk
      · rintro (h | rfl)
        · obtain ⟨x, hx, rfl⟩ := List.mem_map.1 h
          by_cases hk : x.1 = g.key s.runner
          · refine List.mem_map.2 ⟨(x.1, union x.2 s), ?_, rfl⟩
            exact (hm _).2 (.inr ⟨hk, .inl ⟨x.2, hx, rfl⟩⟩)
          · exact List.mem_map.2 ⟨x, (hm x).2 (.inl ⟨hx, hk⟩), rfl⟩
        · by_cases hk : ∀ y ∈ m, y.1 ≠ g.key s.runner
          · exact List.mem_map.2 ⟨(g.key s.runner, s), (hm _).2 (.inr ⟨rfl, .inr ⟨hk, rfl⟩⟩), rfl⟩
          · have ⟨y, hy, he⟩ : ∃ y ∈ m, y.1 = g.key s.runner :=
              Classical.byContradiction fun h => hk fun y hy he => h ⟨y, hy, he⟩
            refine List.mem_map.2 ⟨(y.1, union y.2 s), ?_, he⟩
            exact (hm _).2 (.inr ⟨he, .inl ⟨y.2, hy, rfl⟩⟩)
    rw [hk, i.keys]
    constructor
    · rintro (⟨s', hs', e⟩ | e)
      · exact ⟨s', List.mem_append_left _ hs', e⟩
      · exact ⟨s, by simp, e.symm⟩
    · rintro ⟨s', hs', e⟩
      rcases List.mem_append.1 hs' with h | h
      · exact .inl ⟨s', h, e⟩
      · rw [List.mem_singleton] at h; subst h; exact .inr e.symm
  · intro x hx f
    rw [sumOf_append]
    rcases (hm x).1 hx with ⟨h, hk⟩ | ⟨hk, ⟨e, h, hu⟩ | ⟨h, hu⟩⟩
    · rw [i.failures x h, if_neg (fun e => hk e.symm), Nat.add_zero]
    · rw [hu, if_pos hk.symm, ← i.failures _ h]
      exact numberOf_foldl _ _ f hs.1.1
    · rw [hu, if_pos hk.symm, sumOf_none, Nat.zero_add]
      rw [← i.keys, hk]
      intro hc
      obtain ⟨y, hy, e⟩ := List.mem_map.1 hc
      exact h y hy e
  · intro x hx f
    rw [sumOf_append]
    rcases (hm x).1 hx with ⟨h, hk⟩ | ⟨hk, ⟨e, h, hu⟩ | ⟨h, hu⟩⟩
    · rw [i.retries x h, if_neg (fun e => hk e.symm), Nat.add_zero]
    · rw [hu, if_pos hk.symm, ← i.retries _ h]
      exact numberOf_foldl _ _ f hs.2.1
    · rw [hu, if_pos hk.symm, sumOf_none, Nat.zero_add]
      rw [← i.keys, hk]
      intro hc
      obtain ⟨y, hy, e⟩ := List.mem_map.1 hc
      exact h y hy e

theorem ginv_foldl {g : Grouping} (ss l : List RunnerSummary) {m : List (Nat × RunnerSummary)} (i : GInv g l m)
    (hs : ∀ s ∈ ss, Good s) : GInv g (l ++ ss) (ss.foldl (fun m s => groupOne g s m) m) := by
  induction ss generalizing l m with
  | nil => simpa using i
  | cons s ss ih =>
    have := ih (l ++ [s]) (ginv_step i s (hs s (List.mem_cons_self ..))) fun s' h => hs s' (List.mem_cons_of_mem _ h)
    rwa [List.append_assoc] at this

theorem ginv (g : Grouping) (ss : List RunnerSummary) (hs : ∀ s ∈ ss, Good s) :
    GInv g ss (ss.foldl (fun m s => groupOne g s m) []) := by
  refine ginv_foldl (g := g) ss [] ⟨List.Pairwise.nil, ?_, ?_, ?_, ?_, ?_⟩ hs <;> simp

/-! ## Text -/

/-- The table that is printed. -/
def tableOf (files : RunnerSummary → List (String × Nat)) (m : List (Nat × RunnerSummary)) : Table :=
  (m.filter fun x => !(files x.2).isEmpty).map fun x => (x.1, orderFiles (files x.2))

theorem label_eq (g : Grouping) (r : Runner) : g.label r = (who g ++ " " ++ toString (g.key r)).toList := by
  cases g <;> (unfold Grouping.label who Grouping.key; simp only [String.toList_append]; rfl)

theorem pad_eq (n : Nat) : pad n = (toString n).toList.leftpad 5 ' ' := rfl

theorem groupText_eq (g : Grouping) (r : Runner) (files : List (String × Nat)) :
    groupText g r files = rowText (who g) (g.key r, orderFiles files) := by
  unfold groupText rowText
  rw [label_eq]
  simp only [String.toList_append, List.append_assoc, pad_eq]
  rfl

theorem groupsText_pos (g : Grouping) (files : RunnerSummary → List (String × Nat)) (i : Nat) (l : List RunnerSummary) :
    groupsText g files (i + 1) l = l.flatMap fun s => ['\n'] ++ groupText g s.runner (files s) := by
  induction l generalizing i with
  | nil => rfl
  | cons s l ih => unfold groupsText; rw [ih]; simp

theorem flatten_intersperse (x : Text) (l : List Text) (sep : Text) :
    ((x :: l).intersperse sep).flatten = x ++ l.flatMap (sep ++ ·) := by
  induction l generalizing x with
  | nil => simp
  | cons y l ih =>
    rw [List.intersperse_cons₂, List.flatten_cons, List.flatten_cons, ih]
    simp

theorem groupsText_eq (g : Grouping) (files : RunnerSummary → List (String × Nat)) (l : List RunnerSummary) :
    groupsText g files 0 l = ((l.map fun s => groupText g s.runner (files s)).intersperse ['\n']).flatten := by
  cases l with
  | nil => rfl
  | cons s l =>
    unfold groupsText
    rw [groupsText_pos, List.map_cons, flatten_intersperse, List.flatMap_map]
    simp

theorem part_eq (g : Grouping) (title : String) (files : RunnerSummary → List (String × Nat))
    (m : List (Nat × RunnerSummary)) (hl : ∀ x ∈ m, g.key x.2.runner = x.1) :
    part g title.toList files (m.map (·.2)) = (tableOf files m).text title (who g) := by
  have hf : (m.map (·.2)).filter (fun s => !(files s).isEmpty) = (m.filter fun x => !(files x.2).isEmpty).map (·.2) := by
    rw [List.filter_map]; rfl
  unfold part tableOf Table.text
  dsimp only
  rw [hf]
  have hl' : ∀ x ∈ m.filter (fun x => !(files x.2).isEmpty), g.key x.2.runner = x.1 :=
    fun x hx => hl x ((List.mem_filter.1 hx).1)
  generalize m.filter (fun x => !(files x.2).isEmpty) = l at hl'
  by_cases he : l = []
  · subst he; rfl
  · have h1 : (!(l.map (·.2)).isEmpty) = true := by simpa using he
    have h2 : ¬ l.map (fun x => (x.1, orderFiles (files x.2))) = [] := by simpa using he
    rw [if_pos h1, if_neg h2, groupsText_eq]
    have : (l.map (·.2)).map (fun s => groupText g s.runner (files s))
        = (l.map (fun x => (x.1, orderFiles (files x.2)))).map (rowText (who g)) := by
      rw [List.map_map, List.map_map]
      refine List.map_congr_left fun x hx => ?_
      show groupText g x.2.runner (files x.2) = rowText (who g) (x.1, orderFiles (files x.2))
      rw [groupText_eq, hl' x hx]
    rw [this]
    simp only [String.toList_append, List.append_assoc]
    rfl

theorem orderFiles_mem (l : List (String × Nat)) (x : String × Nat) : x ∈ orderFiles l ↔ x ∈ l :=
  (List.mergeSort_perm l _).mem_iff

theorem orderFiles_sorted (l : List (String × Nat)) (h : Keys l) : (orderFiles l).Pairwise fun a b => a.1 < b.1 := by
  have hs : (orderFiles l).Pairwise (fun a b => decide (a.1 ≤ b.1) = true) := by
    refine List.pairwise_mergeSort ?_ ?_ l
    · intro a b c h1 h2
      simp only [decide_eq_true_eq] at *
      exact String.le_trans h1 h2
    · intro a b
      simp only [Bool.or_eq_true, decide_eq_true_eq]
      exact String.le_total _ _
  have hn : ((orderFiles l).map (·.1)).Nodup := ((List.mergeSort_perm l _).map _).nodup_iff.2 h.1
  have hn' : (orderFiles l).Pairwise (fun a b => a.1 ≠ b.1) := by
    rw [List.nodup_iff_pairwise_ne, List.pairwise_map] at hn
    exact hn
  refine (hs.and hn').imp fun {a b} hab => ?_
  obtain ⟨h1, h2⟩ := hab
  simp only [decide_eq_true_eq] at h1
  exact Classical.byContradiction fun h => h2 (String.le_antisymm h1 (String.not_lt.1 h))

theorem tableOf_tidy {g : Grouping} {l : List RunnerSummary} {m : List (Nat × RunnerSummary)} (i : GInv g l m)
    (files : RunnerSummary → List (String × Nat)) (hk : ∀ x ∈ m, Keys (files x.2)) : (tableOf files m).Tidy := by
  refine ⟨?_, ?_⟩
  · unfold tableOf
    rw [List.pairwise_map]
    exact i.ordered.sublist List.filter_sublist
  · intro row hrow
    obtain ⟨x, hx, rfl⟩ := List.mem_map.1 hrow
    have hne := (List.mem_filter.1 hx).2
    refine ⟨?_, orderFiles_sorted _ (hk x ((List.mem_filter.1 hx).1))⟩
    show orderFiles (files x.2) ≠ []
    intro he
    have hp := (List.mergeSort_perm (files x.2) fun a b => decide (a.1 ≤ b.1))
    unfold orderFiles at he
    rw [he] at hp
    rw [← hp.nil_eq] at hne
    simp at hne

theorem tableOf_has {g : Grouping} {l : List RunnerSummary} {m : List (Nat × RunnerSummary)} (i : GInv g l m)
    (files : RunnerSummary → List (String × Nat)) (hk : ∀ x ∈ m, Keys (files x.2))
    (hs : ∀ x ∈ m, ∀ f, numberOf f (files x.2) = sumOf g x.1 (fun s => numberOf f (files s)) l)
    (k : Nat) (f : String) (n : Nat) :
    (tableOf files m).Has k f n ↔ n = sumOf g k (fun s => numberOf f (files s)) l ∧ 0 < n := by
  constructor
  · rintro ⟨fs, hfs, hn⟩
    obtain ⟨x, hx, e⟩ := List.mem_map.1 hfs
    cases e
    have hx' := (List.mem_filter.1 hx).1
    rw [orderFiles_mem, mem_iff_numberOf (hk x hx')] at hn
    exact ⟨by rw [← hs x hx', hn.1], hn.2⟩
  · rintro ⟨rfl, hn⟩
    have hex : ∃ s ∈ l, g.key s.runner = k := by
      refine Classical.byContradiction fun h => ?_
      rw [sumOf_none g k _ l h] at hn
      simp at hn
    obtain ⟨x, hx, rfl⟩ := List.mem_map.1 ((i.keys k).2 hex)
    have hmem : (f, sumOf g x.1 (fun s => numberOf f (files s)) l) ∈ files x.2 :=
      (mem_iff_numberOf (hk x hx) _ _).2 ⟨hs x hx f, hn⟩
    refine ⟨orderFiles (files x.2), List.mem_map.2 ⟨x, List.mem_filter.2 ⟨hx, ?_⟩, rfl⟩, ?_⟩
    · cases hf : files x.2 with
      | nil => rw [hf] at hmem; simp at hmem
      | cons _ _ => rfl
    · rw [orderFiles_mem]; exact hmem

/-! ## Totals -/

def totalOf (l : List (String × Nat)) : Nat := (l.map (·.2)).sum

theorem totalOf_addTo (l : List (String × Nat)) (x : String × Nat) : totalOf (addTo l x) = totalOf l + x.2 := by
  induction l with
  | nil => simp [addTo, totalOf]
  | cons y l ih =>
    obtain ⟨k, n⟩ := y
    unfold addTo
    split
    · simp [totalOf]; omega
    · simp only [totalOf, List.map_cons, List.sum_cons] at ih ⊢; omega

theorem totalOf_foldl (m l : List (String × Nat)) : totalOf (m.foldl addTo l) = totalOf l + totalOf m := by
  induction m generalizing l with
  | nil => simp [totalOf]
  | cons x m ih => rw [List.foldl_cons, ih, totalOf_addTo]; simp [totalOf]; omega

theorem totalOf_bump (f : String) (l : List (String × Nat)) : totalOf (bump f l) = totalOf l + 1 := by
  induction l with
  | nil => simp [bump, totalOf]
  | cons y l ih =>
    obtain ⟨k, n⟩ := y
    unfold bump
    split
    · simp [totalOf]; omega
    · simp only [totalOf, List.map_cons, List.sum_cons] at ih ⊢; omega

def failsSomewhere (t : TestStatus) : Bool := t.tag == .alwaysFailed false && t.file.isSome

theorem total_count (s : RunnerSummary) (t : TestStatus) :
    totalOf (s.count t).failuresPerFile = totalOf s.failuresPerFile + if failsSomewhere t then 1 else 0 := by
  obtain ⟨tag, retried, file, runner⟩ := t
  cases file with
  | none =>
    cases retried <;> rcases tag with _ | (_ | _) | _ | _ <;> rfl
  | some f =>
    cases retried <;> rcases tag with _ | (_ | _) | _ | _ <;> first | rfl | exact totalOf_bump f s.failuresPerFile

/-- Over all runners. -/
def grand (l : List RunnerSummary) : Nat := (l.map fun s => totalOf s.failuresPerFile).sum

theorem grand_countRunner (t : TestStatus) (l : List RunnerSummary) :
    grand (countRunner t l) = grand l + if failsSomewhere t then 1 else 0 := by
  induction l with
  | nil => simp only [countRunner, grand, List.map_cons, List.map_nil, List.sum_cons, List.sum_nil, total_count]; simp [totalOf]
  | cons a l ih =>
    unfold countRunner
    split
    · simp only [grand, List.map_cons, List.sum_cons, total_count]; omega
    · split
      · simp only [grand, List.map_cons, List.sum_cons, total_count]; simp [totalOf]; omega
      · simp only [grand, List.map_cons, List.sum_cons] at ih ⊢; omega

theorem grand_foldl (ts : List TestStatus) (l : List RunnerSummary) :
    grand (ts.foldl (fun ss s => countRunner s ss) l) = grand l + ts.countP failsSomewhere := by
  induction ts generalizing l with
  | nil => simp
  | cons t ts ih => rw [List.foldl_cons, ih, grand_countRunner, List.countP_cons]; split <;> omega

theorem grand_groupOne (g : Grouping) (s : RunnerSummary) (m : List (Nat × RunnerSummary)) :
    grand ((groupOne g s m).map (·.2)) = grand (m.map (·.2)) + totalOf s.failuresPerFile := by
  induction m with
  | nil => simp [groupOne, grand]
  | cons a m ih =>
    obtain ⟨k, e⟩ := a
    have hu : totalOf (union e s).failuresPerFile = totalOf e.failuresPerFile + totalOf s.failuresPerFile := totalOf_foldl _ _
    unfold groupOne
    split
    · simp only [grand, List.map_cons, List.sum_cons, hu]; omega
    · split
      · simp only [grand, List.map_cons, List.sum_cons]; omega
      · simp only [grand, List.map_cons, List.sum_cons] at ih ⊢; omega

theorem grand_grouped (g : Grouping) (l : List RunnerSummary) (m : List (Nat × RunnerSummary)) :
    grand ((l.foldl (fun m s => groupOne g s m) m).map (·.2)) = grand (m.map (·.2)) + grand l := by
  induction l generalizing m with
  | nil => simp [grand]
  | cons s l ih => rw [List.foldl_cons, ih, grand_groupOne]; simp [grand]; omega

/-- The sum of all numbers of a table. -/
theorem table_total (m : List (Nat × RunnerSummary)) :
    (((tableOf (·.failuresPerFile) m).flatMap (·.2)).map (·.2)).sum = grand (m.map (·.2)) := by
  induction m with
  | nil => rfl
  | cons x m ih =>
    unfold tableOf at ih ⊢
    rw [List.filter_cons]
    have hp : ((orderFiles x.2.failuresPerFile).map (·.2)).sum = totalOf x.2.failuresPerFile :=
      ((List.mergeSort_perm x.2.failuresPerFile _).map _).sum_nat
    split
    · simp only [List.map_cons, List.flatMap_cons, List.map_append, List.sum_append]
      rw [ih, hp]; rfl
    · rename_i h
      have h0 : x.2.failuresPerFile = [] := by simpa using h
      rw [ih]
      simp [grand, h0, totalOf]

/-! ## Captured output -/

theorem ws_iff (c : Char) : ws c = true ↔ White c := by
  unfold ws White
  simp only [Bool.or_eq_true, decide_eq_true_eq]
  grind

theorem isBlank_iff (t : Text) : isBlank t = true ↔ ¬ Visible t := by
  unfold isBlank Visible
  rw [List.all_eq_true]
  constructor
  · rintro h ⟨c, hc, hw⟩; exact hw ((ws_iff c).1 (h c hc))
  · intro h c hc
    exact Classical.byContradiction fun hw => h ⟨c, hc, fun e => hw ((ws_iff c).2 e)⟩

/-- Where the trailing white space is as usual, a line break is added unless there is one. -/
theorem newline_neat (t : Text) (hn : EndsNeatly t) : t ++ newlineIfNeeded t = ownLines t := by
  unfold newlineIfNeeded ownLines
  by_cases h : trailingNewlines t.reverse = 0
  · rw [if_pos h]
    have : t.getLast? ≠ some '\n' := by
      intro hl
      obtain ⟨a, rfl⟩ := List.getLast?_eq_some_iff.1 hl
      rw [List.reverse_append] at h
      simp [trailingNewlines, ws] at h
    rw [if_neg this]
  · rw [if_neg h, List.append_nil]
    have : t.getLast? = some '\n' := by
      -- the reversed text starts with white space in which there is a line break
      have key : ∀ u : Text, trailingNewlines u ≠ 0 → ∃ a b, u = a ++ '\n' :: b ∧ (∀ c ∈ a, ws c = true) := by
        intro u
        induction u with
        | nil => intro h; simp [trailingNewlines] at h
        | cons c u ih =>
          intro h
          unfold trailingNewlines at h
          by_cases hw : ws c = true
          · by_cases hc : c = '\n'
            · subst hc; exact ⟨[], u, rfl, by simp⟩
            · rw [if_pos hw, if_neg hc, Nat.zero_add] at h
              obtain ⟨a, b, rfl, ha⟩ := ih h
              exact ⟨c :: a, b, rfl, by simpa [hw] using ha⟩
          · rw [if_neg hw] at h; exact absurd rfl h
      obtain ⟨a, b, e, ha⟩ := key _ h
      have ht : t = b.reverse ++ '\n' :: a.reverse := by
        have := congrArg List.reverse e
        rw [List.reverse_reverse] at this
        rw [this]; simp
      rcases hn b.reverse a.reverse ht (fun c hc => (ws_iff c).1 (ha c (by simpa using hc))) with h0 | ⟨x, hx⟩
      · rw [ht, h0]; simp
      · rw [ht, hx]
        have : b.reverse ++ '\n' :: (x ++ ['\n']) = (b.reverse ++ '\n' :: x) ++ ['\n'] := by simp
        rw [this, List.getLast?_concat]
    rw [if_pos this]

theorem trailing_pos (a b : Text) (hb : ∀ c ∈ b, ws c = true) : trailingNewlines (b ++ '\n' :: a) ≠ 0 := by
  induction b with
  | nil => simp [trailingNewlines, ws]
  | cons c b ih =>
    rw [List.cons_append, trailingNewlines, if_pos (hb c (by simp))]
    have := ih (fun x hx => hb x (by simp [hx]))
    omega

/-- A line break is added where one is needed exactly if the trailing white space is as usual. -/
theorem newline_neat_iff (t : Text) : t ++ newlineIfNeeded t = ownLines t ↔ EndsNeatly t := by
  refine ⟨fun h a b e hb => ?_, newline_neat t⟩
  by_cases hl : t.getLast? = some '\n'
  · obtain ⟨x, hx⟩ := List.getLast?_eq_some_iff.1 hl
    rcases List.eq_nil_or_concat b with rfl | ⟨y, z, rfl⟩
    · exact .inl rfl
    · right
      have : (a ++ '\n' :: y) ++ [z] = x ++ ['\n'] := by rw [← hx, e]; simp
      have := List.append_inj' this rfl
      exact ⟨y, by simpa using this.2⟩
  · exfalso
    have h0 : newlineIfNeeded t = [] := by
      unfold newlineIfNeeded
      rw [if_neg]
      rw [e, List.reverse_append, List.reverse_cons, List.append_assoc]
      exact trailing_pos _ _ (fun c hc => (ws_iff c).2 (hb c (by simpa using hc)))
    rw [h0, ownLines, if_neg hl, List.append_nil] at h
    have := congrArg List.length h
    simp at this

theorem newline_le (t : Text) : (t ++ newlineIfNeeded t).length ≤ (ownLines t).length := by
  by_cases hl : t.getLast? = some '\n'
  · have : EndsNeatly t := by
      intro a b e _
      obtain ⟨x, hx⟩ := List.getLast?_eq_some_iff.1 hl
      rcases List.eq_nil_or_concat b with rfl | ⟨y, z, rfl⟩
      · exact .inl rfl
      · right
        have : (a ++ '\n' :: y) ++ [z] = x ++ ['\n'] := by rw [← hx, e]; simp
        have := List.append_inj' this rfl
        exact ⟨y, by simpa using this.2⟩
    rw [newline_neat t this]
    exact Nat.le_refl _
  · rw [ownLines, if_neg hl]
    unfold newlineIfNeeded
    split <;> simp

theorem captured_exact (kind : String) (o : Option Text) :
    (captured kind.toList o).length ≤ (captureOf kind o).length ∧
    (captured kind.toList o = captureOf kind o ↔ ∀ t, o = some t → Visible t → EndsNeatly t) := by
  cases o with
  | none => exact ⟨Nat.le_refl _, (fun _ t h => nomatch h), fun _ => rfl⟩
  | some t =>
    unfold captured captureOf
    dsimp only
    by_cases hv : Visible t
    · have hb : ¬ isBlank t = true := fun e => (isBlank_iff t).1 e hv
      have hf : (some t).filter (fun t => decide (Visible t)) = some t := by simp [hv]
      rw [if_neg hb, hf]
      dsimp only
      have hk : ("------ " ++ kind ++ "\n").toList = "------ ".toList ++ kind.toList ++ ['\n'] := by
        simp only [String.toList_append, List.append_assoc]; rfl
      rw [List.append_assoc, hk]
      generalize ("------ ".toList ++ kind.toList ++ ['\n'] : Text) = x
      refine ⟨?_, ?_⟩
      · rw [List.length_append, List.length_append (as := x)]
        have := newline_le t
        omega
      · rw [List.append_right_inj, newline_neat_iff]
        exact ⟨(fun h t' e _ => Option.some.inj e ▸ h), fun h => h t rfl hv⟩
    · have hb : isBlank t = true := (isBlank_iff t).2 hv
      have hf : (some t).filter (fun t => decide (Visible t)) = none := by simp [hv]
      rw [if_pos hb, hf]
      exact ⟨Nat.le_refl _, (fun _ t' e hv' => (hv (Option.some.inj e ▸ hv')).elim), fun _ => rfl⟩

theorem reported_eq (o : Option Text) : reported o = reportOf o := by
  cases o with
  | none => rfl
  | some t =>
    unfold reported reportOf
    by_cases hv : Visible t
    · have hb : ¬ isBlank t = true := fun e => (isBlank_iff t).1 e hv
      have hf : (some t).filter (fun t => decide (Visible t)) = some t := by simp [hv]
      rw [hf]
      dsimp only
      rw [if_neg hb]
    · have hb : isBlank t = true := (isBlank_iff t).2 hv
      have hf : (some t).filter (fun t => decide (Visible t)) = none := by simp [hv]
      rw [hf]
      dsimp only
      rw [if_pos hb]

theorem numbers_eq (wall time : Text) (n f r : Nat) :
    header ++ ['\n'] ++ "Finished in ".toList ++ wall ++ " (".toList ++ time ++ " spent in test code)\n".toList
      ++ (toString n).toList ++ " tests".toList ++ ", ".toList ++ (toString f).toList ++ " failures".toList
      ++ (if r > 0 then ", ".toList ++ (toString r).toList ++ " retried".toList else []) ++ ['\n']
      = numbers wall time n f r := by
  have hr : (if r > 0 then ", ".toList ++ (toString r).toList ++ " retried".toList else [])
      = (if r = 0 then [] else (", " ++ toString r ++ " retried").toList) := by
    by_cases h0 : r = 0
    · subst h0; rfl
    · rw [if_pos (by omega), if_neg h0]
      simp only [String.toList_append]
  rw [hr]
  have h1 : ['\n'] = "\n".toList := rfl
  have h2 : " tests, ".toList = " tests".toList ++ ", ".toList := rfl
  unfold numbers header
  rw [h1]
  simp only [String.toList_append, List.append_assoc, h2]

/-- Lines above an output. -/
theorem captured_shows (kind : Text) (t : Text) (hv : Visible t) : ∃ a b, captured kind (some t) = a ++ t ++ b := by
  have hb : ¬ isBlank t = true := fun e => (isBlank_iff t).1 e hv
  refine ⟨"------ ".toList ++ kind ++ ['\n'], newlineIfNeeded t, ?_⟩
  unfold captured
  dsimp only
  rw [if_neg hb]

theorem failures_eq (rs : List Shown) : ∀ b, failures b rs
    = if b then (rs.filter fun r => Terminal.Failing r.status).flatMap fun r => ['\n'] ++ resultSummary r
      else (((rs.filter fun r => Terminal.Failing r.status).map resultSummary).intersperse ['\n']).flatten := by
  induction rs with
  | nil => intro b; cases b <;> rfl
  | cons r rs ih =>
    intro b
    have ht := ih true
    have hf := ih false
    rw [if_pos rfl] at ht
    by_cases hs : Terminal.Failing r.status
    · have he : failures b (r :: rs) = (if b then ['\n'] else []) ++ resultSummary r ++ failures true rs := by
        conv => lhs; unfold failures
        rcases hs with h | h | h | h <;> rw [h]
      rw [he, ht, List.filter_cons_of_pos (by simpa using hs)]
      cases b with
      | true => simp
      | false =>
        rw [List.map_cons, flatten_intersperse, List.flatMap_map]
        simp
    · have he : failures b (r :: rs) = failures b rs := by
        conv => lhs; unfold failures
        revert hs
        cases r.status <;> simp [Terminal.Failing]
      rw [he, ih, List.filter_cons_of_neg (by simpa using hs)]

end Abq.Output
