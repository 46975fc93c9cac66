import Verif.Spec.Green
import Verif.Proof.Report

/-! # Proofs about the report of a whole run -/

namespace Abq.Green
open Abq.Report

theorem mem_history {gs : List Group} {r : Summary.Result} :
    r ∈ history gs ↔ ∃ g ∈ gs, ∃ t ∈ g.results, toResult g t = r := by
  simp [history]

theorem material_iff (g : Group) (t : TestResult) : (toResult g t).material = true ↔ t.status ≠ .nativeRunnerError := by
  unfold Summary.Result.material toResult
  exact decide_eq_true_iff

/-- A placeholder comes before all results of its test in the order of the report. -/
theorem placeholder_first {gs : List Group}
    (alone : ∀ g ∈ gs, ∀ t ∈ g.results, t.status = .nativeRunnerError → g.results = [t])
    (stamped : ∀ g ∈ gs, ∀ t ∈ g.results, t.timestamp = 0 ↔ t.status = .nativeRunnerError) {g g' : Group} (hg : g ∈ gs) (hg' : g' ∈ gs) {t : TestResult}
    (ht : t ∈ g.results) (hst : t.status = .nativeRunnerError) {id : String} (hid : g'.has id) (hw : g'.workId = g.workId) :
    ¬ g'.precedes g := by
  have hgt := alone g hg t ht hst
  have h0 := (stamped g hg t ht).2 hst
  obtain ⟨u, hu, -, hne⟩ := hid
  obtain ⟨v, vs, hv⟩ := List.exists_cons_of_ne_nil (List.ne_nil_of_mem hu)
  have hvm : v ∈ g'.results := by rw [hv]; simp
  have hvne : v.status ≠ .nativeRunnerError := by
    intro e
    have := alone g' hg' v hvm e
    rw [this, List.mem_singleton] at hu
    exact hne (hu ▸ e)
  have h1 : v.timestamp ≠ 0 := fun e => hvne ((stamped g' hg' v hvm).1 e)
  simp only [Group.precedes, Group.notLater, Group.sameTime, hgt, hv, List.head?_cons, Option.map_some, Option.some.injEq]
  omega

theorem unresolved_append_material (a b : List Summary.Result) (h : ∀ r ∈ a, r.material = true) :
    Summary.unresolved (a ++ b) = Summary.unresolved b := by
  induction a with
  | nil => rfl
  | cons x a ih =>
    rw [List.cons_append, Summary.unresolved, h x List.mem_cons_self]
    simpa using ih fun r hr => h r (List.mem_cons_of_mem _ hr)

theorem resolved_iff (gs : List Group)
    (alone : ∀ g ∈ gs, ∀ t ∈ g.results, t.status = .nativeRunnerError → g.results = [t]) :
    Summary.unresolved (history gs) = [] ↔ ∀ A g B, gs = A ++ g :: B → ∀ t ∈ g.results, t.status = .nativeRunnerError →
      ∃ g' ∈ B, g'.workId = g.workId ∧ ∃ id, g'.has id := by
  induction gs with
  | nil => simp [history, Summary.unresolved]
  | cons x gs ih =>
    have ih := ih fun g hg => alone g (List.mem_cons_of_mem _ hg)
    have split : (∀ A g B, x :: gs = A ++ g :: B → ∀ t ∈ g.results, t.status = .nativeRunnerError →
          ∃ g' ∈ B, g'.workId = g.workId ∧ ∃ id, g'.has id) ↔
        ((∀ t ∈ x.results, t.status = .nativeRunnerError → ∃ g' ∈ gs, g'.workId = x.workId ∧ ∃ id, g'.has id) ∧
          Summary.unresolved (history gs) = []) := by
      rw [ih]
      constructor
      · intro h
        exact ⟨fun t ht hs => h [] x gs rfl t ht hs, fun A g B e => h (x :: A) g B (by rw [e]; rfl)⟩
      · rintro ⟨h1, h2⟩ A g B e
        cases A with
        | nil => injection e with e1 e2; subst e1; subst e2; exact h1
        | cons y A => injection e with e1 e2; exact h2 A g B e2
    rw [split]
    have hh : history (x :: gs) = x.results.map (toResult x) ++ history gs := rfl
    rw [hh]
    by_cases hc : ∃ t ∈ x.results, t.status = .nativeRunnerError
    · obtain ⟨t, ht, hs⟩ := hc
      have e := alone x List.mem_cons_self t ht hs
      have hm : (toResult x t).material = false := by
        cases h : (toResult x t).material with
        | false => rfl
        | true => exact absurd hs ((material_iff x t).1 h)
      rw [e, List.map_singleton, List.singleton_append, Summary.unresolved, hm]
      have hany : (history gs).any (fun r' => r'.material && r'.workId == (toResult x t).workId) = true ↔
          ∃ g' ∈ gs, g'.workId = x.workId ∧ ∃ id, g'.has id := by
        simp only [List.any_eq_true, Bool.and_eq_true, beq_iff_eq]
        constructor
        · rintro ⟨r, hr, hmr, hwr⟩
          obtain ⟨g', hg', u, hu, rfl⟩ := mem_history.1 hr
          exact ⟨g', hg', hwr, u.id, u, hu, rfl, (material_iff g' u).1 hmr⟩
        · rintro ⟨g', hg', hw, id, u, hu, _, hst⟩
          exact ⟨toResult g' u, mem_history.2 ⟨g', hg', u, hu, rfl⟩, (material_iff g' u).2 hst, hw⟩
      simp only [List.mem_singleton, forall_eq, hs, forall_const]
      by_cases ha : (history gs).any (fun r' => r'.material && r'.workId == (toResult x t).workId) = true
      · rw [ha]
        simp only [Bool.not_false, Bool.not_true, Bool.and_false, Bool.false_eq_true, if_false]
        exact (and_iff_right (hany.1 ha)).symm
      · have hf : (history gs).any (fun r' => r'.material && r'.workId == (toResult x t).workId) = false := by simpa using ha
        rw [hf]
        simp only [Bool.not_false, Bool.and_self, if_true]
        constructor
        · intro h; cases h
        · intro h; exact absurd (hany.2 h.1) ha
    · rw [unresolved_append_material]
      · exact (and_iff_right fun t ht hs => absurd ⟨t, ht, hs⟩ hc).symm
      · intro r hr
        obtain ⟨t, ht, rfl⟩ := List.mem_map.1 hr
        exact (material_iff x t).2 fun hs => hc ⟨t, ht, hs⟩

/-- No crash is left without results in the report iff there are results of the same test. -/
theorem resolved_sorted {gs : List Group}
    (alone : ∀ g ∈ gs, ∀ t ∈ g.results, t.status = .nativeRunnerError → g.results = [t])
    (stamped : ∀ g ∈ gs, ∀ t ∈ g.results, t.timestamp = 0 ↔ t.status = .nativeRunnerError) (sort : List Group → List Group) (hsort : IsSort sort) :
    Summary.unresolved (history (sort gs)) = [] ↔ ∀ g ∈ gs, ∀ t ∈ g.results, t.status = .nativeRunnerError →
      ∃ g' ∈ gs, g'.workId = g.workId ∧ ∃ id, g'.has id := by
  have hperm := hsort.perm gs
  have hord : (sort gs).Pairwise fun a b => a.precedes b := (hsort.ascending gs).imp fun h => (cmp_ne_gt _ _).1 h
  rw [resolved_iff _ fun g hg => alone g (hperm.mem_iff.1 hg)]
  constructor
  · intro h g hg t ht hst
    obtain ⟨A, B, e⟩ := List.append_of_mem (hperm.mem_iff.2 hg)
    obtain ⟨g', hg', hw, id, hid⟩ := h A g B e t ht hst
    exact ⟨g', hperm.mem_iff.1 (by rw [e]; simp [hg']), hw, id, hid⟩
  · intro h A g B e t ht hst
    have hg : g ∈ gs := hperm.mem_iff.1 (by rw [e]; simp)
    obtain ⟨g', hg', hw, id, hid⟩ := h g hg t ht hst
    have hin : g' ∈ A ++ g :: B := e ▸ hperm.mem_iff.2 hg'
    refine ⟨g', ?_, hw, id, hid⟩
    rcases List.mem_append.1 hin with hA | hB
    · rw [e, List.pairwise_append] at hord
      exact absurd (hord.2.2 g' hA g List.mem_cons_self) (placeholder_first alone stamped hg hg' ht hst hid hw)
    · rcases List.mem_cons.1 hB with rfl | hB
      · obtain ⟨u, hu, -, hne⟩ := hid
        have := alone g' hg t ht hst
        rw [this, List.mem_singleton] at hu
        exact absurd (hu ▸ hst) hne
      · exact hB

end Abq.Green
