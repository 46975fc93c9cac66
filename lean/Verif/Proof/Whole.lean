import Verif.Proof.Attempts
import Verif.Proof.Report

/-! # The exit code of the report of a run (C115) -/

namespace Abq.Whole
open Abq.Summary

theorem unresolved_nil (h : List Result) : unresolved h = [] ↔
    ∀ pre r post, h = pre ++ r :: post → r.material = false → ∃ r' ∈ post, r'.material = true ∧ r'.workId = r.workId := by
  induction h with
  | nil => simp [unresolved]
  | cons x xs ih =>
    have hx : unresolved (x :: xs) = [] ↔
        (x.material = false → ∃ r' ∈ xs, r'.material = true ∧ r'.workId = x.workId) ∧ unresolved xs = [] := by
      rw [unresolved]
      split
      · rename_i hc
        simp only [Bool.and_eq_true, Bool.not_eq_true', List.any_eq_false, not_and, beq_iff_eq] at hc
        constructor
        · intro e; cases e
        · rintro ⟨h1, -⟩
          obtain ⟨r', hr', h2, h3⟩ := h1 hc.1
          exact absurd h3 (hc.2 r' hr' h2)
      · rename_i hc
        constructor
        · intro e
          refine ⟨?_, e⟩
          intro hm
          simp only [hm, Bool.not_false, Bool.true_and, Bool.not_eq_true', Bool.not_eq_false, List.any_eq_true,
            Bool.and_eq_true, beq_iff_eq] at hc
          obtain ⟨r', h1, h2, h3⟩ := hc
          exact ⟨r', h1, h2, h3⟩
        · exact fun h => h.2
    rw [hx, ih]
    constructor
    · rintro ⟨h1, h2⟩ pre r post e hm
      cases pre with
      | nil =>
        simp only [List.nil_append, List.cons.injEq] at e
        obtain ⟨rfl, rfl⟩ := e
        exact h1 hm
      | cons p pre =>
        simp only [List.cons_append, List.cons.injEq] at e
        exact h2 pre r post e.2 hm
    · intro h
      exact ⟨fun hm => h [] x xs rfl hm, fun pre r post e hm => h (x :: pre) r post (by rw [e]; rfl) hm⟩

/-- What is known of the results of a run, in the order of the report. -/
structure Attempted (works : List Nat) (name : Nat → String) (h : List Result) : Prop where
  inj : ∀ w ∈ works, ∀ w' ∈ works, name w = name w' → w = w'
  order : h.Pairwise fun r r' => r.material = true → r'.material = true → r.workId = r'.workId → r.runNumber < r'.runNumber
  crashFirst : h.Pairwise fun r r' => r.workId = r'.workId → r.material = true → r'.material = true
  same : ∀ r ∈ h, ∀ r' ∈ h, r.workId = r'.workId → r.runNumber = r'.runNumber → r.material = r'.material
  work : ∀ r ∈ h, r.workId ∈ works
  attempt : ∀ r ∈ h, 1 ≤ r.runNumber
  named : ∀ r ∈ h, r.material = true → r.id = name r.workId
  first : ∀ w ∈ works, ∃ r ∈ h, r.workId = w ∧ r.runNumber = 1
  last : ∀ r ∈ h, r.status.isFailLike = false ∨ r.material = false → ∀ r' ∈ h, r'.workId = r.workId → r'.runNumber ≤ r.runNumber

theorem passed_material {r : Result} (h : r.status.isFailLike = false) : r.material = true := by
  unfold Result.material
  cases hs : r.status <;> simp_all [Status.isFailLike]

/-- A crash is left without results iff it was on the first attempt at its test. -/
theorem unresolved_iff {works : List Nat} {name : Nat → String} {h : List Result} (a : Attempted works name h) :
    unresolved h = [] ↔ ∀ r ∈ h, r.runNumber = 1 → r.material = true := by
  rw [unresolved_nil]
  constructor
  · intro hu r hr h1
    cases hm : r.material with
    | true => rfl
    | false =>
      obtain ⟨pre, post, e⟩ := List.append_of_mem hr
      obtain ⟨r', hr', hm', hw'⟩ := hu pre r post e hm
      have hin : r' ∈ h := by rw [e]; simp [hr']
      have := a.last r hr (.inr hm) r' hin hw'
      have := a.attempt r' hin
      rw [a.same r' hin r hr hw' (by omega)] at hm'
      rw [hm] at hm'
      cases hm'
  · intro hl pre r post e hm
    have hr : r ∈ h := by rw [e]; simp
    obtain ⟨r', hr', hw, h1⟩ := a.first r.workId (a.work r hr)
    have hm' := hl r' hr' h1
    refine ⟨r', ?_, hm', hw⟩
    have ho := a.crashFirst
    subst e
    rw [List.pairwise_append] at ho
    rcases List.mem_append.mp hr' with hp | hp
    · have := ho.2.2 r' hp r (by simp) hw hm'
      rw [hm] at this
      cases this
    · rcases List.mem_cons.mp hp with rfl | hp
      · rw [hm] at hm'; cases hm'
      · exact hp

theorem mem_resultsOf {h : List Result} {id : String} {r : Result} :
    r ∈ resultsOf h id ↔ r ∈ h ∧ r.material = true ∧ r.id = id := by
  simp [resultsOf, List.mem_filter, and_assoc]

/-- A test counts as failed iff its first attempt has a result and no attempt passed. -/
theorem failedTest_iff {works : List Nat} {name : Nat → String} {h : List Result} (a : Attempted works name h) (w : Nat)
    (hw : w ∈ works) : failedTest (resultsOf h (name w)) = true ↔
      (∃ r ∈ h, r.workId = w ∧ r.runNumber = 1 ∧ r.material = true) ∧
      ∀ r ∈ h, r.workId = w → r.status.isFailLike = true := by
  have hsame : ∀ r ∈ resultsOf h (name w), r ∈ h ∧ r.material = true ∧ r.workId = w := by
    intro r hr
    obtain ⟨h1, h2, h3⟩ := mem_resultsOf.mp hr
    exact ⟨h1, h2, a.inj _ (a.work r h1) _ hw ((a.named r h1 h2).symm.trans h3)⟩
  have hin : ∀ r ∈ h, r.workId = w → r.material = true → r ∈ resultsOf h (name w) := by
    intro r hr h1 h2
    exact mem_resultsOf.mpr ⟨hr, h2, by rw [a.named r hr h2, h1]⟩
  have hord : (resultsOf h (name w)).Pairwise fun r r' => r.runNumber < r'.runNumber := by
    have h1 : (resultsOf h (name w)).Pairwise fun r r' => r.material = true → r'.material = true → r.workId = r'.workId →
        r.runNumber < r'.runNumber := a.order.sublist List.filter_sublist
    refine h1.imp_of_mem ?_
    intro r r' hr hr' hlt
    exact hlt (hsame r hr).2.1 (hsame r' hr').2.1 ((hsame r hr).2.2.trans (hsame r' hr').2.2.symm)
  unfold failedTest
  constructor
  · intro hft
    cases hd : (resultsOf h (name w)).dropWhile (fun r => !r.status.isFailLike) with
    | nil => rw [hd] at hft; cases hft
    | cons r later =>
      rw [hd] at hft
      simp only [Bool.and_eq_true, beq_iff_eq, List.all_eq_true] at hft
      obtain ⟨hr1, hall⟩ := hft
      have hsplit := (List.takeWhile_append_dropWhile (p := fun r : Result => !r.status.isFailLike)
        (l := resultsOf h (name w))).symm
      rw [hd] at hsplit
      have hrf : r.status.isFailLike = true := by
        have := List.head?_dropWhile_not (fun r : Result => !r.status.isFailLike) (resultsOf h (name w))
        rw [hd] at this
        simpa using this
      have hrm : r ∈ resultsOf h (name w) := by rw [hsplit]; simp
      obtain ⟨k1, k2, k3⟩ := hsame r hrm
      refine ⟨⟨r, k1, k3, hr1, k2⟩, ?_⟩
      intro r' hr' hw'
      cases hf' : r'.status.isFailLike with
      | true => rfl
      | false =>
        have hm' := hin r' hr' hw' (passed_material hf')
        rw [hsplit] at hm' hord
        rcases List.mem_append.mp hm' with hm' | hm'
        · have := (List.pairwise_append.mp hord).2.2 r' hm' r (by simp)
          have := a.attempt r' hr'
          omega
        · rcases List.mem_cons.mp hm' with rfl | hm'
          · rw [hrf] at hf'; cases hf'
          · rw [hall r' hm'] at hf'; cases hf'
  · rintro ⟨⟨r, hr, h1, h2, h3⟩, hall⟩
    have hrm := hin r hr h1 h3
    cases hl : resultsOf h (name w) with
    | nil => rw [hl] at hrm; cases hrm
    | cons x xs =>
      have hxm : x ∈ resultsOf h (name w) := by rw [hl]; simp
      obtain ⟨k1, k2, k3⟩ := hsame x hxm
      have hxf := hall x k1 k3
      have hx1 : x.runNumber = 1 := by
        rw [hl] at hrm hord
        rcases List.mem_cons.mp hrm with rfl | hrm
        · exact h2
        · have := (List.pairwise_cons.mp hord).1 r hrm
          have := a.attempt x k1
          omega
      rw [List.dropWhile_cons_of_neg (by simp [hxf])]
      simp only [Bool.and_eq_true, beq_iff_eq, List.all_eq_true]
      refine ⟨hx1, ?_⟩
      intro y hy
      obtain ⟨j1, -, j3⟩ := hsame y (by rw [hl]; simp [hy])
      exact hall y j1 j3

theorem exit_zero {works : List Nat} {name : Nat → String} {h : List Result} (a : Attempted works name h) :
    (summarise h).exitCode = 0 ↔ ∀ w ∈ works, ∃ r ∈ h, r.workId = w ∧ r.status.isFailLike = false := by
  rw [exit_zero_iff, unresolved_iff a]
  constructor
  · rintro ⟨hu, hft⟩ w hw
    by_cases hp : ∃ r ∈ h, r.workId = w ∧ r.status.isFailLike = false
    · exact hp
    · have := hft (name w)
      obtain ⟨r, hr, h1, h2⟩ := a.first w hw
      rw [(failedTest_iff a w hw).mpr ⟨⟨r, hr, h1, h2, hu r hr h2⟩, ?_⟩] at this
      · cases this
      · intro r' hr' hw'
        cases hf : r'.status.isFailLike with
        | true => rfl
        | false => exact absurd ⟨r', hr', hw', hf⟩ hp
  · intro hall
    refine ⟨?_, ?_⟩
    · intro r hr h1
      obtain ⟨r', hr', h2, h3⟩ := hall _ (a.work r hr)
      cases hm : r.material with
      | true => rfl
      | false =>
        have := a.last r hr (.inr hm) r' hr' h2
        have := a.attempt r' hr'
        rw [← passed_material h3, ← hm]
        exact a.same r hr r' hr' h2.symm (by omega)
    · intro id
      cases hf : failedTest (resultsOf h id) with
      | false => rfl
      | true =>
        have hne : resultsOf h id ≠ [] := by
          intro e; rw [e] at hf; cases hf
        obtain ⟨x, xs, hx⟩ := List.exists_cons_of_ne_nil hne
        obtain ⟨k1, k2, k3⟩ := mem_resultsOf.mp (show x ∈ resultsOf h id by rw [hx]; simp)
        have hw := a.work x k1
        rw [← k3, a.named x k1 k2] at hf
        obtain ⟨-, hfail⟩ := (failedTest_iff a _ hw).mp hf
        obtain ⟨r', hr', h1', h2'⟩ := hall _ hw
        rw [hfail r' hr' h1'] at h2'
        cases h2'

theorem exit_crash {works : List Nat} {name : Nat → String} {h : List Result} (a : Attempted works name h) :
    (summarise h).exitCode = 101 ↔ ∃ r ∈ h, r.runNumber = 1 ∧ r.material = false := by
  rw [(exit_codes h).1, Ne, unresolved_iff a]
  constructor
  · intro hn
    apply Classical.byContradiction
    intro hno
    refine hn fun r hr h1 => ?_
    cases hm : r.material with
    | true => rfl
    | false => exact absurd ⟨r, hr, h1, hm⟩ hno
  · rintro ⟨r, hr, h1, hm⟩ hall
    rw [hall r hr h1] at hm
    cases hm

theorem exit_cases (h : List Result) :
    (summarise h).exitCode = 0 ∨ (summarise h).exitCode = 1 ∨ (summarise h).exitCode = 101 := by
  obtain ⟨h1, h2, h3⟩ := exit_codes h
  by_cases hu : unresolved h = []
  · by_cases hf : ∃ id, failedTest (resultsOf h id) = true
    · exact .inr (.inl (h2.mpr ⟨hu, hf⟩))
    · refine .inl (h3.mpr ⟨hu, fun id => ?_⟩)
      cases hft : failedTest (resultsOf h id) with
      | false => rfl
      | true => exact absurd ⟨id, hft⟩ hf
  · exact .inr (.inr (h1.mpr hu))

end Abq.Whole
