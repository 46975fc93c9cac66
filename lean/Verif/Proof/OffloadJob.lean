import Verif.Spec.OffloadJob
import Verif.Props.Names

/-! # Lemmas about the offload jobs -/

namespace Abq.OffloadJob
open Abq.Names Abq.OffloadJob.Spec
open Abq.Results (OffloadConfig OffloadOut fileEligible shouldOffload)

variable {S A : Type}

theorem eligible_iff (c : OffloadConfig) (now acc size : Nat) :
    fileEligible c now acc size = true ↔ Stale c now acc size := by
  unfold fileEligible shouldOffload Stale
  cases c with
  | none => simp
  | some t =>
    simp only [Bool.and_eq_true, decide_eq_true_eq, Option.some.injEq, exists_eq_left', gt_iff_lt]
    constructor
    · rintro ⟨h1, h2⟩
      split at h2
      · simp at h2
      · simp only [decide_eq_true_eq] at h2; refine ⟨h1, ?_, ?_⟩ <;> omega
    · rintro ⟨h1, h2, h3⟩
      refine ⟨h1, ?_⟩
      rw [if_neg (by omega)]
      simp only [decide_eq_true_eq]; omega

theorem stripSuffix_iff (s suf r : Str) : stripSuffix s suf = some r ↔ s = r ++ suf := by
  unfold stripSuffix
  split
  · rename_i h
    rw [List.isSuffixOf_iff_suffix] at h
    obtain ⟨p, rfl⟩ := h
    simp
  · rename_i h
    simp only [reduceCtorEq, false_iff]
    rintro rfl
    apply h
    rw [List.isSuffixOf_iff_suffix]
    exact ⟨r, rfl⟩

theorem runIdOf_iff (root : Str) (k : Local) (e : Entry) (r : Str)
    (h : ∀ n, e.name = some n → FileName n) :
    runIdOf root k e = some r ↔ e.name = some (r ++ k.suffix) := by
  unfold runIdOf
  cases hn : e.name with
  | none => simp
  | some n =>
    obtain ⟨h1, h2, h3, h4⟩ := h n hn
    have hc : components n = [n] := by
      rw [components, Props.pieces_noslash _ h1]; simp [h2, h3]
    have hf : fileName (join root n) = some n := by
      unfold fileName
      rw [Props.components_join _ _ h1 h2, hc]
      simp only [List.getLast?_append, List.getLast?_singleton, Option.some_or]
      split
      · rename_i heq
        exact absurd (Option.some.inj heq) h4
      · rfl
    rw [Option.bind_some, runIdOfPath, hf]
    simp only [stripSuffix_iff, Option.some.injEq]

theorem choose_iff (root : Str) (k : Local) (c : OffloadConfig) (now : Nat) (e : Entry) (r : Str)
    (h : ∀ n, e.name = some n → FileName n) :
    choose root k c now e = .run r ↔
      e.name = some (r ++ k.suffix) ∧ ∃ acc size, e.seen = some (acc, size) ∧ Stale c now acc size := by
  unfold choose
  cases hs : e.seen with
  | none => simp
  | some p =>
    obtain ⟨acc, size⟩ := p
    simp only [Option.some.injEq, Prod.mk.injEq]
    by_cases hel : fileEligible c now acc size = true
    · rw [if_pos hel]
      have := (eligible_iff c now acc size).mp hel
      rw [← runIdOf_iff root k e r h]
      cases runIdOf root k e with
      | none => simp
      | some r' =>
        simp only [Chosen.run.injEq, Option.some.injEq]
        constructor
        · rintro rfl; exact ⟨rfl, acc, size, ⟨rfl, rfl⟩, this⟩
        · rintro ⟨rfl, -⟩; rfl
    · rw [if_neg hel]
      simp only [reduceCtorEq, false_iff, not_and]
      rintro - ⟨a', s', ⟨rfl, rfl⟩, hst⟩
      exact hel ((eligible_iff c now _ _).mpr hst)

theorem set_same (w : Str → S) (r : Str) (s : S) : set w r s r = s := by simp [set]

theorem set_other (w : Str → S) {r r' : Str} (s : S) (h : r' ≠ r) : set w r s r' = w r' := by
  simp [set, h]

/-- A visit changes no other file. -/
theorem visit_other (j : Job S A) (w : Str → S) (e : Entry) (acc : Nat) (o : OffloadOut) (r : Str)
    (h : choose j.root j.kind j.config j.now e ≠ .run r) : (visit j w e acc o).1 r = w r := by
  unfold visit
  split
  · rfl
  · rfl
  · rename_i r' hr
    exact set_other w _ (by rintro rfl; exact h hr)

/-- A visit of the file of a run. -/
theorem visit_run (j : Job S A) (w : Str → S) (e : Entry) (acc : Nat) (o : OffloadOut) (r : Str)
    (h : choose j.root j.kind j.config j.now e = .run r) :
    (visit j w e acc o).1 r = (j.perform (w r) j.config j.now acc o).1 ∧
      ((visit j w e acc o).2 = .offloaded r ↔ (j.perform (w r) j.config j.now acc o).2 = some true) := by
  unfold visit
  rw [h]
  refine ⟨set_same w r _, ?_⟩
  dsimp only
  split <;> simp [*]

/-- Only for the run chosen can a visit come to an offload. -/
theorem visit_offloaded (j : Job S A) (w : Str → S) (e : Entry) (acc : Nat) (o : OffloadOut) (r : Str)
    (h : (visit j w e acc o).2 = .offloaded r) : choose j.root j.kind j.config j.now e = .run r := by
  unfold visit at h
  split at h
  · simp at h
  · simp at h
  · rename_i r' hr
    dsimp only at h
    split at h
    · simp at h
    · simp at h
    · simp only [Outcome.offloaded.injEq] at h
      rw [hr, h]

theorem runMoves_append (j : Job S A) (w : Str → S) (a b : List (Move A)) :
    runMoves j w (a ++ b) =
      ((runMoves j (runMoves j w a).1 b).1, (runMoves j w a).2 ++ (runMoves j (runMoves j w a).1 b).2) := by
  induction a generalizing w with
  | nil => rfl
  | cons m a ih =>
    cases m with
    | other r x => simp only [List.cons_append, runMoves, ih]
    | visit e acc o =>
      simp only [List.cons_append, runMoves, ih]
      split <;> simp

end Abq.OffloadJob
