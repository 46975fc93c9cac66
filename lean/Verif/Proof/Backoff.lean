import Verif.Model.Backoff

/-! Lemmas about delays and retries. -/

namespace Abq.Backoff

theorem delays_eq (m cap : Nat) (hm : 1 ≤ m) (hov : cap * m ≤ maxDuration) :
    ∀ n d, d ≤ cap → (⟨d, m, cap⟩ : ExpDecay).delays n = some ((List.range n).map fun k => min (d * m ^ k) cap) := by
  intro n
  induction n with
  | zero => intro d _; rfl
  | succ n ih =>
    intro d hd
    have h1 : d * m ≤ maxDuration := Nat.le_trans (Nat.mul_le_mul_right m hd) hov
    simp only [ExpDecay.delays, ExpDecay.nextDuration, mulDuration, if_pos h1]
    rw [ih (Nat.min cap (d * m)) (Nat.min_le_left _ _)]
    simp only [List.range_succ_eq_map, List.map_cons, List.map_map, Option.some.injEq, List.cons.injEq]
    refine ⟨by simp; omega, ?_⟩
    apply List.map_congr_left
    intro k _
    simp only [Function.comp, Nat.succ_eq_add_one]
    have hp : 1 ≤ m ^ k := Nat.one_le_pow _ _ hm
    have he : d * m ^ (k + 1) = d * m * m ^ k := by rw [Nat.pow_succ, Nat.mul_comm (m ^ k) m, Nat.mul_assoc]
    rw [he]
    by_cases hc : cap ≤ d * m
    · have : Nat.min cap (d * m) = cap := Nat.min_eq_left hc
      rw [this]
      have a1 : cap ≤ cap * m ^ k := Nat.le_mul_of_pos_right _ hp
      have a2 : cap ≤ d * m * m ^ k := Nat.le_trans hc (Nat.le_mul_of_pos_right _ hp)
      omega
    · have : Nat.min cap (d * m) = d * m := Nat.min_eq_right (by omega)
      rw [this]

theorem retryLoop_all {ε α : Type} (n : Nat) (op : Nat → Except ε α) :
    ∀ k a, n - a ≤ k → a < max 1 n →
    (∃ b v, a < b ∧ b ≤ max 1 n ∧ op b = .ok v ∧ (∀ j, a < j → j < b → ∃ e, op j = .error e) ∧
      (retryLoop n op a).1 = .ok v ∧
      (retryLoop n op a).2 = (((List.range' (a + 1) (b - a - 1)).flatMap fun j => [Ev.attempt j, .sleep]) ++ [.attempt b])) ∨
    ((∀ j, a < j → j ≤ max 1 n → ∃ e, op j = .error e) ∧ (retryLoop n op a).1 = op (max 1 n) ∧
      (retryLoop n op a).2 = (((List.range' (a + 1) (max 1 n - a - 1)).flatMap fun j => [Ev.attempt j, .sleep]) ++
        [.attempt (max 1 n)])) := by
  intro k
  induction k with
  | zero =>
    intro a hk ha
    have hn : max 1 n = a + 1 := by omega
    unfold retryLoop
    cases hop : op (a + 1) with
    | ok v =>
      left
      refine ⟨a + 1, v, by omega, by omega, hop, fun j _ _ => by omega, ?_, ?_⟩ <;> simp [hop]
    | error e =>
      right
      have : a + 1 ≥ n := by omega
      refine ⟨?_, ?_, ?_⟩
      · intro j h1 h2
        have : j = a + 1 := by omega
        exact ⟨e, by rw [this, hop]⟩
      · simp only [hop, if_pos this, hn]
      · simp [hop, this, hn]
  | succ k ih =>
    intro a hk ha
    unfold retryLoop
    cases hop : op (a + 1) with
    | ok v =>
      left
      refine ⟨a + 1, v, by omega, by omega, hop, fun j _ _ => by omega, ?_, ?_⟩ <;> simp [hop]
    | error e =>
      by_cases hge : a + 1 ≥ n
      · right
        have hn : max 1 n = a + 1 := by omega
        refine ⟨?_, ?_, ?_⟩
        · intro j h1 h2
          have : j = a + 1 := by omega
          exact ⟨e, by rw [this, hop]⟩
        · simp only [hop, if_pos hge, hn]
        · simp [hop, hge, hn]
      · simp only [hop, if_neg hge]
        rcases ih (a + 1) (by omega) (by omega) with ⟨b, v, h1, h2, h3, h4, h5, h6⟩ | ⟨h1, h2, h3⟩
        · left
          refine ⟨b, v, by omega, h2, h3, ?_, h5, ?_⟩
          · intro j hj1 hj2
            by_cases hj : j = a + 1
            · exact ⟨e, by rw [hj, hop]⟩
            · exact h4 j (by omega) hj2
          · rw [h6]
            have : b - a - 1 = (b - (a + 1) - 1) + 1 := by omega
            rw [this, List.range'_succ]
            rfl
        · right
          refine ⟨?_, h2, ?_⟩
          · intro j hj1 hj2
            by_cases hj : j = a + 1
            · exact ⟨e, by rw [hj, hop]⟩
            · exact h1 j (by omega) hj2
          · rw [h3]
            have : max 1 n - a - 1 = (max 1 n - (a + 1) - 1) + 1 := by omega
            rw [this, List.range'_succ]
            rfl

theorem poll_eq {Ctx : Type} (cap : Nat) (w : Nat) (rest : List (Reply Ctx)) :
    ∀ d, d ≤ cap →
    (pollLoop cap d (List.replicate w .waitingForManifest ++ rest)).1 = (pollLoop cap d rest).1 ∧
      (rest = [] ∨ (∃ r rs, rest = r :: rs ∧ r ≠ .waitingForManifest) →
      (pollLoop cap d (List.replicate w .waitingForManifest ++ rest)).2 =
        (List.range w).map fun k => min (d * 2 ^ k) cap) := by
  have stop : ∀ d (r : Reply Ctx) rs, r ≠ .waitingForManifest → pollLoop cap d (r :: rs) = (some r, []) := by
    intro d r rs h
    cases r <;> first | rfl | exact absurd rfl h
  have same : ∀ (rest : List (Reply Ctx)) d d', (pollLoop cap d rest).1 = (pollLoop cap d' rest).1 := by
    intro rest
    induction rest with
    | nil => intro d d'; rfl
    | cons r rs ih =>
      intro d d'
      by_cases hr : r = .waitingForManifest
      · subst hr; exact ih _ _
      · rw [stop d r rs hr, stop d' r rs hr]
  induction w with
  | zero =>
    intro d hd
    refine ⟨rfl, ?_⟩
    rintro (h | ⟨r, rs, h, hr⟩)
    · subst h; rfl
    · subst h; show (pollLoop cap d (r :: rs)).2 = _; rw [stop d r rs hr]; rfl
  | succ w ih =>
    intro d hd
    have hn : nextDecay cap d ≤ cap := by unfold nextDecay; dsimp only; split <;> omega
    have he : pollLoop cap d (List.replicate (w + 1) .waitingForManifest ++ rest) =
        ((pollLoop cap (nextDecay cap d) (List.replicate w .waitingForManifest ++ rest)).1,
          d :: (pollLoop cap (nextDecay cap d) (List.replicate w .waitingForManifest ++ rest)).2) := by
      rw [List.replicate_succ, List.cons_append]; rfl
    rw [he]
    obtain ⟨h1, h2⟩ := ih (nextDecay cap d) hn
    refine ⟨by rw [h1]; exact same _ _ _, ?_⟩
    intro h
    dsimp only
    rw [h2 h, List.range_succ_eq_map, List.map_cons, List.map_map]
    congr 1
    · simp; omega
    · apply List.map_congr_left
      intro k _
      simp only [Function.comp, Nat.succ_eq_add_one]
      have hp : 1 ≤ 2 ^ k := Nat.one_le_pow _ _ (by omega)
      have hpow : d * 2 ^ (k + 1) = d * 2 * 2 ^ k := by rw [Nat.pow_succ, Nat.mul_comm (2 ^ k) 2, Nat.mul_assoc]
      rw [hpow]
      unfold nextDecay
      dsimp only
      split
      · rename_i hc
        have a1 : cap ≤ cap * 2 ^ k := Nat.le_mul_of_pos_right _ hp
        have a2 : cap ≤ d * 2 * 2 ^ k := Nat.le_trans hc (Nat.le_mul_of_pos_right _ hp)
        omega
      · rfl

end Abq.Backoff
