import Verif.Model.Durations
/-!
# Helper lemmas on the rounding of numbers with a floating point
-/

namespace Abq.Durations

theorem nearest_close (n d : Nat) (hd : 0 < d) :
    2 * (nearest n d * d) ≤ 2 * n + d ∧ 2 * n ≤ 2 * (nearest n d * d) + d := by
  have h := Nat.div_add_mod n d
  rw [Nat.mul_comm] at h
  unfold nearest
  split
  · constructor <;> omega
  · split
    · rw [Nat.add_mul, Nat.one_mul]
      have := Nat.mod_lt n hd
      constructor <;> omega
    · split
      · constructor <;> omega
      · rw [Nat.add_mul, Nat.one_mul]; constructor <;> omega

/-- A multiple of `d` is not rounded. -/
theorem nearest_mul (k d : Nat) (hd : 0 < d) : nearest (k * d) d = k := by
  unfold nearest
  rw [Nat.mul_mod_left, if_pos (by omega), Nat.mul_div_cancel _ hd]

/-- The relative error of rounding is at most `2 ^ -53`. -/
theorem round_close (n d : Nat) (hd : 0 < d) (hq : 2 ^ 52 ≤ n * 2 ^ 1074 / d) :
    2 ^ 53 * (round n d * d) ≤ 2 ^ 53 * (n * 2 ^ 1074) + n * 2 ^ 1074 ∧
    2 ^ 53 * (n * 2 ^ 1074) ≤ 2 ^ 53 * (round n d * d) + n * 2 ^ 1074 := by
  have hround : round n d = nearest (n * 2 ^ 1074) (d * 2 ^ (Nat.log2 (n * 2 ^ 1074 / d) - 52))
      * 2 ^ (Nat.log2 (n * 2 ^ 1074 / d) - 52) := rfl
  rw [hround]
  generalize n * 2 ^ 1074 = N at *
  have hQ : N / d ≠ 0 := by have := Nat.two_pow_pos 52; omega
  have hl : 2 ^ Nat.log2 (N / d) ≤ N / d := Nat.log2_self_le hQ
  have h52 : 52 ≤ Nat.log2 (N / d) := (Nat.le_log2 hQ).2 hq
  have hulp : 2 ^ 52 * 2 ^ (Nat.log2 (N / d) - 52) ≤ N / d := by
    rw [← Nat.pow_add, show 52 + (Nat.log2 (N / d) - 52) = Nat.log2 (N / d) by omega]; exact hl
  have hu := Nat.two_pow_pos (Nat.log2 (N / d) - 52)
  generalize 2 ^ (Nat.log2 (N / d) - 52) = u at *
  have hc := nearest_close N (d * u) (Nat.mul_pos hd hu)
  have hb : 2 ^ 52 * (d * u) ≤ N := by
    have h1 := Nat.mul_le_mul_left d hulp
    have h2 : d * (N / d) ≤ N := Nat.mul_div_le N d
    have h3 : d * (2 ^ 52 * u) = 2 ^ 52 * (d * u) := by
      rw [← Nat.mul_assoc, ← Nat.mul_assoc, Nat.mul_comm d]
    omega
  have ha : nearest N (d * u) * u * d = nearest N (d * u) * (d * u) := by
    rw [Nat.mul_assoc, Nat.mul_comm u d]
  rw [ha]
  clear ha hround hQ hl h52 hulp hq
  generalize nearest N (d * u) * (d * u) = X at *
  generalize d * u = E at *
  obtain ⟨c1, c2⟩ := hc
  have c1 := Nat.mul_le_mul_left (2 ^ 52) c1
  have c2 := Nat.mul_le_mul_left (2 ^ 52) c2
  have e : ∀ y, 2 ^ 52 * (2 * y) = 2 ^ 53 * y := fun y => by
    rw [← Nat.mul_assoc, show (2 : Nat) ^ 53 = 2 ^ 52 * 2 from rfl]
  rw [Nat.mul_add, e, e] at c1 c2
  generalize 2 ^ 53 * X = A at *
  generalize 2 ^ 53 * N = B at *
  generalize 2 ^ 52 * E = C at *
  constructor
  · omega
  · omega

/-- Whole numbers of at most 53 bits are exact. -/
theorem ofNat_exact (n : Nat) (hn : n < 2 ^ 53) : ofNat n = n * 2 ^ 1074 := by
  have h : ofNat n = nearest (n * 2 ^ 1074) (1 * 2 ^ (Nat.log2 (n * 2 ^ 1074 / 1) - 52))
      * 2 ^ (Nat.log2 (n * 2 ^ 1074 / 1) - 52) := rfl
  rw [h, Nat.div_one, Nat.one_mul]
  have hk : Nat.log2 (n * 2 ^ 1074) - 52 ≤ 1074 := by
    by_cases h0 : n = 0
    · rw [h0, Nat.zero_mul]
      have : Nat.log2 0 = 0 := by decide
      omega
    · have hlt : n * 2 ^ 1074 < 2 ^ 1127 := by
        rw [show (1127 : Nat) = 53 + 1074 from rfl, Nat.pow_add]
        exact Nat.mul_lt_mul_of_pos_right hn (Nat.two_pow_pos 1074)
      have hne : n * 2 ^ 1074 ≠ 0 := Nat.mul_ne_zero h0 (Nat.pos_iff_ne_zero.1 (Nat.two_pow_pos 1074))
      have := (Nat.log2_lt hne).2 hlt
      omega
  generalize Nat.log2 (n * 2 ^ 1074) - 52 = k at *
  have : n * 2 ^ 1074 = n * 2 ^ (1074 - k) * 2 ^ k := by
    rw [Nat.mul_assoc, ← Nat.pow_add, Nat.sub_add_cancel hk]
  rw [this, nearest_mul _ _ (Nat.two_pow_pos k)]

/-- The hundredths of a second that are shown. -/
def hundredths (millis : Nat) : Nat := nearest (100 * div (ofNat millis) (ofNat 1000)) (2 ^ 1074)

theorem hundredths_close (a : Nat) (ha : a < 2 ^ 53) :
    hundredths a * 10 ≤ a + 5 ∧ a ≤ hundredths a * 10 + 5 := by
  unfold hundredths div
  rw [ofNat_exact a ha, ofNat_exact 1000 (by decide)]
  have hS : 0 < 2 ^ 1074 := Nat.two_pow_pos 1074
  have hc := nearest_close (100 * round (a * 2 ^ 1074) (1000 * 2 ^ 1074)) (2 ^ 1074) hS
  by_cases h0 : a = 0
  · subst h0
    have hr : round (0 * 2 ^ 1074) (1000 * 2 ^ 1074) = 0 := by
      have h : ∀ d, round 0 d = 0 := by
        intro d
        have hz : round 0 d = nearest (0 * 2 ^ 1074) (d * 2 ^ (Nat.log2 (0 * 2 ^ 1074 / d) - 52))
          * 2 ^ (Nat.log2 (0 * 2 ^ 1074 / d) - 52) := rfl
        rw [hz, Nat.zero_mul, Nat.zero_div]
        have : Nat.log2 0 = 0 := by decide
        rw [this]
        have hn : nearest 0 (d * 2 ^ (0 - 52)) = 0 := by
          unfold nearest; simp
        rw [hn, Nat.zero_mul]
      rw [Nat.zero_mul, h]
    rw [hr] at hc ⊢
    have hz : nearest (100 * 0) (2 ^ 1074) = 0 := by
      have := nearest_mul 0 (2 ^ 1074) hS
      rwa [Nat.zero_mul] at this
    rw [hz]; omega
  · have hr := round_close (a * 2 ^ 1074) (1000 * 2 ^ 1074) (by omega) (by
      rw [Nat.le_div_iff_mul_le (by omega)]
      have h2 : (2 : Nat) ^ 52 * 1000 ≤ 2 ^ 1074 := by
        rw [show (1074 : Nat) = 52 + 1022 from rfl, Nat.pow_add]
        apply Nat.mul_le_mul_left
        rw [show (1022 : Nat) = 10 + 1012 from rfl, Nat.pow_add]
        calc 1000 ≤ 2 ^ 10 * 1 := by decide
          _ ≤ 2 ^ 10 * 2 ^ 1012 := Nat.mul_le_mul_left _ (Nat.two_pow_pos 1012)
      rw [← Nat.mul_assoc]
      calc 2 ^ 52 * 1000 * 2 ^ 1074 ≤ 2 ^ 1074 * 2 ^ 1074 := Nat.mul_le_mul_right _ h2
        _ ≤ a * (2 ^ 1074 * 2 ^ 1074) := Nat.le_mul_of_pos_left _ (by omega)
        _ = a * 2 ^ 1074 * 2 ^ 1074 := (Nat.mul_assoc _ _ _).symm)
    generalize round (a * 2 ^ 1074) (1000 * 2 ^ 1074) = x at *
    generalize nearest (100 * x) (2 ^ 1074) = h at *
    generalize 2 ^ 1074 = S at *
    obtain ⟨r1, r2⟩ := hr
    have f1 : x * (1000 * S) = 1000 * x * S := by
      rw [← Nat.mul_assoc, Nat.mul_comm x 1000]
    rw [f1] at r1 r2
    have g1 : 2 ^ 53 * (1000 * x) ≤ 2 ^ 53 * (a * S) + a * S := by
      apply Nat.le_of_mul_le_mul_right _ hS
      rw [Nat.add_mul, Nat.mul_assoc _ (a * S) S, Nat.mul_assoc (2 ^ 53) (1000 * x) S]; exact r1
    have g2 : 2 ^ 53 * (a * S) ≤ 2 ^ 53 * (1000 * x) + a * S := by
      apply Nat.le_of_mul_le_mul_right _ hS
      rw [Nat.add_mul, Nat.mul_assoc _ (a * S) S, Nat.mul_assoc (2 ^ 53) (1000 * x) S]; exact r2
    have g3 : a * S < 2 ^ 53 * S := Nat.mul_lt_mul_of_pos_right ha hS
    have g4 : 1000 * x < a * S + S := by
      apply Nat.lt_of_mul_lt_mul_left (a := 2 ^ 53)
      rw [Nat.mul_add]; exact Nat.lt_of_le_of_lt g1 (Nat.add_lt_add_left g3 _)
    have g5 : a * S < 1000 * x + S := by
      apply Nat.lt_of_mul_lt_mul_left (a := 2 ^ 53)
      rw [Nat.mul_add]; exact Nat.lt_of_le_of_lt g2 (Nat.add_lt_add_left g3 _)
    clear g1 g2 g3 r1 r2 f1
    have e1 : 10 * h * S = 10 * (h * S) := Nat.mul_assoc _ _ _
    have k1 : 10 * h * S < (a + 6) * S := by
      rw [e1, Nat.add_mul]; omega
    have k2 : a * S < (10 * h + 6) * S := by
      rw [Nat.add_mul, e1]; omega
    have k1 := Nat.lt_of_mul_lt_mul_right k1
    have k2 := Nat.lt_of_mul_lt_mul_right k2
    omega

theorem nearest_scale (x u D : Nat) (hD : 0 < D) : nearest (x * D) (D * u) = nearest x u := by
  have hm : x * D % (D * u) = (x % u) * D := by
    rw [Nat.mul_comm x D, Nat.mul_mod_mul_left, Nat.mul_comm]
  have hq : x * D / (D * u) = x / u := by
    rw [Nat.mul_comm x D, Nat.mul_div_mul_left _ _ hD]
  unfold nearest
  rw [hm, hq]
  have c1 : (2 * (x % u * D) < D * u) = (2 * (x % u) < u) := by
    rw [← Nat.mul_assoc, Nat.mul_comm _ D]
    exact propext ⟨Nat.lt_of_mul_lt_mul_left, fun h => Nat.mul_lt_mul_of_pos_left h hD⟩
  have c2 : (D * u < 2 * (x % u * D)) = (u < 2 * (x % u)) := by
    rw [← Nat.mul_assoc, Nat.mul_comm _ D]
    exact propext ⟨Nat.lt_of_mul_lt_mul_left, fun h => Nat.mul_lt_mul_of_pos_left h hD⟩
  simp only [c1, c2]

theorem round_scale (n D : Nat) (hD : 0 < D) : round (n * D) D = round n 1 := by
  have h1 : round (n * D) D = nearest (n * D * 2 ^ 1074) (D * 2 ^ (Nat.log2 (n * D * 2 ^ 1074 / D) - 52))
      * 2 ^ (Nat.log2 (n * D * 2 ^ 1074 / D) - 52) := rfl
  have h2 : round n 1 = nearest (n * 2 ^ 1074) (1 * 2 ^ (Nat.log2 (n * 2 ^ 1074 / 1) - 52))
      * 2 ^ (Nat.log2 (n * 2 ^ 1074 / 1) - 52) := rfl
  have e : n * D * 2 ^ 1074 = n * 2 ^ 1074 * D := by
    rw [Nat.mul_assoc, Nat.mul_comm D, ← Nat.mul_assoc]
  rw [h1, h2, e, Nat.mul_div_cancel _ hD, Nat.div_one, nearest_scale _ _ _ hD, Nat.one_mul]

theorem mul_exact (a b : Nat) (ha : a < 2 ^ 53) (hb : b < 2 ^ 53) (hab : a * b < 2 ^ 53) :
    mul (ofNat a) (ofNat b) = ofNat (a * b) := by
  unfold mul
  rw [ofNat_exact a ha, ofNat_exact b hb]
  have hS : 0 < 2 ^ 1074 := Nat.two_pow_pos 1074
  generalize hg : 2 ^ 1074 = S at *
  have e : a * S * (b * S) = a * b * (S * S) := by
    rw [Nat.mul_assoc, Nat.mul_left_comm S b S, ← Nat.mul_assoc a b]
  rw [e, round_scale _ _ (Nat.mul_pos hS hS)]
  rfl

theorem add_exact (a b : Nat) (hab : a + b < 2 ^ 53) : add (ofNat a) (ofNat b) = ofNat (a + b) := by
  unfold add
  rw [ofNat_exact a (by omega), ofNat_exact b (by omega), ← Nat.add_mul, round_scale _ _ (Nat.two_pow_pos 1074)]
  rfl

theorem toU64_exact (n : Nat) (hn : n < 2 ^ 53) : toU64 (ofNat n) = n := by
  unfold toU64
  rw [ofNat_exact n hn, Nat.mul_div_cancel _ (Nat.two_pow_pos 1074)]
  have : (2 : Nat) ^ 53 ≤ 2 ^ 64 - 1 := by decide
  omega

theorem digit_text : ∀ d, d < 10 → (toString d).toList = [d.digitChar] := by decide

end Abq.Durations
