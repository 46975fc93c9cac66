import Verif.Proof.Backoff

/-!
# Delays and retries (C31, C32, C61)
-/

namespace Abq.Props
open Abq.Backoff

/-- **C31** (for an initial delay not above the cap, and a cap whose product with the multiplier is below 2^64
seconds, as a `Duration` must be; delays are in nanoseconds). The `k`-th delay is the initial delay times the multiplier to the `k`, or the cap if that is less. -/
theorem C31_delays_partial (d0 m cap : Nat) (hm : 1 ≤ m) (hd : d0 ≤ cap) (hov : cap * m < 2 ^ 64 * 1000000000) (n : Nat) :
    (⟨d0, m, cap⟩ : ExpDecay).delays n = some ((List.range n).map fun k => min (d0 * m ^ k) cap) :=
  delays_eq m cap hm (Nat.le_sub_one_of_lt hov) n d0 hd

/-- **C31** (same restriction). The delays start at the initial delay, never decrease, never exceed the cap, and
stay at the cap once it is reached. -/
theorem C31_shape_partial (d0 m cap : Nat) (hm : 1 ≤ m) (hd : d0 ≤ cap) (hov : cap * m < 2 ^ 64 * 1000000000) (n : Nat) :
    ∃ ds, (⟨d0, m, cap⟩ : ExpDecay).delays n = some ds ∧ ds.length = n ∧ (∀ x, ds[0]? = some x → x = d0) ∧
      (∀ x ∈ ds, x ≤ cap) ∧
      (∀ (i j x y : Nat), i ≤ j → ds[i]? = some x → ds[j]? = some y → x ≤ y ∧ (x = cap → y = cap)) := by
  refine ⟨_, delays_eq m cap hm (Nat.le_sub_one_of_lt hov) n d0 hd, by simp, ?_, ?_, ?_⟩
  · intro x hx
    simp only [List.getElem?_map, Option.map_eq_some_iff] at hx
    obtain ⟨k, hk, rfl⟩ := hx
    rw [List.getElem?_range] at hk
    · cases hk; simp; omega
    · apply Decidable.byContradiction; intro h
      rw [List.getElem?_eq_none (by simpa using h)] at hk; cases hk
  · intro x hx
    simp only [List.mem_map] at hx
    obtain ⟨k, _, rfl⟩ := hx
    omega
  · intro i j x y hij hx hy
    simp only [List.getElem?_map, Option.map_eq_some_iff] at hx hy
    obtain ⟨k, hk, rfl⟩ := hx
    obtain ⟨l, hl, rfl⟩ := hy
    obtain ⟨_, rfl⟩ := List.getElem?_eq_some_iff.mp hk
    obtain ⟨_, rfl⟩ := List.getElem?_eq_some_iff.mp hl
    simp only [List.getElem_range]
    have : d0 * m ^ i ≤ d0 * m ^ j := Nat.mul_le_mul_left _ (Nat.pow_le_pow_right hm hij)
    omega

/-- **C31** (exact, for every initial delay). The first delay is the initial one, even above the cap; the `k`-th after it is the
initial delay times the multiplier to the `k`, or the cap if that is less. -/
theorem C31_delays_from_any_start (d0 m cap : Nat) (hm : 1 ≤ m) (h0 : d0 * m < 2 ^ 64 * 1000000000)
    (hov : cap * m < 2 ^ 64 * 1000000000) (n : Nat) :
    (⟨d0, m, cap⟩ : ExpDecay).delays (n + 1) = some (d0 :: (List.range n).map fun k => min (d0 * m ^ (k + 1)) cap) := by
  have h1 : mulDuration d0 m = some (d0 * m) := by
    unfold mulDuration; exact if_pos (Nat.le_sub_one_of_lt h0)
  have h2 := delays_eq m cap hm (Nat.le_sub_one_of_lt hov) n (Nat.min cap (d0 * m)) (Nat.min_le_left _ _)
  simp only [ExpDecay.delays, ExpDecay.nextDuration, h1, h2]
  congr 2
  refine List.map_congr_left fun k _ => ?_
  have h3 : cap ≤ cap * m ^ k := Nat.le_mul_of_pos_right _ (Nat.pow_pos hm)
  have h4 : d0 * m ^ (k + 1) = d0 * m * m ^ k := by rw [Nat.pow_succ, Nat.mul_comm (m ^ k), Nat.mul_assoc]
  rw [h4]
  by_cases h : cap ≤ d0 * m
  · rw [show Nat.min cap (d0 * m) = cap from Nat.min_eq_left h]
    have : cap ≤ d0 * m * m ^ k := Nat.le_trans h (Nat.le_mul_of_pos_right _ (Nat.pow_pos hm))
    omega
  · rw [show Nat.min cap (d0 * m) = d0 * m from Nat.min_eq_right (by omega)]

/-- The `k`-th delay, the first being number 0: the initial one, then the initial one times the multiplier to the `k`, or
the cap if that is less. -/
def delayNo (d0 m cap k : Nat) : Nat := if k = 0 then d0 else min (d0 * m ^ k) cap

theorem delayNo_step (d0 m cap k : Nat) (hm : 1 ≤ m) :
    delayNo (Nat.min cap (d0 * m)) m cap k = delayNo d0 m cap (k + 1) := by
  have h1 : cap ≤ cap * m ^ k := Nat.le_mul_of_pos_right _ (Nat.pow_pos hm)
  have h4 : d0 * m ^ (k + 1) = d0 * m * m ^ k := by rw [Nat.pow_succ, Nat.mul_comm (m ^ k), Nat.mul_assoc]
  unfold delayNo
  rw [if_neg (by omega : k + 1 ≠ 0), h4]
  by_cases hk : k = 0
  · rw [if_pos hk, hk, Nat.pow_zero, Nat.mul_one]
    exact Nat.min_comm _ _
  · rw [if_neg hk]
    by_cases h : cap ≤ d0 * m
    · rw [show Nat.min cap (d0 * m) = cap from Nat.min_eq_left h]
      have : cap ≤ d0 * m * m ^ k := Nat.le_trans h (Nat.le_mul_of_pos_right _ (Nat.pow_pos hm))
      omega
    · rw [show Nat.min cap (d0 * m) = d0 * m from Nat.min_eq_right (by omega)]

/-- **C31** (exact, for all initial delays, multipliers and caps). The iterator yields the `n` delays stated unless one of
them, times the multiplier, is 2^64 seconds or more; then it panics, at the latest when asked for that one. -/
theorem C31_exact (d0 m cap : Nat) (hm : 1 ≤ m) (n : Nat) :
    ((∀ k, k < n → delayNo d0 m cap k * m < 2 ^ 64 * 1000000000) →
      (⟨d0, m, cap⟩ : ExpDecay).delays n = some ((List.range n).map (delayNo d0 m cap))) ∧
    ((∃ k, k < n ∧ 2 ^ 64 * 1000000000 ≤ delayNo d0 m cap k * m) → (⟨d0, m, cap⟩ : ExpDecay).delays n = none) := by
  induction n generalizing d0 with
  | zero => exact ⟨fun _ => rfl, fun ⟨k, hk, _⟩ => absurd hk (Nat.not_lt_zero k)⟩
  | succ n ih =>
    have ih := ih (Nat.min cap (d0 * m))
    simp only [delayNo_step d0 m cap _ hm] at ih
    by_cases h0 : d0 * m < 2 ^ 64 * 1000000000
    · have h1 : mulDuration d0 m = some (d0 * m) := by
        unfold mulDuration; exact if_pos (Nat.le_sub_one_of_lt h0)
      constructor
      · intro h
        have h2 := ih.1 fun k hk => h (k + 1) (by omega)
        simp only [ExpDecay.delays, ExpDecay.nextDuration, h1, h2]
        rw [List.range_succ_eq_map, List.map_cons, List.map_map]
        congr 2
        exact List.map_congr_left fun k _ => delayNo_step d0 m cap k hm
      · rintro ⟨k, hk, hk'⟩
        cases k with
        | zero => exact absurd h0 (Nat.not_lt.2 hk')
        | succ k =>
          have h2 := ih.2 ⟨k, by omega, hk'⟩
          simp only [ExpDecay.delays, ExpDecay.nextDuration, h1, h2]
    · have h1 : mulDuration d0 m = none := by
        unfold mulDuration; exact if_neg fun h => h0 (Nat.lt_of_le_of_lt h (by decide))
      refine ⟨fun h => absurd (h 0 (by omega)) h0, fun _ => ?_⟩
      simp only [ExpDecay.delays, ExpDecay.nextDuration, h1]

example : (∀ k, k < 3 → delayNo 5 2 3 k * 2 < 2 ^ 64 * 1000000000) ∧
    (List.range 3).map (delayNo 5 2 3) = [5, 3, 3] := by decide
example : ∃ k, k < 3 ∧ 2 ^ 64 * 1000000000 ≤ delayNo (2 ^ 62 * 1000000000) 2 (2 ^ 70 * 1000000000) k * 2 :=
  ⟨1, by decide, by decide⟩

/-- A constant delay is constant, whatever it is. -/
theorem C31_constant (d : Nat) (hd : d < 2 ^ 64 * 1000000000) (n : Nat) :
    (ExpDecay.constant d).delays n = some (List.replicate n d) := by
  have := delays_eq 1 d (Nat.le_refl _) (by rw [Nat.mul_one]; exact Nat.le_sub_one_of_lt hd) n d (Nat.le_refl _)
  rw [show ExpDecay.constant d = ⟨d, 1, d⟩ from rfl, this]
  congr 1
  apply List.ext_getElem <;> simp

/-- **C31 fails** as stated for every initial delay and cap: with an initial delay above the cap, the first delay
exceeds the cap, and the delays decrease. -/
theorem C31_full_statement_fails :
    ¬ ∀ (d0 m cap n : Nat), 1 ≤ m → ∃ ds, (⟨d0, m, cap⟩ : ExpDecay).delays n = some ds ∧ (∀ x ∈ ds, x ≤ cap) := by
  intro h
  obtain ⟨ds, h1, h2⟩ := h 5 2 3 1 (by omega)
  rw [show (⟨5, 2, 3⟩ : ExpDecay).delays 1 = some [5] from by decide] at h1
  cases h1
  exact absurd (h2 5 (by simp)) (by omega)

example : (ExpDecay.quadratic 5 3).delays 3 = some [5, 3, 3] := by decide

/-- **C31 fails** also for a cap so large that doubling it is not a `Duration`: the iterator panics. -/
theorem C31_full_statement_fails_overflow :
    (ExpDecay.quadratic (2 ^ 63 * 1000000000) (2 ^ 63 * 1000000000)).delays 1 = none := by decide

example : (ExpDecay.quadratic 1 40).delays 8 = some [1, 2, 4, 8, 16, 32, 40, 40] := by decide

/-- **C32.** The attempts made are number 1, 2, … up to the first that succeeds, or up to the limit if none of
those does (a limit of zero counts as one), with one sleep between attempts; the result is that of the last attempt
made. -/
theorem C32_retry {ε α : Type} (maxAttempts : Nat) (op : Nat → Except ε α) :
    ∃ last, 1 ≤ last ∧ last ≤ max 1 maxAttempts ∧
      (∀ j, 1 ≤ j → j < last → ∃ e, op j = .error e) ∧
      ((∃ e, op last = .error e) → last = max 1 maxAttempts) ∧
      (retryN maxAttempts op).1 = op last ∧
      (retryN maxAttempts op).2 =
        ((List.range' 1 (last - 1)).flatMap fun j => [Ev.attempt j, .sleep]) ++ [.attempt last] := by
  rcases retryLoop_all maxAttempts op maxAttempts 0 (by omega) (by omega) with
    ⟨b, v, h1, h2, h3, h4, h5, h6⟩ | ⟨h1, h2, h3⟩
  · refine ⟨b, by omega, h2, fun j hj hjb => h4 j (by omega) hjb, ?_, ?_, h6⟩
    · rintro ⟨e, he⟩; rw [h3] at he; cases he
    · rw [h3]; exact h5
  · exact ⟨max 1 maxAttempts, by omega, Nat.le_refl _, fun j hj hjb => h1 j (by omega) (by omega), fun _ => rfl, h2, h3⟩

/-- **C32.** The first success wins: if some attempt within the limit would succeed, the retried operation
succeeds with the value of the first one that does. -/
theorem C32_first_success {ε α : Type} (maxAttempts : Nat) (op : Nat → Except ε α) (k : Nat) (v : α)
    (h1 : 1 ≤ k) (h2 : k ≤ maxAttempts) (hk : op k = .ok v) (hb : ∀ j, 1 ≤ j → j < k → ∃ e, op j = .error e) :
    (retryN maxAttempts op).1 = .ok v := by
  obtain ⟨last, l1, l2, l3, l4, l5, _⟩ := C32_retry maxAttempts op
  have : last = k := by
    rcases Nat.lt_trichotomy last k with h | h | h
    · have := l4 (hb last l1 h); omega
    · exact h
    · obtain ⟨e, he⟩ := l3 k h1 h; rw [hk] at he; cases he
  rw [l5, this, hk]

example : retryN 3 (fun k => if k = 2 then Except.ok "done" else .error k) =
    (.ok "done", [.attempt 1, .sleep, .attempt 2]) := by simp [retryN, retryLoop]
example : retryN (α := Nat) 2 (fun k => Except.error k) = (.error 2, [.attempt 1, .sleep, .attempt 2]) := by
  simp [retryN, retryLoop]

/-- **C61.** However long the manifest takes, the runner keeps asking and gets the first answer that is not "wait":
after `w` waits it has slept `w` times, 10 ms doubled each time but at most 3 s. -/
theorem C61_first_definite_answer {Ctx : Type} (w : Nat) (r : Reply Ctx) (rest : List (Reply Ctx))
    (hr : r ≠ .waitingForManifest) :
    getInitContext (List.replicate w .waitingForManifest ++ r :: rest) =
      (some r, (List.range w).map fun k => min (10 * 2 ^ k) 3000) := by
  obtain ⟨h1, h2⟩ := poll_eq (Ctx := Ctx) 3000 w (r :: rest) 10 (by omega)
  have h3 := h2 (.inr ⟨r, rest, rfl, hr⟩)
  unfold getInitContext
  refine Prod.ext ?_ h3
  rw [h1]
  cases r <;> first | rfl | exact absurd rfl hr

/-- **C61.** While the queue only says "wait" the runner does not give up. -/
theorem C61_does_not_give_up {Ctx : Type} (w : Nat) :
    getInitContext (List.replicate w (.waitingForManifest : Reply Ctx)) =
      (none, (List.range w).map fun k => min (10 * 2 ^ k) 3000) := by
  obtain ⟨h1, h2⟩ := poll_eq (Ctx := Ctx) 3000 w [] 10 (by omega)
  rw [List.append_nil] at h1 h2
  exact Prod.ext h1 (h2 (.inl rfl))

/-- The hand-written loop sleeps exactly as the back-off iterator for 10 ms and 3 s would. -/
theorem C61_same_as_iterator (w : Nat) :
    (ExpDecay.quadratic 10 3000).delays w = some ((List.range w).map fun k => min (10 * 2 ^ k) 3000) :=
  delays_eq 2 3000 (by omega) (by decide) w 10 (by omega)

example : getInitContext (List.replicate 10 .waitingForManifest ++ [.initContext 7, .ioError]) =
    (some (.initContext 7), [10, 20, 40, 80, 160, 320, 640, 1280, 2560, 3000]) := by decide

end Abq.Props
