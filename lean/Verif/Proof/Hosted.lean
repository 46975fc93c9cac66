import Verif.Spec.Hosted

namespace Abq.Hosted

/-- The state after the replies `rs`. -/
structure SInv (rs : List Reply) (s : Sending) : Prop where
  sleeping : s.result = none → s.lastAttempt = rs.length ∧ rs.length < maxAttempts ∧
    (∀ r ∈ rs, r.Retried) ∧ s.decay = initialDecay * decayMul ^ rs.length ∧
    s.slept = (List.range rs.length).map fun i => initialDecay * decayMul ^ i
  finished : ∀ r, s.result = some r → ∃ pre post, rs = pre ++ r :: post ∧ (∀ x ∈ pre, x.Retried) ∧
    s.lastAttempt = pre.length + 1 ∧ pre.length < maxAttempts ∧ (¬ r.Retried ∨ pre.length + 1 = maxAttempts) ∧
    s.slept = (List.range pre.length).map fun i => initialDecay * decayMul ^ i

theorem retried_iff (c : Nat) :
    (Reply.status c).Retried ↔ isSuccess c = false ∧ (isServerError c || c == tooManyRequests) = true := by
  simp only [Reply.Retried, isSuccess, isServerError, tooManyRequests, Bool.or_eq_true, Bool.and_eq_true,
    decide_eq_true_eq, beq_iff_eq, Bool.and_eq_false_iff, decide_eq_false_iff_not]
  omega

theorem SInv.init : SInv [] {} := by
  constructor
  · intro _; simp [maxAttempts]
  · intro r h; cases h

theorem SInv.step {rs : List Reply} {s : Sending} (h : SInv rs s) (r : Reply) : SInv (rs ++ [r]) (s.round r) := by
  unfold Sending.round
  cases hr : s.result with
  | some x =>
    constructor
    · intro h'; simp only at h'; rw [hr] at h'; cases h'
    · intro y hy
      obtain ⟨pre, post, h1, h2⟩ := h.finished y hy
      exact ⟨pre, post ++ [r], by rw [h1]; simp, h2⟩
  | none =>
    obtain ⟨ha, hlt, hall, hd, hs⟩ := h.sleeping hr
    -- the loop ends with this reply
    have hend : (¬ r.Retried ∨ rs.length + 1 = maxAttempts) →
        SInv (rs ++ [r]) { s with lastAttempt := s.lastAttempt + 1, result := some r } := by
      intro hor
      constructor
      · intro h'; cases h'
      · intro y hy
        cases hy
        exact ⟨rs, [], rfl, hall, by rw [ha], hlt, hor, hs⟩
    cases r with
    | transport => exact hend (.inl fun h => h)
    | status c =>
      simp only
      by_cases h1 : isSuccess c = true
      · rw [if_pos h1]
        exact hend (.inl fun h => by rw [((retried_iff c).mp h).1] at h1; cases h1)
      · rw [if_neg h1]
        by_cases h2 : (isServerError c || c == tooManyRequests) = true
        · rw [if_pos h2]
          have hret : (Reply.status c).Retried := (retried_iff c).mpr ⟨by simpa using h1, h2⟩
          unfold Sending.retry
          by_cases h3 : s.lastAttempt + 1 = maxAttempts
          · rw [if_pos h3]
            exact hend (.inr (by omega))
          · rw [if_neg h3]
            simp only
            constructor
            · intro _
              refine ⟨by simp [ha], by simp; omega, ?_, ?_, ?_⟩
              · intro x hx
                rcases List.mem_append.mp hx with hx | hx
                · exact hall x hx
                · rw [List.mem_singleton.mp hx]; exact hret
              · simp only [List.length_append, List.length_singleton, hd, Nat.pow_succ, Nat.mul_assoc]
              · simp only [List.length_append, List.length_singleton, hs, hd, List.range_succ, List.map_append,
                  List.map_cons, List.map_nil]
            · intro y hy
              simp only at hy
              cases hy
        · rw [if_neg h2]
          exact hend (.inl fun h => h2 ((retried_iff c).mp h).2)

theorem SInv.run (rs : List Reply) : SInv rs (({} : Sending).run rs) := by
  have : ∀ (l pre : List Reply) (s : Sending), SInv pre s → SInv (pre ++ l) (l.foldl Sending.round s) := by
    intro l
    induction l with
    | nil => intro pre s h; simpa using h
    | cons r l ih =>
      intro pre s h
      have := ih (pre ++ [r]) (s.round r) (h.step r)
      simpa using this
  exact this rs [] {} SInv.init

end Abq.Hosted
