import Verif.Spec.Auth
import Verif.Proof.Framing

/-! # Lemmas about tokens -/

namespace Abq.Auth
open Abq.Wire (Byte)

theorem isAlphanumeric_iff (b : Byte) : isAlphanumeric b = true ↔ LetterOrDigit b := by
  simp only [isAlphanumeric, LetterOrDigit, Bool.or_eq_true, Bool.and_eq_true, decide_eq_true_eq, or_assoc]
  rfl

theorem fromBuf_iff (s t : List Byte) : fromBuf s = some t ↔ s = t ∧ ∀ b ∈ t, LetterOrDigit b := by
  unfold fromBuf
  split
  · rename_i h
    rw [List.all_eq_true] at h
    constructor
    · intro e; cases e; exact ⟨rfl, fun b hb => (isAlphanumeric_iff b).mp (h b hb)⟩
    · rintro ⟨rfl, _⟩; rfl
  · rename_i h
    constructor
    · intro e; cases e
    · rintro ⟨rfl, h'⟩
      exact absurd (List.all_eq_true.mpr fun b hb => (isAlphanumeric_iff b).mpr (h' b hb)) h

theorem underscore_not (b : Byte) (h : LetterOrDigit b) : b ≠ 95 := by
  rintro rfl
  rw [← isAlphanumeric_iff] at h
  exact absurd h (by decide)

theorem splitOnce_prefix (pat s : List Byte) (h : pat ≠ []) : splitOnce pat (pat ++ s) = some ([], s) := by
  cases pat with
  | nil => exact absurd rfl h
  | cons b p =>
    show splitOnce (b :: p) (b :: (p ++ s)) = _
    rw [splitOnce, if_pos]
    · simp
    · simp [List.isPrefixOf]

theorem splitOnce_some (pat : List Byte) : ∀ s x y, splitOnce pat s = some (x, y) → s = x ++ pat ++ y := by
  intro s
  induction s with
  | nil => intro x y h; cases h
  | cons b s ih =>
    intro x y h
    rw [splitOnce] at h
    split at h
    · rename_i hp
      cases h
      obtain ⟨t, ht⟩ := List.isPrefixOf_iff_prefix.mp hp
      rw [← ht]; simp
    · cases h' : splitOnce pat s with
      | none => rw [h'] at h; cases h
      | some p =>
        rw [h'] at h
        obtain ⟨x', y'⟩ := p
        cases h
        rw [ih x' y' h']; simp

/-- A pattern that ends in `_`, with no other `_`, is not found in a text without `_`. -/
theorem splitOnce_none (q : List Byte) : ∀ t : List Byte, 95 ∉ t → splitOnce (q ++ [95]) t = none := by
  intro t ht
  cases h : splitOnce (q ++ [95]) t with
  | none => rfl
  | some p =>
    obtain ⟨x, y⟩ := p
    have := splitOnce_some _ _ _ _ h
    exact absurd (by rw [this]; simp) ht

/-- The leftmost match of such a pattern after a text without `_` is where the pattern starts. -/
theorem splitOnce_after (q : List Byte) (hq : 95 ∉ q) : ∀ (t g : List Byte), 95 ∉ t →
    splitOnce (q ++ [95]) (t ++ (q ++ [95]) ++ g) = some (t, g) := by
  intro t g
  induction t with
  | nil => intro _; exact splitOnce_prefix _ _ (by simp)
  | cons b t ih =>
    intro ht
    show splitOnce (q ++ [95]) (b :: (t ++ (q ++ [95]) ++ g)) = _
    rw [splitOnce, if_neg, ih (by intro h; exact ht (List.mem_cons_of_mem _ h))]
    · rfl
    · intro h
      obtain ⟨r, hr⟩ := List.isPrefixOf_iff_prefix.mp h
      -- the `_` of the pattern lies at a place where there is none
      have e : (q ++ [95] ++ r)[q.length]? = some 95 := by simp
      rw [hr] at e
      have e' : ((b :: t) ++ q ++ ([95] ++ g))[q.length]? = some 95 := by simpa using e
      rw [List.getElem?_append_left (by simp; omega)] at e'
      rcases List.mem_append.mp (List.mem_of_getElem? e') with h' | h'
      · exact ht h'
      · exact hq h'

theorem parse_iff (q : List Byte) (hq : 95 ∉ q) (s t : List Byte) : parse s (q ++ [95]) = some t ↔
    IsToken t ∧ (s = (q ++ [95]) ++ t ∨ ∃ g, s = (q ++ [95]) ++ t ++ (q ++ [95]) ++ g) := by
  have hne : q ++ [95] ≠ [] := by simp
  constructor
  · intro h
    cases hs : splitOnce (q ++ [95]) s with
    | none =>
      simp only [parse, splitNext, hs] at h
      split at h <;> cases h
    | some p =>
      obtain ⟨x, y⟩ := p
      have e := splitOnce_some _ _ _ _ hs
      simp only [parse, splitNext, hs] at h
      split at h
      · cases h
      rename_i hx
      have hx : x = [] := Classical.byContradiction hx
      subst hx
      cases hy : splitOnce (q ++ [95]) y with
      | none =>
        simp only [hy] at h
        split at h
        · cases h
        rename_i hl
        obtain ⟨rfl, ht⟩ := (fromBuf_iff _ _).mp h
        exact ⟨⟨Classical.byContradiction hl, ht⟩, .inl (by rw [e]; simp)⟩
      | some p =>
        obtain ⟨z, g⟩ := p
        have e' := splitOnce_some _ _ _ _ hy
        simp only [hy] at h
        split at h
        · cases h
        rename_i hl
        obtain ⟨rfl, ht⟩ := (fromBuf_iff _ _).mp h
        exact ⟨⟨Classical.byContradiction hl, ht⟩, .inr ⟨g, by rw [e, e']; simp⟩⟩
  · rintro ⟨⟨hl, ht⟩, h⟩
    have hn : 95 ∉ t := fun h => underscore_not 95 (ht 95 h) rfl
    have hlen : ¬ (t.length ≠ tokenLen) := fun h => h hl
    have hb : fromBuf t = some t := (fromBuf_iff _ _).mpr ⟨rfl, ht⟩
    rcases h with rfl | ⟨g, rfl⟩
    · simp only [parse, splitNext, splitOnce_prefix _ _ hne, splitOnce_none q t hn, ne_eq, not_true_eq_false,
        if_false]
      rw [if_neg hlen, hb]
    · have e : q ++ [95] ++ t ++ (q ++ [95]) ++ g = (q ++ [95]) ++ (t ++ (q ++ [95]) ++ g) := by
        simp only [List.append_assoc]
      rw [e]
      simp only [parse, splitNext, splitOnce_prefix _ _ hne, splitOnce_after q hq t g hn, ne_eq,
        not_true_eq_false, if_false]
      rw [if_neg hlen, hb]

theorem user_eq : userPrefix = [97, 98, 113, 115] ++ [95] := rfl
theorem admin_eq : adminPrefix = [97, 98, 113, 97, 100, 109, 105, 110] ++ [95] := rfl

theorem parseUser_iff (s t : List Byte) : parseUser s = some t ↔
    IsToken t ∧ (s = userPrefix ++ t ∨ ∃ g, s = userPrefix ++ t ++ userPrefix ++ g) :=
  parse_iff [97, 98, 113, 115] (by decide) s t

theorem parseAdmin_iff (s t : List Byte) : parseAdmin s = some t ↔
    IsToken t ∧ (s = adminPrefix ++ t ∨ ∃ g, s = adminPrefix ++ t ++ adminPrefix ++ g) :=
  parse_iff [97, 98, 113, 97, 100, 109, 105, 110] (by decide) s t

theorem verify_tokens (u a stream : List Byte) (hu : u.length = 30) (ha : a.length = 30) (r : Role) (rest : List Byte) :
    (ServerAuth.tokens u a).verify stream = .ok (r, rest) ↔
      (r = .client ∧ stream = u ++ rest) ∨ (r = .admin ∧ u ≠ a ∧ stream = a ++ rest) := by
  have hd : (ServerAuth.tokens u a).verify stream = if stream.length < 30 then .error .unexpectedEof
      else (verifyHelp (stream.take 30) u a).map fun r => (r, stream.drop 30) := rfl
  rw [hd]
  by_cases h : stream.length < 30
  · rw [if_pos h]
    constructor
    · intro e; cases e
    · rintro (⟨-, rfl⟩ | ⟨-, -, rfl⟩) <;> simp [hu, ha] at h <;> omega
  · rw [if_neg h]
    have hsplit : stream = stream.take 30 ++ stream.drop 30 := (List.take_append_drop 30 stream).symm
    have hlen : (stream.take 30).length = 30 := by rw [List.length_take]; omega
    generalize stream.take 30 = x at *
    generalize stream.drop 30 = y at *
    subst hsplit
    have hx : ∀ z : List Byte, z.length = 30 → (x ++ y = z ++ rest ↔ x = z ∧ y = rest) := by
      intro z hz
      constructor
      · intro e; exact List.append_inj e (by omega)
      · rintro ⟨rfl, rfl⟩; rfl
    rw [hx u hu, hx a ha]
    unfold verifyHelp
    split
    · rename_i h1; subst h1
      simp only [Except.map, Except.ok.injEq, Prod.mk.injEq]
      constructor
      · rintro ⟨rfl, rfl⟩; exact .inl ⟨rfl, trivial, rfl⟩
      · rintro (⟨rfl, -, rfl⟩ | ⟨-, h, h', -⟩)
        · exact ⟨rfl, rfl⟩
        · exact absurd h' h
    · rename_i h1
      split
      · rename_i h2; subst h2
        simp only [Except.map, Except.ok.injEq, Prod.mk.injEq]
        constructor
        · rintro ⟨rfl, rfl⟩; exact .inr ⟨rfl, fun h => h1 h.symm, trivial, rfl⟩
        · rintro (⟨-, h, -⟩ | ⟨rfl, -, -, rfl⟩)
          · exact absurd h h1
          · exact ⟨rfl, rfl⟩
      · rename_i h2
        constructor
        · intro e; cases e
        · rintro (⟨-, h, -⟩ | ⟨-, -, h, -⟩)
          · exact absurd h h1
          · exact absurd h h2

end Abq.Auth
