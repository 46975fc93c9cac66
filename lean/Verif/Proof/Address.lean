import Verif.Spec.Address
/-!
# Helpers: addresses
-/

namespace Abq.Address
open Abq.Spec.Address

/-! ## Digits -/

theorem toDigit_iff {r : Nat} (hr : r ≤ 16) (c : Char) (d : Nat) : toDigit r c = some d ↔ Digit r c d := by
  have key : ∀ m : Nat, ∀ x : Char, x.toNat = m → c.toNat = m → c = x := by
    intro m x hx hc
    exact Char.toNat_inj.1 (hc.trans hx.symm)
  constructor
  · intro h
    simp only [toDigit, Option.filter_eq_some_iff, decide_eq_true_eq] at h
    obtain ⟨h, hlt⟩ := h
    refine ⟨hlt, ?_⟩
    have hd : d < 16 := Nat.lt_of_lt_of_le hlt hr
    split at h
    · rename_i hn
      simp only [Option.some.injEq] at h
      left
      have h10 : c.toNat = 48 + d := by omega
      have hd : d < 10 := by omega
      clear h hn hlt
      match d, hd with
      | 0, _ => rw [key _ '0' rfl h10]; rfl
      | 1, _ => rw [key _ '1' rfl h10]; rfl
      | 2, _ => rw [key _ '2' rfl h10]; rfl
      | 3, _ => rw [key _ '3' rfl h10]; rfl
      | 4, _ => rw [key _ '4' rfl h10]; rfl
      | 5, _ => rw [key _ '5' rfl h10]; rfl
      | 6, _ => rw [key _ '6' rfl h10]; rfl
      | 7, _ => rw [key _ '7' rfl h10]; rfl
      | 8, _ => rw [key _ '8' rfl h10]; rfl
      | 9, _ => rw [key _ '9' rfl h10]; rfl
    · split at h
      · rename_i hn
        simp only [Option.some.injEq] at h
        left
        have h10 : c.toNat = 87 + d := by omega
        obtain ⟨e, rfl⟩ : ∃ e, d = e + 10 := ⟨d - 10, by omega⟩
        have hd : e < 6 := by omega
        clear h hn hlt
        match e, hd with
        | 0, _ => rw [key _ 'a' rfl h10]; rfl
        | 1, _ => rw [key _ 'b' rfl h10]; rfl
        | 2, _ => rw [key _ 'c' rfl h10]; rfl
        | 3, _ => rw [key _ 'd' rfl h10]; rfl
        | 4, _ => rw [key _ 'e' rfl h10]; rfl
        | 5, _ => rw [key _ 'f' rfl h10]; rfl
      · split at h
        · rename_i hn
          simp only [Option.some.injEq] at h
          right
          have h10 : c.toNat = 55 + d := by omega
          obtain ⟨e, rfl⟩ : ∃ e, d = e + 10 := ⟨d - 10, by omega⟩
          have hd : e < 6 := by omega
          clear h hn hlt
          match e, hd with
          | 0, _ => rw [key _ 'A' rfl h10]; rfl
          | 1, _ => rw [key _ 'B' rfl h10]; rfl
          | 2, _ => rw [key _ 'C' rfl h10]; rfl
          | 3, _ => rw [key _ 'D' rfl h10]; rfl
          | 4, _ => rw [key _ 'E' rfl h10]; rfl
          | 5, _ => rw [key _ 'F' rfl h10]; rfl
        · cases h
  · rintro ⟨hlt, h⟩
    have hd : d < 16 := Nat.lt_of_lt_of_le hlt hr
    have step : ∀ x : Char, ∀ e : Nat, e < r → toDigit 16 x = some e → toDigit r x = some e := by
      intro x e he hx
      simp only [toDigit, Option.filter_eq_some_iff, decide_eq_true_eq] at hx ⊢
      exact ⟨hx.1, he⟩
    apply step c d hlt
    clear step hlt
    match d, hd with
    | 0, _ => rcases h with h | h <;> cases h <;> rfl
    | 1, _ => rcases h with h | h <;> cases h <;> rfl
    | 2, _ => rcases h with h | h <;> cases h <;> rfl
    | 3, _ => rcases h with h | h <;> cases h <;> rfl
    | 4, _ => rcases h with h | h <;> cases h <;> rfl
    | 5, _ => rcases h with h | h <;> cases h <;> rfl
    | 6, _ => rcases h with h | h <;> cases h <;> rfl
    | 7, _ => rcases h with h | h <;> cases h <;> rfl
    | 8, _ => rcases h with h | h <;> cases h <;> rfl
    | 9, _ => rcases h with h | h <;> cases h <;> rfl
    | 10, _ => rcases h with h | h <;> cases h <;> rfl
    | 11, _ => rcases h with h | h <;> cases h <;> rfl
    | 12, _ => rcases h with h | h <;> cases h <;> rfl
    | 13, _ => rcases h with h | h <;> cases h <;> rfl
    | 14, _ => rcases h with h | h <;> cases h <;> rfl
    | 15, _ => rcases h with h | h <;> cases h <;> rfl

/-- Whether a character is a digit. -/
def isDig (r : Nat) (c : Char) : Bool := (toDigit r c).isSome

/-- The values of digits. -/
def vals (r : Nat) (cs : List Char) : List Nat := cs.filterMap (toDigit r)

theorem readDigits_eq (r : Nat) (s : List Char) :
    readDigits r s = (vals r (s.takeWhile (isDig r)), s.dropWhile (isDig r)) := by
  induction s with
  | nil => rfl
  | cons c cs ih =>
    simp only [readDigits]
    cases h : toDigit r c with
    | none => simp [isDig, h, vals]
    | some d => simp [isDig, h, vals, ih]

theorem vals_length {r : Nat} {cs : List Char} (h : ∀ c ∈ cs, isDig r c) : (vals r cs).length = cs.length := by
  induction cs with
  | nil => rfl
  | cons c cs ih =>
    have hc := h c (by simp)
    simp only [isDig, Option.isSome_iff_exists] at hc
    obtain ⟨d, hd⟩ := hc
    have := ih fun c hc => h c (by simp [hc])
    unfold vals at this ⊢
    rw [List.filterMap_cons_some hd, List.length_cons, this, List.length_cons]

/-- The value of digits. -/
def value (r : Nat) (cs : List Char) : Nat := (vals r cs).foldl (fun n d => n * r + d) 0

theorem numeral_iff {r : Nat} (hr : r ≤ 16) (cs : List Char) (n : Nat) :
    Numeral r cs n ↔ cs ≠ [] ∧ (∀ c ∈ cs, isDig r c) ∧ value r cs = n := by
  constructor
  · intro h
    induction h with
    | one h =>
      have := (toDigit_iff hr _ _).2 h
      simp [isDig, value, vals, this]
    | more _ h ih =>
      have hd := (toDigit_iff hr _ _).2 h
      obtain ⟨h1, h2, h3⟩ := ih
      refine ⟨by simp, ?_, ?_⟩
      · intro c hc
        simp only [List.mem_append, List.mem_singleton] at hc
        rcases hc with hc | rfl
        · exact h2 c hc
        · simp [isDig, hd]
      · simp only [value, vals, List.filterMap_append, List.foldl_append] at h3 ⊢
        rw [h3]
        simp [hd]
  · rintro ⟨h1, h2, rfl⟩
    have key : ∀ k, ∀ cs : List Char, cs.length = k + 1 → (∀ c ∈ cs, isDig r c) → Numeral r cs (value r cs) := by
      intro k
      induction k with
      | zero =>
        intro cs hl h
        match cs, hl with
        | [c], _ =>
          have hc := h c (by simp)
          simp only [isDig, Option.isSome_iff_exists] at hc
          obtain ⟨d, hd⟩ := hc
          have : value r [c] = d := by simp [value, vals, hd]
          rw [this]
          exact .one ((toDigit_iff hr _ _).1 hd)
      | succ k ih =>
        intro cs hl h
        rcases List.eq_nil_or_concat cs with rfl | ⟨l, c, rfl⟩
        · cases hl
        · simp only [List.concat_eq_append, List.length_append, List.length_singleton] at hl h ⊢
          have hc := h c (by simp)
          simp only [isDig, Option.isSome_iff_exists] at hc
          obtain ⟨d, hd⟩ := hc
          have : value r (l ++ [c]) = value r l * r + d := by
            simp only [value, vals, List.filterMap_append, List.foldl_append]
            simp [hd]
          rw [this]
          exact .more (ih l (by omega) fun c hc => h c (by simp [hc])) ((toDigit_iff hr _ _).1 hd)
    refine key (cs.length - 1) cs ?_ h2
    have : cs.length ≠ 0 := by simpa using h1
    omega

/-- The rest of the text does not go on with a digit. -/
def Stops (r : Nat) (rest : List Char) : Prop := ∀ c, rest.head? = some c → isDig r c = false

theorem take_of_stops {r : Nat} {cs rest : List Char} (h : ∀ c ∈ cs, isDig r c) (hs : Stops r rest) :
    (cs ++ rest).takeWhile (isDig r) = cs ∧ (cs ++ rest).dropWhile (isDig r) = rest := by
  induction cs with
  | nil =>
    cases rest with
    | nil => simp
    | cons c _ => have := hs c rfl; simp [this]
  | cons c cs ih =>
    have hc := h c (by simp)
    have := ih fun c hc => h c (by simp [hc])
    simp [hc, this]

theorem stops_dropWhile (r : Nat) (s : List Char) : Stops r (s.dropWhile (isDig r)) := by
  intro c hc
  induction s with
  | nil => cases hc
  | cons x xs ih =>
    by_cases h : isDig r x = true
    · rw [List.dropWhile_cons_of_pos h] at hc; exact ih hc
    · rw [List.dropWhile_cons_of_neg h] at hc
      simp only [List.head?_cons, Option.some.injEq] at hc
      subst hc
      simpa using h

theorem mem_takeWhile {r : Nat} {s : List Char} : ∀ c ∈ s.takeWhile (isDig r), isDig r c := by
  induction s with
  | nil => intro c hc; cases hc
  | cons x xs ih =>
    intro c hc
    by_cases h : isDig r x = true
    · rw [List.takeWhile_cons_of_pos h] at hc
      simp only [List.mem_cons] at hc
      rcases hc with rfl | hc
      · exact h
      · exact ih c hc
    · rw [List.takeWhile_cons_of_neg h] at hc
      cases hc

theorem readNumber_iff {r : Nat} (hr : r ≤ 16) (md : Option Nat) (zp : Bool) (max : Nat) (s : List Char) (n : Nat) (rest : List Char) :
    readNumber r md zp max s = some (n, rest) ↔
      ∃ cs, s = cs ++ rest ∧ Numeral r cs n ∧ Stops r rest ∧ (∀ k, md = some k → cs.length ≤ k) ∧
        (zp = false → cs.head? = some '0' → cs.length = 1) ∧ n ≤ max := by
  constructor
  · intro h
    simp only [readNumber, readDigits_eq] at h
    rw [vals_length mem_takeWhile] at h
    have hv : List.foldl (fun n d => n * r + d) 0 (vals r (s.takeWhile (isDig r))) = value r (s.takeWhile (isDig r)) := rfl
    rw [hv] at h
    split at h
    · cases h
    · rename_i h1
      split at h
      · cases h
      · rename_i h2
        split at h
        · cases h
        · rename_i h3
          split at h
          · rename_i h4
            simp only [Option.some.injEq, Prod.mk.injEq] at h
            obtain ⟨rfl, rfl⟩ := h
            have hne : s.takeWhile (isDig r) ≠ [] := by
              intro e; rw [e] at h1; exact h1 rfl
            have hs : s = s.takeWhile (isDig r) ++ s.dropWhile (isDig r) := by simp
            refine ⟨s.takeWhile (isDig r), hs, (numeral_iff hr _ _).2 ⟨hne, mem_takeWhile, rfl⟩,
              stops_dropWhile r s, ?_, ?_, h4⟩
            · rintro k rfl
              simp only [Option.any_some, decide_eq_true_eq] at h2
              omega
            · intro hz h0
              have hh : s.head? = some '0' := by
                rw [hs, List.head?_append, h0]; rfl
              have : ¬ 1 < (s.takeWhile (isDig r)).length := fun hl => h3 ⟨hz, hh, hl⟩
              have : (s.takeWhile (isDig r)).length ≠ 0 := by simpa using hne
              omega
          · cases h
  · rintro ⟨cs, rfl, hn, hs, hk, hz, hm⟩
    obtain ⟨h1, h2, h3⟩ := (numeral_iff hr _ _).1 hn
    obtain ⟨ht, hd⟩ := take_of_stops h2 hs
    simp only [readNumber, readDigits_eq, ht, hd, vals_length h2]
    have hv : List.foldl (fun n d => n * r + d) 0 (vals r cs) = n := h3
    rw [hv]
    have hl : cs.length ≠ 0 := by simpa using h1
    rw [if_neg, if_neg, if_neg, if_pos hm]
    · rintro ⟨hz', h0, hl1⟩
      have h0' : cs.head? = some '0' := by
        cases cs with
        | nil => exact absurd rfl h1
        | cons c cs => simpa using h0
      have := hz hz' h0'
      omega
    · cases md with
      | none => simp
      | some k =>
        have := hk k rfl
        simp only [Option.any_some, decide_eq_true_eq]
        omega
    · intro e
      have := vals_length h2
      rw [e] at this
      exact hl this.symm

theorem isDig_mono {c : Char} (h : isDig 10 c) : isDig 16 c := by
  simp only [isDig, Option.isSome_iff_exists, toDigit, Option.filter_eq_some_iff, decide_eq_true_eq] at h ⊢
  obtain ⟨d, h, hd⟩ := h
  exact ⟨d, h, by omega⟩

theorem stops_mono {rest : List Char} (h : Stops 16 rest) : Stops 10 rest := by
  intro c hc
  have := h c hc
  cases h10 : isDig 10 c with
  | false => rfl
  | true => rw [isDig_mono h10] at this; cases this

theorem numeral_digits {r : Nat} (hr : r ≤ 16) {cs : List Char} {n : Nat} (h : Numeral r cs n) : ∀ c ∈ cs, isDig r c :=
  ((numeral_iff hr _ _).1 h).2.1

theorem numeral_ne {r : Nat} {cs : List Char} {n : Nat} (h : Numeral r cs n) : cs ≠ [] := by
  cases h <;> simp

theorem numeral_lt {r : Nat} {cs : List Char} {n : Nat} (h : Numeral r cs n) : n < r ^ cs.length := by
  induction h with
  | one h => simpa using h.1
  | @more cs n c d _ h ih =>
    rw [List.length_append, List.length_singleton, Nat.pow_succ]
    calc n * r + d < n * r + r := by have := h.1; omega
      _ = (n + 1) * r := by rw [Nat.add_mul, Nat.one_mul]
      _ ≤ r ^ cs.length * r := Nat.mul_le_mul_right r ih

theorem stops_cons {r : Nat} {c : Char} {s : List Char} (h : isDig r c = false) : Stops r (c :: s) := by
  intro x hx
  simp only [List.head?_cons, Option.some.injEq] at hx
  subst hx
  exact h

theorem stops_nil {r : Nat} : Stops r [] := fun _ h => by cases h

/-! ## IPv4 -/

theorem readChar_iff (c : Char) (s rest : List Char) : readChar c s = some ((), rest) ↔ s = c :: rest := by
  cases s with
  | nil => simp [readChar]
  | cons x xs =>
    simp only [readChar]
    split
    · rename_i h; subst h; simp
    · rename_i h; simp [h]

theorem readChar_bind {α : Type} (c : Char) (s : List Char) (f : List Char → Option α) (y : α) :
    ((readChar c s).bind fun r => f r.2) = some y ↔ ∃ t, s = c :: t ∧ f t = some y := by
  cases s with
  | nil => simp [readChar]
  | cons x xs =>
    simp only [readChar]
    split
    · rename_i h; subst h; simp
    · rename_i h; simp [h]

theorem readOctet_zero (s : List Char) (n : Nat) (rest : List Char) :
    readOctet 0 s = some (n, rest) ↔ ∃ cs, s = cs ++ rest ∧ Octet cs n ∧ Stops 10 rest := by
  unfold readOctet readSep
  rw [if_neg (by decide), readNumber_iff (by decide)]
  constructor
  · rintro ⟨cs, h1, h2, h3, h4, h5, h6⟩
    exact ⟨cs, h1, ⟨h2, h4 3 rfl, h6, h5 rfl⟩, h3⟩
  · rintro ⟨cs, h1, ⟨h2, h4, h6, h5⟩, h3⟩
    exact ⟨cs, h1, h2, h3, (by rintro k hk; cases hk; exact h4), fun _ => h5, h6⟩

theorem readOctet_succ (i : Nat) (s : List Char) (n : Nat) (rest : List Char) :
    readOctet (i + 1) s = some (n, rest) ↔ ∃ cs, s = '.' :: cs ++ rest ∧ Octet cs n ∧ Stops 10 rest := by
  have h0 : readOctet (i + 1) s = (readChar '.' s).bind fun r => readOctet 0 r.2 := by
    unfold readOctet readSep
    rw [if_pos (by omega)]
    rfl
  rw [h0, readChar_bind]
  constructor
  · rintro ⟨t, rfl, h⟩
    obtain ⟨cs, rfl, h1⟩ := (readOctet_zero ..).1 h
    exact ⟨cs, rfl, h1⟩
  · rintro ⟨cs, rfl, h⟩
    exact ⟨cs ++ rest, rfl, (readOctet_zero ..).2 ⟨cs, rfl, h⟩⟩

theorem isDig_dot (r : Nat) : isDig r '.' = false := rfl
theorem isDig_colon (r : Nat) : isDig r ':' = false := rfl

theorem readV4_iff (s : List Char) (ip : V4) (rest : List Char) :
    readV4 s = some (ip, rest) ↔ ∃ cs, s = cs ++ rest ∧ Dotted cs ip ∧ Stops 10 rest := by
  unfold readV4
  constructor
  · intro h
    simp only [Option.bind_eq_some_iff, Option.map_eq_some_iff] at h
    obtain ⟨⟨a, r1⟩, ha, ⟨b, r2⟩, hb, ⟨c, r3⟩, hc, ⟨d, r4⟩, hd, he⟩ := h
    simp only [Prod.mk.injEq] at he
    obtain ⟨rfl, rfl⟩ := he
    obtain ⟨ca, rfl, oa, _⟩ := (readOctet_zero ..).1 ha
    obtain ⟨cb, rfl, ob, _⟩ := (readOctet_succ ..).1 hb
    obtain ⟨cc, rfl, oc, _⟩ := (readOctet_succ ..).1 hc
    obtain ⟨cd, rfl, od, hs⟩ := (readOctet_succ ..).1 hd
    exact ⟨ca ++ '.' :: cb ++ '.' :: cc ++ '.' :: cd, by simp, ⟨ca, cb, cc, cd, oa, ob, oc, od, rfl⟩, hs⟩
  · rintro ⟨cs, rfl, ⟨a, b, c, d, oa, ob, oc, od, rfl⟩, hs⟩
    have h4 := (readOctet_succ 2 ('.' :: d ++ rest) ip.d rest).2 ⟨d, rfl, od, hs⟩
    have h3 := (readOctet_succ 1 ('.' :: c ++ ('.' :: d ++ rest)) ip.c _).2 ⟨c, rfl, oc, stops_cons (isDig_dot _)⟩
    have h2 := (readOctet_succ 0 ('.' :: b ++ ('.' :: c ++ ('.' :: d ++ rest))) ip.b _).2 ⟨b, rfl, ob, stops_cons (isDig_dot _)⟩
    have h1 := (readOctet_zero (a ++ ('.' :: b ++ ('.' :: c ++ ('.' :: d ++ rest)))) ip.a _).2 ⟨a, rfl, oa, stops_cons (isDig_dot _)⟩
    have e : a ++ '.' :: b ++ '.' :: c ++ '.' :: d ++ rest = a ++ ('.' :: b ++ ('.' :: c ++ ('.' :: d ++ rest))) := by simp
    rw [e, h1]
    simp only [Option.bind_some]
    rw [h2]
    simp only [Option.bind_some]
    rw [h3]
    simp only [Option.bind_some]
    rw [h4]
    rfl

/-- Digits, and what comes after them, say no IPv4 address if no dot comes. -/
theorem readV4_none {cs rest : List Char} (h : ∀ c ∈ cs, isDig 16 c) (hs : Stops 16 rest) (hd : rest.head? ≠ some '.') :
    readV4 (cs ++ rest) = none := by
  cases hv : readV4 (cs ++ rest) with
  | none => rfl
  | some x =>
    obtain ⟨ip, r⟩ := x
    obtain ⟨ds, he, ⟨a, b, c, d, oa, _, _, _, rfl⟩, _⟩ := (readV4_iff ..).1 hv
    have ha : ∀ c ∈ a, isDig 16 c := fun c hc => isDig_mono (numeral_digits (by decide) oa.1 c hc)
    have h1 := (take_of_stops h hs).2
    have h2 := (take_of_stops (rest := '.' :: (b ++ '.' :: c ++ '.' :: d ++ r)) ha (stops_cons (isDig_dot _))).2
    have e : a ++ '.' :: b ++ '.' :: c ++ '.' :: d ++ r = a ++ '.' :: (b ++ '.' :: c ++ '.' :: d ++ r) := by simp
    rw [he, e, h2] at h1
    rw [← h1] at hd
    exact absurd rfl hd

/-! ## IPv6 -/

theorem readGroup_iff (s : List Char) (g : Nat) (rest : List Char) :
    readNumber 16 (some 4) true 65535 s = some (g, rest) ↔ ∃ cs, s = cs ++ rest ∧ Group cs g ∧ Stops 16 rest := by
  rw [readNumber_iff (by decide)]
  constructor
  · rintro ⟨cs, h1, h2, h3, h4, _, _⟩
    exact ⟨cs, h1, ⟨h2, h4 4 rfl⟩, h3⟩
  · rintro ⟨cs, h1, ⟨h2, h4⟩, h3⟩
    refine ⟨cs, h1, h2, h3, (by rintro k hk; cases hk; exact h4), (fun h => by cases h), ?_⟩
    have h := numeral_lt h2
    have : 16 ^ cs.length ≤ 16 ^ 4 := Nat.pow_le_pow_right (by decide) h4
    have : (16 : Nat) ^ 4 = 65536 := by decide
    omega

theorem groups_true {v : Bool} {cs : List Char} {gs : List Nat} (h : Groups v cs gs) : Groups true cs gs := by
  induction h with
  | one h => exact .one h
  | dotted _ h => exact .dotted rfl h
  | more h _ ih => exact .more h ih

theorem groups_of_false {v : Bool} {cs : List Char} {gs : List Nat} (h : Groups false cs gs) : Groups v cs gs := by
  induction h with
  | one h => exact .one h
  | dotted h _ => cases h
  | more h _ ih => exact .more h ih

theorem groups_ne {v : Bool} {cs : List Char} {gs : List Nat} (h : Groups v cs gs) : gs ≠ [] := by
  cases h <;> simp

theorem side_true {v : Bool} {cs : List Char} {gs : List Nat} (h : Side v cs gs) : Side true cs gs :=
  h.imp id groups_true

theorem readSep_zero {α : Type} (c : Char) (inner : Reader α) (s : List Char) : readSep c 0 inner s = inner s := rfl

theorem readSep_succ {α : Type} (c : Char) (i : Nat) (inner : Reader α) (s : List Char) (y : α × List Char) :
    readSep c (i + 1) inner s = some y ↔ ∃ t, s = c :: t ∧ inner t = some y := by
  unfold readSep
  rw [if_pos (by omega)]
  exact readChar_bind c s inner y

theorem readSep_succ_none {α : Type} (c : Char) (i : Nat) (inner : Reader α) (s : List Char)
    (h : ∀ t, s = c :: t → inner t = none) : readSep c (i + 1) inner s = none := by
  cases hv : readSep c (i + 1) inner s with
  | none => rfl
  | some y =>
    obtain ⟨t, ht, hy⟩ := (readSep_succ ..).1 hv
    rw [h t ht] at hy
    cases hy

/-- What stands before group `i`. -/
def sep (i : Nat) (cs : List Char) : List Char := if i = 0 then cs else ':' :: cs

theorem readSep_iff {α : Type} (i : Nat) (inner : Reader α) (s : List Char) (y : α × List Char) :
    readSep ':' i inner s = some y ↔ ∃ t, s = sep i t ∧ inner t = some y := by
  cases i with
  | zero => simp [readSep_zero, sep]
  | succ i => rw [readSep_succ]; simp [sep]

theorem sep_append (i : Nat) (a b : List Char) : sep i (a ++ b) = sep i a ++ b := by
  unfold sep; split <;> rfl

/-- What `readGroups` takes is groups. -/
theorem readGroups_sound : ∀ (left i : Nat) (s : List Char) (gs : List Nat) (v : Bool) (rest : List Char),
    readGroups left i s = (gs, v, rest) → gs.length ≤ left ∧
      ((gs = [] ∧ v = false ∧ rest = s) ∨ ∃ cs, Groups v cs gs ∧ s = sep i cs ++ rest) := by
  intro left
  induction left with
  | zero =>
    intro i s gs v rest h
    simp only [readGroups, Prod.mk.injEq] at h
    obtain ⟨rfl, rfl, rfl⟩ := h
    exact ⟨Nat.le_refl _, .inl ⟨rfl, rfl, rfl⟩⟩
  | succ left ih =>
    intro i s gs v rest h
    simp only [readGroups] at h
    cases hv : (if 0 < left then readSep ':' i readV4 s else none) with
    | some y =>
      obtain ⟨ip, r⟩ := y
      rw [hv] at h
      simp only [Prod.mk.injEq] at h
      obtain ⟨rfl, rfl, rfl⟩ := h
      split at hv
      · rename_i hl
        obtain ⟨t, rfl, ht⟩ := (readSep_iff ..).1 hv
        obtain ⟨cs, rfl, hd, _⟩ := (readV4_iff ..).1 ht
        refine ⟨by simp only [List.length_cons, List.length_nil]; omega, .inr ⟨cs, .dotted rfl hd, sep_append ..⟩⟩
      · cases hv
    | none =>
      rw [hv] at h
      simp only at h
      cases hg : readSep ':' i (readNumber 16 (some 4) true 65535) s with
      | none =>
        rw [hg] at h
        simp only [Prod.mk.injEq] at h
        obtain ⟨rfl, rfl, rfl⟩ := h
        exact ⟨by simp, .inl ⟨rfl, rfl, rfl⟩⟩
      | some y =>
        obtain ⟨g, r⟩ := y
        rw [hg] at h
        simp only [Prod.mk.injEq] at h
        obtain ⟨t, rfl, ht⟩ := (readSep_iff ..).1 hg
        obtain ⟨cs, rfl, hgr, _⟩ := (readGroup_iff ..).1 ht
        obtain ⟨rfl, h2⟩ := h
        have := ih (i + 1) r (readGroups left (i + 1) r).1 v rest (Prod.ext rfl h2)
        refine ⟨by simpa using this.1, .inr ?_⟩
        rcases this.2 with ⟨h3, rfl, rfl⟩ | ⟨ds, h3, h4⟩
        · rw [h3]
          exact ⟨cs, .one hgr, sep_append ..⟩
        · refine ⟨cs ++ ':' :: ds, .more hgr h3, ?_⟩
          rw [sep_append, sep_append]
          have : sep (i + 1) ds = ':' :: ds := rfl
          rw [h4, this]
          simp

/-- What comes after groups: no digit, no dot, and no colon with a digit after it. -/
def After (rest : List Char) : Prop :=
  Stops 16 rest ∧ rest.head? ≠ some '.' ∧ ∀ t, rest = ':' :: t → Stops 16 t ∧ t.head? ≠ some '.'

theorem readNumber_none {r : Nat} (hr : r ≤ 16) {md zp max} {s : List Char} (h : Stops r s) : readNumber r md zp max s = none := by
  cases hv : readNumber r md zp max s with
  | none => rfl
  | some y =>
    obtain ⟨n, rest⟩ := y
    obtain ⟨cs, rfl, hn, _⟩ := (readNumber_iff hr ..).1 hv
    cases cs with
    | nil => exact absurd rfl (numeral_ne hn)
    | cons c cs =>
      have h1 := h c rfl
      rw [numeral_digits hr hn c (by simp)] at h1
      cases h1

theorem readV4_stop {s : List Char} (h : Stops 16 s) (hd : s.head? ≠ some '.') : readV4 s = none :=
  readV4_none (cs := []) (by simp) h hd

theorem readGroups_stop (left : Nat) {i : Nat} {rest : List Char} (h : After rest) : readGroups left i rest = ([], false, rest) := by
  cases left with
  | zero => rfl
  | succ left =>
    have h4 : readSep ':' i readV4 rest = none := by
      cases i with
      | zero => exact readV4_stop h.1 h.2.1
      | succ i => exact readSep_succ_none _ _ _ _ fun t ht => readV4_stop (h.2.2 t ht).1 (h.2.2 t ht).2
    have hg : readSep ':' i (readNumber 16 (some 4) true 65535) rest = none := by
      cases i with
      | zero => exact readNumber_none (by decide) h.1
      | succ i => exact readSep_succ_none _ _ _ _ fun t ht => readNumber_none (by decide) (h.2.2 t ht).1
    have h4' : (if 0 < left then readSep ':' i readV4 rest else none) = none := by split <;> simp [h4]
    simp only [readGroups]
    rw [h4', hg]

/-- Groups are read as such. -/
theorem readGroups_complete {v : Bool} {cs : List Char} {gs : List Nat} (h : Groups v cs gs) :
    ∀ (left i : Nat) (rest : List Char), gs.length ≤ left → After rest →
      ∃ w, readGroups left i (sep i cs ++ rest) = (gs, w, rest) ∧ (v = false → w = false) := by
  have group : ∀ {left i : Nat} {cs r : List Char} {g : Nat}, Group cs g → Stops 16 r → r.head? ≠ some '.' →
      readGroups (left + 1) i (sep i cs ++ r) = (g :: (readGroups left (i + 1) r).1, (readGroups left (i + 1) r).2) := by
    intro left i cs r g hg hs hd
    have h4 : readV4 (cs ++ r) = none := readV4_none (numeral_digits (by decide) hg.1) hs hd
    have h4' : readSep ':' i readV4 (sep i cs ++ r) = none := by
      rw [← sep_append]
      cases i with
      | zero => exact h4
      | succ i =>
        refine readSep_succ_none _ _ _ _ fun t ht => ?_
        have e : sep (i + 1) (cs ++ r) = ':' :: (cs ++ r) := rfl
        rw [e] at ht
        cases ht
        exact h4
    have hn : readSep ':' i (readNumber 16 (some 4) true 65535) (sep i cs ++ r) = some (g, r) := by
      rw [← sep_append]
      exact (readSep_iff ..).2 ⟨_, rfl, (readGroup_iff ..).2 ⟨cs, rfl, hg, hs⟩⟩
    have h5 : (if 0 < left then readSep ':' i readV4 (sep i cs ++ r) else none) = none := by split <;> simp [h4']
    simp only [readGroups]
    rw [h5, hn]
  induction h with
  | one hg =>
    intro left i rest hl ha
    obtain ⟨left, rfl⟩ : ∃ k, left = k + 1 := ⟨left - 1, by simp at hl; omega⟩
    refine ⟨false, ?_, fun _ => rfl⟩
    rw [group hg ha.1 ha.2.1, readGroups_stop _ ha]
  | @dotted cs ip hv hd =>
    intro left i rest hl ha
    obtain ⟨left, rfl⟩ : ∃ k, left = k + 1 := ⟨left - 1, by simp at hl; omega⟩
    refine ⟨true, ?_, fun h => by rw [hv] at h; cases h⟩
    have h4 : readSep ':' i readV4 (sep i cs ++ rest) = some (ip, rest) := by
      rw [← sep_append]
      exact (readSep_iff ..).2 ⟨_, rfl, (readV4_iff ..).2 ⟨cs, rfl, hd, stops_mono ha.1⟩⟩
    simp only [readGroups]
    rw [if_pos (by simp at hl; omega), h4]
  | @more cs g ds gs hg _ ih =>
    intro left i rest hl ha
    obtain ⟨left, rfl⟩ : ∃ k, left = k + 1 := ⟨left - 1, by simp at hl; omega⟩
    obtain ⟨w, hw, hf⟩ := ih left (i + 1) rest (by simpa using hl) ha
    refine ⟨w, ?_, hf⟩
    have e : sep i (cs ++ ':' :: ds) ++ rest = sep i cs ++ (sep (i + 1) ds ++ rest) := by
      rw [sep_append]
      have : sep (i + 1) ds = ':' :: ds := rfl
      rw [this]; simp
    have hst : Stops 16 (sep (i + 1) ds ++ rest) := stops_cons (isDig_colon _)
    have hdot : (sep (i + 1) ds ++ rest).head? ≠ some '.' := by
      have : sep (i + 1) ds = ':' :: ds := rfl
      rw [this]; simp
    rw [e, group hg hst hdot, hw]

theorem side_complete {v : Bool} {cs : List Char} {gs : List Nat} (h : Side v cs gs) (left : Nat) (rest : List Char)
    (hl : gs.length ≤ left) (ha : After rest) :
    ∃ w, readGroups left 0 (cs ++ rest) = (gs, w, rest) ∧ (v = false → w = false) := by
  rcases h with ⟨rfl, rfl⟩ | h
  · exact ⟨false, readGroups_stop _ ha, fun _ => rfl⟩
  · exact readGroups_complete h left 0 rest hl ha

theorem readV6_sound {s : List Char} {segs : List Nat} {rest : List Char} (h : readV6 s = some (segs, rest)) :
    ∃ cs, s = cs ++ rest ∧ Colons cs segs := by
  simp only [readV6] at h
  obtain ⟨hl, hh⟩ := readGroups_sound 8 0 s (readGroups 8 0 s).1 (readGroups 8 0 s).2.1 (readGroups 8 0 s).2.2 rfl
  split at h
  · rename_i h8
    simp only [Option.some.injEq, Prod.mk.injEq] at h
    obtain ⟨rfl, rfl⟩ := h
    rcases hh with ⟨h0, _, _⟩ | ⟨cs, hg, hs⟩
    · rw [h0] at h8; cases h8
    · exact ⟨cs, hs, .inl ⟨groups_true hg, h8⟩⟩
  · rename_i h8
    split at h
    · cases h
    · rename_i hf
      have hf : (readGroups 8 0 s).2.1 = false := by simpa using hf
      rw [readChar_bind ':' _ (fun t => (readChar ':' t).map _)] at h
      obtain ⟨t, ht, h⟩ := h
      rw [Option.map_eq_some_iff] at h
      obtain ⟨⟨⟨⟩, u⟩, hu, h⟩ := h
      have hu := (readChar_iff ..).1 hu
      subst hu
      simp only [Prod.mk.injEq] at h
      obtain ⟨rfl, rfl⟩ := h
      obtain ⟨hl2, hh2⟩ := readGroups_sound (8 - ((readGroups 8 0 s).1.length + 1)) 0 u
        (readGroups (8 - ((readGroups 8 0 s).1.length + 1)) 0 u).1 (readGroups (8 - ((readGroups 8 0 s).1.length + 1)) 0 u).2.1
        (readGroups (8 - ((readGroups 8 0 s).1.length + 1)) 0 u).2.2 rfl
      have left : ∃ l, Side false l (readGroups 8 0 s).1 ∧ s = l ++ (readGroups 8 0 s).2.2 := by
        rcases hh with ⟨h0, _, h1⟩ | ⟨cs, hg, hs⟩
        · exact ⟨[], .inl ⟨rfl, h0⟩, by rw [h1]; rfl⟩
        · rw [hf] at hg
          exact ⟨cs, .inr hg, hs⟩
      have right : ∃ r, Side true r (readGroups (8 - ((readGroups 8 0 s).1.length + 1)) 0 u).1 ∧
          u = r ++ (readGroups (8 - ((readGroups 8 0 s).1.length + 1)) 0 u).2.2 := by
        rcases hh2 with ⟨h0, _, h1⟩ | ⟨cs, hg, hs⟩
        · exact ⟨[], .inl ⟨rfl, h0⟩, by rw [h1]; rfl⟩
        · exact ⟨cs, .inr (groups_true hg), hs⟩
      obtain ⟨l, hl3, hs3⟩ := left
      obtain ⟨r, hr4, hs4⟩ := right
      refine ⟨l ++ ':' :: ':' :: r, ?_, .inr ⟨l, r, _, _, _, hl3, hr4, rfl, ?_, ?_, rfl⟩⟩
      · rw [ht] at hs3
        rw [List.append_assoc, List.cons_append, List.cons_append, ← hs4]
        exact hs3
      · omega
      · omega

theorem readV6_complete {cs : List Char} {segs : List Nat} (h : Colons cs segs) {rest : List Char} (ha : Stops 16 rest)
    (hd : rest.head? ≠ some '.') (hc : rest.head? ≠ some ':') : readV6 (cs ++ rest) = some (segs, rest) := by
  have after : After rest := ⟨ha, hd, fun t ht => by rw [ht] at hc; exact absurd rfl hc⟩
  rcases h with ⟨hg, h8⟩ | ⟨l, r, ls, rs, k, hl, hr, rfl, h8, hk, rfl⟩
  · obtain ⟨w, hw, _⟩ := side_complete (.inr hg) 8 rest (by omega) after
    simp only [readV6]
    rw [hw]
    simp only
    rw [if_pos h8]
  · have after2 : After (':' :: ':' :: r ++ rest) :=
      ⟨stops_cons (isDig_colon _), by simp, fun t ht => by
        cases ht
        exact ⟨stops_cons (isDig_colon _), by simp⟩⟩
    have e : l ++ ':' :: ':' :: r ++ rest = l ++ (':' :: ':' :: r ++ rest) := by simp
    obtain ⟨w, hw, hf⟩ := side_complete hl 8 _ (by omega) after2
    have hf := hf rfl
    subst hf
    obtain ⟨w, hw2, _⟩ := side_complete hr (8 - (ls.length + 1)) rest (by omega) after
    simp only [readV6]
    rw [e, hw]
    simp only
    rw [if_neg (by omega), if_neg (by decide)]
    simp only [List.cons_append, readChar, if_pos, Option.bind_some, Option.map_some]
    rw [hw2]
    have hk' : 8 - rs.length - ls.length = k := by omega
    simp only [hk']

theorem colons_not_v4 {cs : List Char} {segs : List Nat} (h : Colons cs segs) : readV4 cs = none := by
  have colon : ∀ {g : Nat} {cs rest : List Char}, Group cs g → readV4 (cs ++ ':' :: rest) = none := fun hg =>
    readV4_none (numeral_digits (by decide) hg.1) (stops_cons (isDig_colon _)) (by simp)
  rcases h with ⟨hg, h8⟩ | ⟨l, r, ls, rs, k, hl, _, rfl, _⟩
  · cases hg with
    | one _ => cases h8
    | dotted _ _ => cases h8
    | more hg _ => exact colon hg
  · rcases hl with ⟨rfl, rfl⟩ | hl
    · exact readV4_stop (stops_cons (isDig_colon _)) (by simp)
    · cases hl with
      | one hg => exact colon hg
      | dotted hf _ => cases hf
      | more hg _ =>
        have e : ∀ a b c : List Char, a ++ ':' :: b ++ c = a ++ ':' :: (b ++ c) := by simp
        rw [e]
        exact colon hg

/-! ## Socket addresses -/

theorem readPort_iff (s : List Char) (n : Nat) (rest : List Char) :
    readPort s = some (n, rest) ↔ ∃ cs, s = ':' :: cs ++ rest ∧ Port cs n ∧ Stops 10 rest := by
  unfold readPort
  rw [readChar_bind ':' s (readNumber 10 none true 65535)]
  constructor
  · rintro ⟨t, rfl, h⟩
    obtain ⟨cs, rfl, h1, h2, _, _, h3⟩ := (readNumber_iff (by decide) ..).1 h
    exact ⟨cs, rfl, ⟨h1, h3⟩, h2⟩
  · rintro ⟨cs, rfl, ⟨h1, h3⟩, h2⟩
    exact ⟨_, rfl, (readNumber_iff (by decide) ..).2 ⟨cs, rfl, h1, h2, (fun _ h => by cases h), (fun h => by cases h), h3⟩⟩

theorem readScope_iff (s : List Char) (n : Nat) (rest : List Char) :
    readScope s = some (n, rest) ↔ ∃ cs, s = '%' :: cs ++ rest ∧ Numeral 10 cs n ∧ n ≤ 4294967295 ∧ Stops 10 rest := by
  unfold readScope
  rw [readChar_bind '%' s (readNumber 10 none true 4294967295)]
  constructor
  · rintro ⟨t, rfl, h⟩
    obtain ⟨cs, rfl, h1, h2, _, _, h3⟩ := (readNumber_iff (by decide) ..).1 h
    exact ⟨cs, rfl, h1, h3, h2⟩
  · rintro ⟨cs, rfl, h1, h3, h2⟩
    exact ⟨_, rfl, (readNumber_iff (by decide) ..).2 ⟨cs, rfl, h1, h2, (fun _ h => by cases h), (fun h => by cases h), h3⟩⟩

theorem whole_iff {α : Type} (r : Reader α) (s : List Char) (a : α) : whole r s = some a ↔ r s = some (a, []) := by
  unfold whole
  constructor
  · intro h
    rw [Option.bind_eq_some_iff] at h
    obtain ⟨⟨x, rest⟩, hr, h⟩ := h
    split at h
    · rename_i h0
      simp only at h0
      subst h0
      cases h
      exact hr
    · cases h
  · intro h
    rw [h]
    rfl

theorem readSockV4_iff (s : List Char) (a : Sock) : readSockV4 s = some (a, []) ↔ ∃ ip port, a = .v4 ip port ∧ Says s a := by
  unfold readSockV4
  constructor
  · intro h
    simp only [Option.bind_eq_some_iff, Option.map_eq_some_iff, Prod.mk.injEq] at h
    obtain ⟨⟨ip, r1⟩, h1, ⟨port, r2⟩, h2, rfl, h3⟩ := h
    simp only at h3 h2
    subst h3
    obtain ⟨i, rfl, hi, _⟩ := (readV4_iff ..).1 h1
    obtain ⟨p, rfl, hp, _⟩ := (readPort_iff ..).1 h2
    exact ⟨ip, port, rfl, i, p, hi, hp, by simp⟩
  · rintro ⟨ip, port, rfl, i, p, hi, hp, rfl⟩
    have h1 := (readV4_iff (i ++ ':' :: p) ip (':' :: p)).2 ⟨i, rfl, hi, stops_cons (isDig_colon _)⟩
    have h2 := (readPort_iff (':' :: p) port []).2 ⟨p, by simp, hp, stops_nil⟩
    rw [h1]
    simp only [Option.bind_some]
    rw [h2]
    rfl

theorem readSockV6_iff (s : List Char) (a : Sock) :
    readSockV6 s = some (a, []) ↔ ∃ segs port flow scope, a = .v6 segs port flow scope ∧ Says s a := by
  unfold readSockV6
  constructor
  · intro h
    simp only [Option.bind_eq_some_iff, Option.map_eq_some_iff, Prod.mk.injEq] at h
    obtain ⟨⟨⟨⟩, r0⟩, h0, ⟨segs, r1⟩, h1, ⟨⟨⟩, r2⟩, h2, ⟨port, r3⟩, h3, rfl, h4⟩ := h
    simp only at h0 h1 h2 h3 h4 ⊢
    subst h4
    have h0 := (readChar_iff ..).1 h0
    have h2 := (readChar_iff ..).1 h2
    obtain ⟨i, hi, hc⟩ := readV6_sound h1
    obtain ⟨p, hp, hport, _⟩ := (readPort_iff ..).1 h3
    refine ⟨_, _, _, _, rfl, rfl, i, ?_⟩
    cases hs : readScope r1 with
    | none =>
      rw [hs] at h2
      refine ⟨[], p, hc, .inl ⟨rfl, rfl⟩, hport, ?_⟩
      have h2 : r1 = ']' :: r2 := h2
      rw [h0, hi, h2, hp]
      simp
    | some y =>
      obtain ⟨n, r⟩ := y
      rw [hs] at h2
      have h2 : r = ']' :: r2 := h2
      obtain ⟨ds, hds, hn, hmax, _⟩ := (readScope_iff ..).1 hs
      refine ⟨'%' :: ds, p, hc, .inr ⟨ds, rfl, hn, hmax⟩, hport, ?_⟩
      rw [h0, hi, hds, h2, hp]
      simp
  · rintro ⟨segs, port, flow, scope, rfl, rfl, i, sc, p, hc, hsc, hp, rfl⟩
    have h2 := (readPort_iff (':' :: p) port []).2 ⟨p, by simp, hp, stops_nil⟩
    have hsq : isDig 10 ']' = false := rfl
    rcases hsc with ⟨rfl, rfl⟩ | ⟨ds, rfl, hn, hmax⟩
    · have h1 := readV6_complete hc (rest := ']' :: ':' :: p) (stops_cons rfl) (by simp) (by simp)
      have e : '[' :: i ++ [] ++ ']' :: ':' :: p = '[' :: (i ++ ']' :: ':' :: p) := by simp
      rw [e]
      simp only [readChar, if_pos, Option.bind_some]
      rw [h1]
      have hs : readScope (']' :: ':' :: p) = none := rfl
      simp only [Option.bind_some, hs, Option.getD_none, readChar, if_pos]
      rw [h2]
      rfl
    · have h1 := readV6_complete hc (rest := '%' :: ds ++ ']' :: ':' :: p) (stops_cons rfl) (by simp) (by simp)
      have e : '[' :: i ++ '%' :: ds ++ ']' :: ':' :: p = '[' :: (i ++ ('%' :: ds ++ ']' :: ':' :: p)) := by simp
      rw [e]
      simp only [readChar, if_pos, Option.bind_some]
      rw [h1]
      have hs : readScope ('%' :: ds ++ ']' :: ':' :: p) = some (scope, ']' :: ':' :: p) :=
        (readScope_iff ..).2 ⟨ds, rfl, hn, hmax, stops_cons hsq⟩
      simp only [Option.bind_some, hs, Option.getD_some, readChar, if_pos]
      rw [h2]
      rfl

theorem parse_iff (s : List Char) (a : Sock) : parse s = some a ↔ Says s a := by
  unfold parse
  rw [whole_iff]
  constructor
  · intro h
    cases h4 : readSockV4 s with
    | some y =>
      rw [h4] at h
      have h : some y = some (a, []) := h
      rw [h] at h4
      obtain ⟨_, _, _, h⟩ := (readSockV4_iff ..).1 h4
      exact h
    | none =>
      rw [h4, Option.none_or] at h
      obtain ⟨_, _, _, _, _, h⟩ := (readSockV6_iff ..).1 h
      exact h
  · intro h
    cases a with
    | v4 ip port =>
      rw [(readSockV4_iff s (.v4 ip port)).2 ⟨ip, port, rfl, h⟩]
      rfl
    | v6 segs port flow scope =>
      have h6 := (readSockV6_iff s (.v6 segs port flow scope)).2 ⟨_, _, _, _, rfl, h⟩
      have h4 : readSockV4 s = none := by
        obtain ⟨_, i, sc, p, _, _, _, rfl⟩ := h
        have : readV4 ('[' :: i ++ sc ++ ']' :: ':' :: p) = none := by
          have e : '[' :: i ++ sc ++ ']' :: ':' :: p = '[' :: (i ++ sc ++ ']' :: ':' :: p) := by simp
          rw [e]
          exact readV4_stop (stops_cons rfl) (by simp)
        unfold readSockV4
        rw [this]
        rfl
      rw [h4, Option.none_or]
      exact h6

theorem parseIp_iff (s : List Char) (a : Ip) : parseIp s = some a ↔ SaysIp s a := by
  unfold parseIp
  rw [whole_iff]
  have v4 : ∀ ip, readV4 s = some (ip, []) ↔ Dotted s ip := by
    intro ip
    rw [readV4_iff]
    constructor
    · rintro ⟨cs, rfl, h, _⟩; simpa using h
    · intro h; exact ⟨s, by simp, h, stops_nil⟩
  constructor
  · intro h
    cases h4 : readV4 s with
    | some y =>
      rw [h4] at h
      obtain ⟨ip, r⟩ := y
      have h : some (Ip.v4 ip, r) = some (a, []) := h
      cases h
      exact (v4 ip).1 h4
    | none =>
      rw [h4, Option.map_none, Option.none_or, Option.map_eq_some_iff] at h
      obtain ⟨⟨segs, r⟩, h6, he⟩ := h
      simp only [Prod.mk.injEq] at he
      obtain ⟨rfl, rfl⟩ := he
      obtain ⟨cs, rfl, hc⟩ := readV6_sound h6
      rw [List.append_nil]
      exact hc
  · intro h
    cases a with
    | v4 ip => rw [(v4 ip).2 h]; rfl
    | v6 segs =>
      have h : Colons s segs := h
      have h6 := readV6_complete h (rest := []) stops_nil (by simp) (by simp)
      rw [List.append_nil] at h6
      rw [colons_not_v4 h, h6]
      rfl

/-! ## What is written -/

theorem number_numeral {r : Nat} (h1 : 1 < r) (hr : r ≤ 16) (n : Nat) : Numeral r (number r n) n := by
  have digit : ∀ d, d < r → Digit r d.digitChar d := by
    intro d hd
    refine ⟨hd, .inl ?_⟩
    have all : ∀ d < 16, ['0', '1', '2', '3', '4', '5', '6', '7', '8', '9', 'a', 'b', 'c', 'd', 'e', 'f'][d]? = some d.digitChar := by
      decide
    exact all d (by omega)
  induction n using Nat.strongRecOn with
  | ind n ih =>
    unfold number at ih ⊢
    by_cases h : n < r
    · rw [Nat.toDigits_of_lt_base h]
      exact .one (digit n h)
    · have hle : r ≤ n := by omega
      rw [Nat.toDigits_of_base_le h1 hle]
      have hlt : n / r < n := Nat.div_lt_self (by omega) h1
      have := Numeral.more (ih (n / r) hlt) (digit (n % r) (Nat.mod_lt _ (by omega)))
      have e : n / r * r + n % r = n := by rw [Nat.mul_comm]; exact Nat.div_add_mod n r
      rw [e] at this
      exact this

theorem number_head {r : Nat} (h1 : 1 < r) (hr : r ≤ 16) (n : Nat) (h : (number r n).head? = some '0') : n = 0 := by
  induction n using Nat.strongRecOn with
  | ind n ih =>
    unfold number at ih h
    by_cases hn : n < r
    · rw [Nat.toDigits_of_lt_base hn] at h
      simp only [List.head?_cons, Option.some.injEq] at h
      have : n < 16 := by omega
      clear ih hn
      match n, this with
      | 0, _ => rfl
      | 1, _ | 2, _ | 3, _ | 4, _ | 5, _ | 6, _ | 7, _ | 8, _ | 9, _ | 10, _ | 11, _ | 12, _ | 13, _ | 14, _ | 15, _ =>
        exact absurd h (by decide)
    · have hle : r ≤ n := by omega
      rw [Nat.toDigits_of_base_le h1 hle, List.head?_append] at h
      have hne : Nat.toDigits r (n / r) ≠ [] := Nat.toDigits_ne_nil
      have hlt : n / r < n := Nat.div_lt_self (by omega) h1
      have h0 : (Nat.toDigits r (n / r)).head? = some '0' := by
        cases hd : (Nat.toDigits r (n / r)).head? with
        | none => exact absurd (List.head?_eq_none_iff.1 hd) hne
        | some c => rw [hd] at h; exact h
      have := ih (n / r) hlt h0
      have : 0 < n / r := Nat.div_pos hle (by omega)
      omega

theorem number_octet {n : Nat} (h : n ≤ 255) : Octet (number 10 n) n := by
  refine ⟨number_numeral (by decide) (by decide) n, ?_, h, ?_⟩
  · exact (Nat.length_toDigits_le_iff (by decide) (by decide)).2 (Nat.lt_of_le_of_lt h (by decide))
  · intro h0
    have := number_head (by decide) (by decide) n h0
    subst this
    rfl

theorem number_group {n : Nat} (h : n ≤ 65535) : Group (number 16 n) n :=
  ⟨number_numeral (by decide) (by decide) n,
    (Nat.length_toDigits_le_iff (by decide) (by decide)).2 (Nat.lt_of_le_of_lt h (by decide))⟩

theorem writeV4_dotted {ip : V4} (h : V4Ok ip) : Dotted (writeV4 ip) ip :=
  ⟨_, _, _, _, number_octet h.1, number_octet h.2.1, number_octet h.2.2.1, number_octet h.2.2.2, by simp [writeV4]⟩

theorem writeGroups_groups {gs : List Nat} (h : ∀ g ∈ gs, g ≤ 65535) (v : Bool) : Side v (writeGroups gs) gs := by
  induction gs with
  | nil => exact .inl ⟨rfl, rfl⟩
  | cons g gs ih =>
    have hg := number_group (h g (by simp))
    right
    cases gs with
    | nil => exact .one hg
    | cons g' gs =>
      rcases ih fun g hg => h g (by simp [hg]) with ⟨_, h0⟩ | h1
      · cases h0
      · exact .more hg h1

/-- A run of zeros. -/
def ZeroRun (segs : List Nat) (z : Nat × Nat) : Prop := ∀ j, z.1 ≤ j → j < z.1 + z.2 → segs[j]? = some 0

theorem zeros_run (segs : List Nat) : ∀ (pre ss : List Nat) (longest current : Nat × Nat), segs = pre ++ ss →
    ZeroRun segs longest → ZeroRun segs current → (current.2 ≠ 0 → current.1 + current.2 = pre.length) →
    ZeroRun segs (zeros pre.length ss longest current) := by
  intro pre ss
  induction ss generalizing pre with
  | nil => intro longest current _ h _ _; exact h
  | cons s ss ih =>
    intro longest current he hl hc hp
    have he' : segs = (pre ++ [s]) ++ ss := by simp [he]
    have hlen : (pre ++ [s]).length = pre.length + 1 := by simp
    simp only [zeros]
    split
    · rename_i h0
      subst h0
      have hat : segs[pre.length]? = some 0 := by rw [he]; simp
      have hc' : ZeroRun segs (if current.2 = 0 then pre.length else current.1, current.2 + 1) := by
        intro j hj1 hj2
        simp only at hj1 hj2
        by_cases h2 : current.2 = 0
        · rw [if_pos h2] at hj1 hj2
          have : j = pre.length := by omega
          rw [this]; exact hat
        · rw [if_neg h2] at hj1 hj2
          have := hp h2
          by_cases hlt : j < current.1 + current.2
          · exact hc j hj1 hlt
          · have : j = pre.length := by omega
            rw [this]; exact hat
      have hp' : (if current.2 = 0 then pre.length else current.1) + (current.2 + 1) = pre.length + 1 := by
        split
        · rename_i h2; omega
        · rename_i h2; have := hp h2; omega
      have := ih (pre ++ [0]) (if longest.2 < current.2 + 1 then (if current.2 = 0 then pre.length else current.1, current.2 + 1) else longest)
        (if current.2 = 0 then pre.length else current.1, current.2 + 1) he' (by split <;> assumption) hc' (fun _ => by rw [hlen]; exact hp')
      rw [hlen] at this
      exact this
    · have := ih (pre ++ [s]) longest (0, 0) he' hl (fun j h1 h2 => by simp only at h2; omega) (fun h => absurd rfl h)
      rw [hlen] at this
      exact this

theorem zeroRun_split {segs : List Nat} {z : Nat × Nat} (h : ZeroRun segs z) (h2 : 0 < z.2) :
    segs = segs.take z.1 ++ List.replicate z.2 0 ++ segs.drop (z.1 + z.2) ∧ z.1 + z.2 ≤ segs.length := by
  have hle : z.1 + z.2 ≤ segs.length := by
    have := h (z.1 + z.2 - 1) (by omega) (by omega)
    obtain ⟨hlt, _⟩ := List.getElem?_eq_some_iff.1 this
    omega
  refine ⟨?_, hle⟩
  have hm : (segs.drop z.1).take z.2 = List.replicate z.2 0 := by
    refine List.eq_replicate_iff.2 ⟨by simp; omega, ?_⟩
    intro b hb
    obtain ⟨j, hj⟩ := List.mem_iff_getElem?.1 hb
    rw [List.getElem?_take] at hj
    split at hj
    · rename_i hlt
      rw [List.getElem?_drop] at hj
      have := h (z.1 + j) (by omega) (by omega)
      rw [this] at hj
      cases hj
      rfl
    · cases hj
  rw [← hm, List.append_assoc]
  have : segs.drop (z.1 + z.2) = (segs.drop z.1).drop z.2 := by rw [List.drop_drop]
  rw [this, List.take_append_drop, List.take_append_drop]

theorem mapped_some {segs : List Nat} {ip : V4} (h : mapped segs = some ip) (hs : ∀ s ∈ segs, s ≤ 65535) :
    segs = [0, 0, 0, 0, 0, 65535, ip.a * 256 + ip.b, ip.c * 256 + ip.d] ∧ V4Ok ip := by
  unfold mapped at h
  split at h
  · rename_i ab cd
    cases h
    have h1 := hs ab (by simp)
    have h2 := hs cd (by simp)
    refine ⟨?_, ?_, ?_, ?_, ?_⟩
    · simp only [List.cons.injEq, and_true, true_and]
      omega
    · simp only; omega
    · simp only; omega
    · simp only; omega
    · simp only; omega
  · cases h

theorem writeV6_colons {segs : List Nat} (h : V6Ok segs) : Colons (writeV6 segs) segs := by
  unfold writeV6
  split
  · rename_i ip hm
    obtain ⟨he, hok⟩ := mapped_some hm h.2
    right
    have hf : Group ['f', 'f', 'f', 'f'] 65535 := number_group (n := 65535) (Nat.le_refl _)
    refine ⟨[], 'f' :: 'f' :: 'f' :: 'f' :: ':' :: writeV4 ip, [], [65535, ip.a * 256 + ip.b, ip.c * 256 + ip.d], 5, .inl ⟨rfl, rfl⟩,
      .inr (.more hf (.dotted rfl (writeV4_dotted hok))), rfl, rfl, by decide, he⟩
  · have hz : ZeroRun segs (zeros 0 segs (0, 0) (0, 0)) :=
      zeros_run segs [] segs (0, 0) (0, 0) rfl (fun j _ h2 => by simp only at h2; omega) (fun j _ h2 => by simp only at h2; omega)
        (fun h => absurd rfl h)
    simp only
    generalize zeros 0 segs (0, 0) (0, 0) = z at hz
    split
    · rename_i h1
      obtain ⟨he, hle⟩ := zeroRun_split hz (by omega)
      have hl : (segs.take z.1).length = z.1 := by rw [List.length_take]; omega
      have hr : (segs.drop (z.1 + z.2)).length = 8 - (z.1 + z.2) := by rw [List.length_drop, h.1]
      have h8 := h.1
      exact .inr ⟨_, _, _, _, z.2, writeGroups_groups (fun g hg => h.2 g (List.mem_of_mem_take hg)) false,
        writeGroups_groups (fun g hg => h.2 g (List.mem_of_mem_drop hg)) true, rfl, by omega, by omega, he⟩
    · rcases writeGroups_groups h.2 true with ⟨_, h0⟩ | hg
      · have := h.1; rw [h0] at this; cases this
      · exact .inl ⟨hg, h.1⟩

theorem writeIp_says {ip : Ip} (h : IpOk ip) : SaysIp (writeIp ip) ip := by
  cases ip with
  | v4 ip => exact writeV4_dotted h
  | v6 segs => exact writeV6_colons h

theorem write_says {a : Sock} (h : SockOk a) : Says (write a) (noFlow a) := by
  cases a with
  | v4 ip port => exact ⟨_, _, writeV4_dotted h.1, ⟨number_numeral (by decide) (by decide) _, h.2⟩, rfl⟩
  | v6 segs port flow scope =>
    refine ⟨rfl, _, _, _, writeV6_colons h.1, ?_, ⟨number_numeral (by decide) (by decide) _, h.2.1⟩, rfl⟩
    split
    · rename_i h0; exact .inl ⟨rfl, h0⟩
    · exact .inr ⟨_, rfl, number_numeral (by decide) (by decide) _, h.2.2.2⟩

/-! ## What is said is an address -/

theorem groups_ok {v : Bool} {cs : List Char} {gs : List Nat} (h : Groups v cs gs) : ∀ g ∈ gs, g ≤ 65535 := by
  have one : ∀ {cs g}, Group cs g → g ≤ 65535 := by
    rintro cs g ⟨h1, h2⟩
    have h := numeral_lt h1
    have : 16 ^ cs.length ≤ 16 ^ 4 := Nat.pow_le_pow_right (by decide) h2
    have : (16 : Nat) ^ 4 = 65536 := by decide
    omega
  induction h with
  | one h => intro g hg; simp only [List.mem_singleton] at hg; subst hg; exact one h
  | dotted _ h =>
    obtain ⟨_, _, _, _, ha, hb, hc, hd, _⟩ := h
    have := ha.2.2.1
    have := hb.2.2.1
    have := hc.2.2.1
    have := hd.2.2.1
    intro g hg
    simp only [List.mem_cons, List.not_mem_nil, or_false] at hg
    omega
  | more h _ ih =>
    intro g hg
    simp only [List.mem_cons] at hg
    rcases hg with rfl | hg
    · exact one h
    · exact ih g hg

theorem colons_ok {cs : List Char} {segs : List Nat} (h : Colons cs segs) : V6Ok segs := by
  have side : ∀ {v cs gs}, Side v cs gs → ∀ g ∈ gs, g ≤ 65535 := by
    rintro v cs gs (⟨_, rfl⟩ | h)
    · intro g hg; cases hg
    · exact groups_ok h
  rcases h with ⟨h, h8⟩ | ⟨l, r, ls, rs, k, hl, hr, _, h8, _, rfl⟩
  · exact ⟨h8, groups_ok h⟩
  · refine ⟨by simp; omega, ?_⟩
    intro s hs
    simp only [List.mem_append, List.mem_replicate] at hs
    rcases hs with (hs | ⟨_, rfl⟩) | hs
    · exact side hl s hs
    · omega
    · exact side hr s hs

theorem dotted_ok {cs : List Char} {ip : V4} (h : Dotted cs ip) : V4Ok ip := by
  obtain ⟨_, _, _, _, ha, hb, hc, hd, _⟩ := h
  exact ⟨ha.2.2.1, hb.2.2.1, hc.2.2.1, hd.2.2.1⟩

theorem says_ok {cs : List Char} {a : Sock} (h : Says cs a) : SockOk a := by
  cases a with
  | v4 ip port =>
    obtain ⟨_, _, hd, hp, _⟩ := h
    exact ⟨dotted_ok hd, hp.2⟩
  | v6 segs port flow scope =>
    obtain ⟨rfl, _, _, _, hc, hs, hp, _⟩ := h
    refine ⟨colons_ok hc, hp.2, by omega, ?_⟩
    rcases hs with ⟨_, rfl⟩ | ⟨_, _, _, hs⟩
    · omega
    · exact hs

theorem saysIp_ok {cs : List Char} {ip : Ip} (h : SaysIp cs ip) : IpOk ip := by
  cases ip with
  | v4 ip => exact dotted_ok h
  | v6 segs => exact colons_ok h

end Abq.Address
