import Verif.Spec.Options
import Verif.Proof.Address
/-!
# Options take the words that their help names (C134)
-/

namespace Abq.Props
open Abq.Options Abq.Spec.Options Abq.Spec.Address
open Abq.Address (toDigit toDigit_iff)
open Abq.Config (NumRunners)

theorem digits_iff (bound : Nat) : ∀ (cs : List Char) (n m : Nat),
    digits bound cs n = some m ↔ (cs = [] ∧ m = n) ∨ (cs ≠ [] ∧ m < bound ∧ (∀ c ∈ cs, Address.isDig 10 c) ∧
      (Address.vals 10 cs).foldl (fun n d => n * 10 + d) n = m) := by
  have mono : ∀ (ds : List Nat) (n : Nat), n ≤ ds.foldl (fun n d => n * 10 + d) n := by
    intro ds
    induction ds with
    | nil => intro n; exact Nat.le_refl _
    | cons d ds ih =>
      intro n
      have := ih (n * 10 + d)
      simp only [List.foldl_cons]
      omega
  intro cs
  induction cs with
  | nil =>
    intro n m
    constructor
    · intro h; exact .inl ⟨rfl, (Option.some.inj h).symm⟩
    · rintro (⟨_, rfl⟩ | ⟨h, _⟩)
      · rfl
      · exact absurd rfl h
  | cons c cs ih =>
    intro n m
    cases hd : toDigit 10 c with
    | none =>
      simp only [digits, hd]
      constructor
      · intro h; cases h
      · rintro (⟨h, _⟩ | ⟨_, _, h, _⟩)
        · cases h
        · have := h c (by simp)
          simp [Address.isDig, hd] at this
    | some d =>
      have hv : Address.vals 10 (c :: cs) = d :: Address.vals 10 cs := List.filterMap_cons_some hd
      have hi : Address.isDig 10 c = true := by simp [Address.isDig, hd]
      simp only [digits, hd]
      rw [hv, List.foldl_cons]
      constructor
      · intro h
        split at h
        · rename_i hlt
          right
          rcases (ih _ _).1 h with ⟨rfl, rfl⟩ | ⟨_, h1, h2, h3⟩
          · exact ⟨by simp, hlt, by simp [hi], rfl⟩
          · refine ⟨by simp, h1, ?_, h3⟩
            intro x hx
            simp only [List.mem_cons] at hx
            rcases hx with rfl | hx
            · exact hi
            · exact h2 x hx
        · cases h
      · rintro (⟨h, _⟩ | ⟨_, h1, h2, h3⟩)
        · cases h
        · have := mono (Address.vals 10 cs) (n * 10 + d)
          rw [if_pos (by omega)]
          refine (ih _ _).2 ?_
          by_cases hc : cs = []
          · subst hc
            left
            exact ⟨rfl, h3.symm⟩
          · exact .inr ⟨hc, h1, fun x hx => h2 x (by simp [hx]), h3⟩

theorem digits_numeral {cs : List Char} (hc : cs ≠ []) (n : Nat) : digits (2 ^ 64) cs 0 = some n ↔ n < 2 ^ 64 ∧ Numeral 10 cs n := by
  rw [digits_iff, Address.numeral_iff (by decide)]
  constructor
  · rintro (⟨h, _⟩ | ⟨_, h1, h2, h3⟩)
    · exact absurd h hc
    · exact ⟨h1, hc, h2, h3⟩
  · rintro ⟨h1, _, h2, h3⟩
    exact .inr ⟨hc, h1, h2, h3⟩

theorem parseUsize_iff (s : List Char) (n : Nat) :
    parseUsize s = some n ↔ n < 2 ^ 64 ∧ ∃ ds, Numeral 10 ds n ∧ (s = ds ∨ s = '+' :: ds) := by
  have plus : ∀ ds m, Numeral 10 ds m → ds.head? ≠ some '+' := by
    intro ds m h h0
    cases ds with
    | nil => cases h0
    | cons c cs =>
      simp only [List.head?_cons, Option.some.injEq] at h0
      subst h0
      have := Address.numeral_digits (by decide) h '+' (by simp)
      exact absurd this (by decide)
  by_cases hp : s.head? = some '+'
  · obtain ⟨cs, rfl⟩ : ∃ cs, s = '+' :: cs := by
      cases s with
      | nil => cases hp
      | cons c cs =>
        simp only [List.head?_cons, Option.some.injEq] at hp
        exact ⟨cs, by rw [hp]⟩
    have e : ∀ ds, Numeral 10 ds n → ('+' :: cs = ds ∨ '+' :: cs = '+' :: ds ↔ cs = ds) := by
      intro ds h
      constructor
      · rintro (h1 | h1)
        · rw [← h1] at h; exact absurd rfl (plus _ _ h)
        · exact (List.cons.inj h1).2
      · rintro rfl; exact .inr rfl
    cases cs with
    | nil =>
      constructor
      · intro h; cases h
      · rintro ⟨_, ds, h, h1⟩
        exact absurd ((e ds h).1 h1).symm (Address.numeral_ne h)
    | cons c cs =>
      have h0 : parseUsize ('+' :: c :: cs) = digits (2 ^ 64) (c :: cs) 0 := rfl
      rw [h0, digits_numeral (by simp)]
      constructor
      · rintro ⟨h1, h2⟩
        exact ⟨h1, _, h2, .inr rfl⟩
      · rintro ⟨h1, ds, h2, h3⟩
        rw [(e ds h2).1 h3]
        exact ⟨h1, h2⟩
  · cases s with
    | nil =>
      constructor
      · intro h; cases h
      · rintro ⟨_, ds, h, h1 | h1⟩
        · exact absurd h1.symm (Address.numeral_ne h)
        · cases h1
    | cons c cs =>
      simp only [List.head?_cons, Option.some.injEq] at hp
      have h0 : parseUsize (c :: cs) = digits (2 ^ 64) (c :: cs) 0 := by
        unfold parseUsize
        split
        · rename_i h; cases h
        · rename_i h; cases h; exact absurd rfl hp
        · rename_i h; cases h; exact absurd rfl hp
        · rfl
      rw [h0, digits_numeral (by simp)]
      constructor
      · rintro ⟨h1, h2⟩
        exact ⟨h1, _, h2, .inl rfl⟩
      · rintro ⟨h1, ds, h2, h3 | h3⟩
        · rw [h3]; exact ⟨h1, h2⟩
        · exact absurd (List.cons.inj h3).1 hp

/-- C134: `-n` takes "cpu-cores" and the positive numbers, and takes them for what they say. -/
theorem C134_runners_taken_exactly (s : List Char) (r : NumRunners) : parseNum s = some r ↔ SaysNum s r := by
  have word : ∀ n, ¬ ∃ ds, Numeral 10 ds n ∧ ("cpu-cores".toList = ds ∨ "cpu-cores".toList = '+' :: ds) := by
    rintro n ⟨ds, h, h1 | h1⟩
    · rw [← h1] at h
      have := Address.numeral_digits (by decide) h 'c' (by decide)
      exact absurd this (by decide)
    · have h1 : some 'c' = some '+' := congrArg List.head? h1
      exact absurd h1 (by decide)
  unfold parseNum
  by_cases hs : s = "cpu-cores".toList
  · rw [if_pos hs]
    cases r with
    | cpuCores => exact ⟨fun _ => hs, fun _ => rfl⟩
    | fixed n =>
      subst hs
      constructor
      · intro h; cases h
      · rintro ⟨_, _, h⟩; exact absurd h (word n)
  · rw [if_neg hs]
    cases hp : parseUsize s with
    | none =>
      constructor
      · intro h; cases h
      · intro h
        cases r with
        | cpuCores => exact absurd h hs
        | fixed n =>
          rw [(parseUsize_iff s n).2 ⟨h.2.1, h.2.2⟩] at hp
          cases hp
    | some m =>
      obtain ⟨h1, h2⟩ := (parseUsize_iff s m).1 hp
      cases r with
      | cpuCores =>
        constructor
        · intro h; cases m <;> cases h
        · intro h; exact absurd h hs
      | fixed n =>
        constructor
        · intro h
          cases m with
          | zero => cases h
          | succ m => cases h; exact ⟨by omega, h1, h2⟩
        · rintro ⟨h3, h4, h5⟩
          rw [(parseUsize_iff s n).2 ⟨h4, h5⟩] at hp
          cases hp
          cases m with
          | zero => cases h3
          | succ m => rfl

example : parseNum "16".toList = some (.fixed 16) ∧ parseNum "+007".toList = some (.fixed 7) ∧ parseNum "cpu-cores".toList = some .cpuCores ∧
    parseNum "0".toList = none ∧ parseNum "-1".toList = none ∧ parseNum "".toList = none ∧ parseNum "+".toList = none ∧
    parseNum "1 ".toList = none := by decide

/-- C134: whatever `-n` takes, at least one runner is started, and exactly as many as a number says. -/
theorem C134_runners_started {s : List Char} {r : NumRunners} (h : parseNum s = some r) (cores : Nat) :
    1 ≤ Config.numRunnersOf cores r ∧ ∀ n, Numeral 10 s n → Config.numRunnersOf cores r = n := by
  have hs := (C134_runners_taken_exactly s r).1 h
  cases r with
  | cpuCores =>
    refine ⟨Nat.le_max_right .., fun n hn => ?_⟩
    have hs : s = "cpu-cores".toList := hs
    rw [hs] at hn
    exact absurd (Address.numeral_digits (by decide) hn 'c' (by decide)) (by decide)
  | fixed m =>
    obtain ⟨h0, h1, ds, hd, he⟩ := hs
    refine ⟨h0, fun n hn => ?_⟩
    rcases he with he | he
    · rw [he] at hn
      have a := ((Address.numeral_iff (by decide) _ _).1 hd).2.2
      have b := ((Address.numeral_iff (by decide) _ _).1 hn).2.2
      exact a.symm.trans b
    · rw [he] at hn
      exact absurd (Address.numeral_digits (by decide) hn '+' (by simp)) (by decide)

example : parseNum "12".toList = some (.fixed 12) ∧ Numeral 10 "12".toList 12 :=
  ⟨by decide, (Address.numeral_iff (by decide) _ _).2 (by decide)⟩

/-- C134: `--test-strategy` and `--color` take the words of their help and no others, and take them for what they say; and a strategy is
taken for itself if it is given as it is printed. -/
theorem C134_words_taken_exactly :
    (∀ s x, parseStrategy s = .ok x ↔ SaysStrategy s x) ∧ (∀ x, parseStrategy (printStrategy x) = .ok x) ∧
    (∀ s x, parseColor s = some x ↔ SaysColor s x) := by
  have ne1 : "by-file".toList ≠ "by-test".toList := by decide
  have ne2 : "never".toList ≠ "auto".toList := by decide
  refine ⟨fun s x => ?_, fun x => (by cases x <;> rfl), fun s x => ?_⟩
  · unfold parseStrategy strategyByTest strategyByFile
    by_cases h1 : s = "by-test".toList
    · rw [if_pos h1]
      cases x with
      | byTest => exact ⟨fun _ => h1, fun _ => rfl⟩
      | byTopLevelGroup => exact ⟨fun h => (by cases h), fun h => absurd (h.symm.trans h1) ne1⟩
    · rw [if_neg h1]
      by_cases h2 : s = "by-file".toList
      · rw [if_pos h2]
        cases x with
        | byTest => exact ⟨fun h => (by cases h), fun h => absurd h h1⟩
        | byTopLevelGroup => exact ⟨fun _ => h2, fun _ => rfl⟩
      · rw [if_neg h2]
        cases x with
        | byTest => exact ⟨fun h => (by cases h), fun h => absurd h h1⟩
        | byTopLevelGroup => exact ⟨fun h => (by cases h), fun h => absurd h h2⟩
  · unfold parseColor
    by_cases h1 : s = "auto".toList
    · rw [if_pos h1]
      cases x with
      | auto => exact ⟨fun _ => h1, fun _ => rfl⟩
      | never => exact ⟨fun h => (by cases h), fun h => absurd (h.symm.trans h1) ne2⟩
    · rw [if_neg h1]
      by_cases h2 : s = "never".toList
      · rw [if_pos h2]
        cases x with
        | auto => exact ⟨fun h => (by cases h), fun h => absurd h h1⟩
        | never => exact ⟨fun _ => h2, fun _ => rfl⟩
      · rw [if_neg h2]
        cases x with
        | auto => exact ⟨fun h => (by cases h), fun h => absurd h h1⟩
        | never => exact ⟨fun h => (by cases h), fun h => absurd h h2⟩

/-- C134, all of it: what an error message says must be given is taken. -/
def C134_errors_name_words_full : Prop :=
  ∀ s m w1 w2, parseStrategy s = .error m → Demands m w1 w2 →
    (∃ x, parseStrategy w1 = .ok x) ∧ ∃ x, parseStrategy w2 = .ok x

/-- C134 does not hold in full: whoever gives `--test-strategy` a word it does not take is told to give `default` or `by-group`, and it
takes neither of them. -/
theorem C134_full_statement_fails : ¬ C134_errors_name_words_full ∧
    (∀ s m, parseStrategy s = .error m → Demands m "default".toList "by-group".toList) ∧
    (∀ x, parseStrategy "default".toList ≠ .ok x) ∧ (∀ x, parseStrategy "by-group".toList ≠ .ok x) := by
  have hd : ∀ x, parseStrategy "default".toList ≠ .ok x := by intro x h; cases h
  have hg : ∀ x, parseStrategy "by-group".toList ≠ .ok x := by intro x h; cases h
  have all : ∀ s m, parseStrategy s = .error m → Demands m "default".toList "by-group".toList := by
    intro s m h
    unfold parseStrategy at h
    split at h
    · cases h
    · split at h
      · cases h
      · cases h
        refine ⟨"Can't parse distribution strategy :'".toList ++ s ++ ['\''], ?_⟩
        have e : "', must be ".toList = ['\''] ++ ", must be ".toList := by decide
        rw [e]
        simp only [List.append_assoc]
  refine ⟨fun h => ?_, all, hd, hg⟩
  cases he : parseStrategy "by-group".toList with
  | ok x => exact hg x he
  | error m =>
    obtain ⟨⟨x, hx⟩, _⟩ := h _ _ _ _ he (all _ _ he)
    exact hd x hx

end Abq.Props
