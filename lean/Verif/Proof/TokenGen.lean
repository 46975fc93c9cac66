import Verif.Model.TokenGen
import Verif.Spec.TokenGen

/-! # Lemmas about generated tokens -/

namespace Abq.TokenGenProof
open Abq.Auth Abq.Spec.TokenGen
open Abq.Wire (Byte)

theorem symbol_letter : ∀ i < 62, LetterOrDigit (symbol i) := by
  unfold LetterOrDigit; decide

theorem symbol_inj : ∀ i < 62, ∀ j < 62, symbol i = symbol j → i = j := by
  intro i hi j hj h
  unfold symbol at h
  repeat' split at h
  all_goals omega

theorem symbol_surj (b : Nat) (h : LetterOrDigit b) : ∃ i < 62, symbol i = b := by
  have e0 : '0'.toNat = 48 := rfl
  have e9 : '9'.toNat = 57 := rfl
  have eA : 'A'.toNat = 65 := rfl
  have eZ : 'Z'.toNat = 90 := rfl
  have ea : 'a'.toNat = 97 := rfl
  have ez : 'z'.toNat = 122 := rfl
  unfold LetterOrDigit at h
  rw [e0, e9, eA, eZ, ea, ez] at h
  rcases h with h | h | h
  · refine ⟨b - 48 + 52, by omega, ?_⟩
    unfold symbol; rw [if_neg (by omega), if_neg (by omega)]; omega
  · refine ⟨b - 65, by omega, ?_⟩
    unfold symbol; rw [if_pos (by omega)]; omega
  · refine ⟨b - 97 + 26, by omega, ?_⟩
    unfold symbol; rw [if_neg (by omega), if_pos (by omega)]; omega

theorem indices : (t : List Byte) → (∀ b ∈ t, LetterOrDigit b) → ∃ is : List Nat, (∀ i ∈ is, i < 62) ∧ is.map symbol = t
  | [], _ => ⟨[], fun _ h => absurd h List.not_mem_nil, rfl⟩
  | b :: t, h => by
    obtain ⟨i, hi, e⟩ := symbol_surj b (h b List.mem_cons_self)
    obtain ⟨is, his, e'⟩ := indices t fun b hb => h b (List.mem_cons_of_mem _ hb)
    refine ⟨i :: is, ?_, by simp [e, e']⟩
    intro x hx
    rcases List.mem_cons.1 hx with rfl | hx
    · exact hi
    · exact his x hx

theorem fill_take (n d : Nat) (ds : List Nat) (h : d / 2 ^ 26 < 62) :
    fill (n + 1) (d :: ds) = (fill n ds).map (symbol (d / 2 ^ 26) :: ·) := by
  simp only [fill, sample, if_pos h]

theorem fill_skip (n d : Nat) (ds : List Nat) (h : ¬ d / 2 ^ 26 < 62) : fill (n + 1) (d :: ds) = fill (n + 1) ds := by
  simp only [fill, sample, if_neg h]

theorem fill_letters : (n : Nat) → (ds : List Nat) → (t : List Byte) → fill n ds = some t →
    t.length = n ∧ ∀ b ∈ t, LetterOrDigit b
  | 0, _, t, h => by cases h; exact ⟨rfl, fun _ h => absurd h List.not_mem_nil⟩
  | n + 1, [], t, h => by cases h
  | n + 1, d :: ds, t, h => by
    by_cases hd : d / 2 ^ 26 < 62
    · rw [fill_take n d ds hd] at h
      cases hf : fill n ds with
      | none => rw [hf] at h; cases h
      | some t' =>
        rw [hf] at h; cases h
        obtain ⟨h1, h2⟩ := fill_letters n ds t' hf
        refine ⟨by simp [h1], fun b hb => ?_⟩
        rcases List.mem_cons.1 hb with rfl | hb
        · exact symbol_letter _ hd
        · exact h2 b hb
    · rw [fill_skip n d ds hd] at h
      exact fill_letters (n + 1) ds t h

theorem fill_some : (n : Nat) → (ds : List Nat) → ((∃ t, fill n ds = some t) ↔ n ≤ ds.countP (· < 62 * 2 ^ 26))
  | 0, _ => by simp [fill]
  | n + 1, [] => by simp [fill, sample]
  | n + 1, d :: ds => by
    by_cases hd : d / 2 ^ 26 < 62
    · have hd' : d < 62 * 2 ^ 26 := by omega
      rw [fill_take n d ds hd, List.countP_cons_of_pos (by simpa using hd')]
      have ih := fill_some n ds
      constructor
      · rintro ⟨t, h⟩
        cases hf : fill n ds with
        | none => rw [hf] at h; cases h
        | some t' => have := ih.1 ⟨t', hf⟩; omega
      · intro h
        obtain ⟨t, ht⟩ := ih.2 (by omega)
        exact ⟨_, by rw [ht]; rfl⟩
    · have hd' : ¬ d < 62 * 2 ^ 26 := by omega
      rw [fill_skip n d ds hd, List.countP_cons_of_neg (by simpa using hd')]
      exact fill_some (n + 1) ds

/-- Exchanges two of the 62 choices. -/
def exchange (i j d : Nat) : Nat :=
  if d / 2 ^ 26 = i then j * 2 ^ 26 + d % 2 ^ 26 else if d / 2 ^ 26 = j then i * 2 ^ 26 + d % 2 ^ 26 else d

theorem exchange_index (i j d : Nat) :
    exchange i j d / 2 ^ 26 = if d / 2 ^ 26 = i then j else if d / 2 ^ 26 = j then i else d / 2 ^ 26 := by
  unfold exchange
  repeat' split
  all_goals omega

theorem exchange_rest (i j d : Nat) : exchange i j d % 2 ^ 26 = d % 2 ^ 26 := by
  unfold exchange
  repeat' split
  all_goals omega

theorem exchange_twice (i j d : Nat) : exchange i j (exchange i j d) = d := by
  have h1 := exchange_index i j (exchange i j d)
  rw [exchange_index i j d] at h1
  have h2 := (exchange_rest i j (exchange i j d)).trans (exchange_rest i j d)
  generalize exchange i j (exchange i j d) = x at h1 h2
  repeat' split at h1
  all_goals omega

/-- Exchanges the choices for each character of a token. -/
def rename : List (Nat × Nat) → List Nat → List Nat
  | _, [] => []
  | [], ds => ds
  | (i, j) :: ps, d :: ds => if d / 2 ^ 26 < 62 then exchange i j d :: rename ps ds else d :: rename ((i, j) :: ps) ds

theorem exchange_lt {i j d : Nat} (hi : i < 62) (hj : j < 62) : exchange i j d / 2 ^ 26 < 62 ↔ d / 2 ^ 26 < 62 := by
  rw [exchange_index]
  repeat' split
  all_goals omega

theorem rename_renaming (ps : List (Nat × Nat)) (h : ∀ p ∈ ps, p.1 < 62 ∧ p.2 < 62) : Renaming (rename ps) := by
  refine ⟨fun ds => ?_, fun ds => ?_, fun ds => ?_⟩
  · induction ds generalizing ps with
    | nil => cases ps <;> rfl
    | cons d ds ih =>
      cases ps with
      | nil => rfl
      | cons p ps =>
        obtain ⟨i, j⟩ := p
        have hp := h (i, j) List.mem_cons_self
        by_cases hd : d / 2 ^ 26 < 62
        · simp only [rename, if_pos hd, if_pos ((exchange_lt hp.1 hp.2).2 hd), exchange_twice]
          rw [ih ps fun p hp => h p (List.mem_cons_of_mem _ hp)]
        · simp only [rename, if_neg hd]
          rw [ih _ h]
  · induction ds generalizing ps with
    | nil => cases ps <;> rfl
    | cons d ds ih =>
      cases ps with
      | nil => rfl
      | cons p ps =>
        obtain ⟨i, j⟩ := p
        by_cases hd : d / 2 ^ 26 < 62
        · simp only [rename, if_pos hd, List.length_cons, ih ps fun p hp => h p (List.mem_cons_of_mem _ hp)]
        · simp only [rename, if_neg hd, List.length_cons, ih _ h]
  · induction ds generalizing ps with
    | nil => cases ps <;> exact fun h => h
    | cons d ds ih =>
      cases ps with
      | nil => exact fun h => h
      | cons p ps =>
        obtain ⟨i, j⟩ := p
        have hp := h (i, j) List.mem_cons_self
        intro hw x hx
        have hds : ∀ d ∈ ds, d < 2 ^ 32 := fun d hd => hw d (List.mem_cons_of_mem _ hd)
        by_cases hd : d / 2 ^ 26 < 62
        · simp only [rename, if_pos hd] at hx
          rcases List.mem_cons.1 hx with rfl | hx
          · have : exchange i j d / 2 ^ 26 < 62 := (exchange_lt (d := d) hp.1 hp.2).2 hd
            omega
          · exact ih ps (fun p hp => h p (List.mem_cons_of_mem _ hp)) hds x hx
        · simp only [rename, if_neg hd] at hx
          rcases List.mem_cons.1 hx with rfl | hx
          · exact hw _ List.mem_cons_self
          · exact ih _ h hds x hx

theorem rename_fill (is js : List Nat) (hl : is.length = js.length) (hi : ∀ i ∈ is, i < 62) (hj : ∀ j ∈ js, j < 62)
    (ds : List Nat) :
    fill is.length ds = some (is.map symbol) ↔ fill is.length (rename (is.zip js) ds) = some (js.map symbol) := by
  induction ds generalizing is js with
  | nil =>
    cases is with
    | nil => cases js with
      | nil => simp [fill]
      | cons j js => cases hl
    | cons i is => cases js with
      | nil => cases hl
      | cons j js => simp [rename, fill, sample]
  | cons d ds ih =>
    cases is with
    | nil => cases js with
      | nil => simp [fill]
      | cons j js => cases hl
    | cons i is => cases js with
      | nil => cases hl
      | cons j js =>
        have hi0 := hi i List.mem_cons_self
        have hj0 := hj j List.mem_cons_self
        by_cases hd : d / 2 ^ 26 < 62
        · have he := (exchange_lt (d := d) hi0 hj0).2 hd
          have ih := ih is js (Nat.succ.inj hl) (fun i h => hi i (List.mem_cons_of_mem _ h))
            fun j h => hj j (List.mem_cons_of_mem _ h)
          simp only [List.zip_cons_cons, rename, if_pos hd, List.length_cons, List.map_cons]
          rw [fill_take _ _ _ hd, fill_take _ _ _ he]
          have h1 : symbol (d / 2 ^ 26) = symbol i ↔ symbol (exchange i j d / 2 ^ 26) = symbol j := by
            have e1 : symbol (d / 2 ^ 26) = symbol i ↔ d / 2 ^ 26 = i := ⟨symbol_inj _ hd _ hi0, fun h => by rw [h]⟩
            have e2 : symbol (exchange i j d / 2 ^ 26) = symbol j ↔ exchange i j d / 2 ^ 26 = j :=
              ⟨symbol_inj _ he _ hj0, fun h => by rw [h]⟩
            rw [e1, e2, exchange_index]
            repeat' split
            all_goals omega
          simp only [Option.map_eq_some_iff, List.cons.injEq]
          constructor
          · rintro ⟨a, ha, e, rfl⟩
            exact ⟨_, ih.1 ha, h1.1 e, rfl⟩
          · rintro ⟨a, ha, e, rfl⟩
            exact ⟨_, ih.2 ha, h1.2 e, rfl⟩
        · simp only [List.zip_cons_cons, rename, if_neg hd, List.length_cons]
          rw [fill_skip _ _ _ hd, fill_skip _ _ _ hd]
          exact ih (i :: is) (j :: js) hl hi hj

end Abq.TokenGenProof
