import Verif.Proof.JsonText

/-!
# The reader reads the grammar, and nothing else
-/

namespace Abq.JsonText
open RunStateDoc (Json)
open Spec.JsonText

/-! ## Blanks -/

theorem isSpace_iff (b : Byte) : isSpace b = true ↔ b = 32 ∨ b = 9 ∨ b = 10 ∨ b = 13 := by
  unfold isSpace
  simp only [Bool.or_eq_true, decide_eq_true_eq, or_assoc]

/-- Modes in which blanks are skipped. -/
def Skips : Mode → Prop
  | .value | .elemOrEnd | .nextElem | .keyOrEnd | .key | .nextMember | .colon | .done _ => True
  | _ => False

theorem step_space (f : Floats) (s : State) (hs : Skips s.mode) (b : Byte) (hb : isSpace b = true) : step f s b = some s := by
  obtain ⟨m, st⟩ := s
  cases m <;> first
    | exact absurd hs id
    | (show (if isSpace b = true then some _ else _) = _; rw [if_pos hb])

theorem skip_blank (f : Floats) (s : State) (hs : Skips s.mode) (w rest : List Byte) (hw : Blank w) :
    parseFrom f s (w ++ rest) = parseFrom f s rest := by
  induction w with
  | nil => rfl
  | cons b w ih =>
    rw [List.cons_append, parseFrom_cons_some (step_space f s hs b ((isSpace_iff b).mpr (hw b (List.mem_cons_self ..)))),
      ih fun c hc => hw c (List.mem_cons_of_mem _ hc)]

theorem deliver_skips (v : Json) (st : List Frame) : Skips (deliver v st).mode := by
  cases st with
  | nil => trivial
  | cons fr st => cases fr <;> trivial

theorem delim_blank {w rest : List Byte} (hw : Blank w) (h : Delim rest) : Delim (w ++ rest) := by
  cases w with
  | nil => exact h
  | cons b w =>
    show isNumByte b = false
    rcases hw b (List.mem_cons_self ..) with rfl | rfl | rfl | rfl <;> rfl

/-! ## Numbers -/

theorem decimal_foldl (w : List (Fin 10)) : ∀ v : Nat,
    (w.map digit).foldl (fun n d => n * 10 + (d.toNat - 48)) v = w.foldl (fun v d => v * 10 + d.val) v := by
  induction w with
  | nil => intro v; rfl
  | cons d w ih =>
    intro v
    rw [List.map_cons, List.foldl_cons, List.foldl_cons, ih]
    have : (digit d).toNat - 48 = d.val := toNat_ofNat d
    rw [this]

theorem decimal_whole (w : List (Fin 10)) : decimal (w.map digit) = w.foldl (fun v d => v * 10 + d.val) 0 := decimal_foldl w 0

theorem number_bytes (n : Number) : ∀ b ∈ n.text, isNumByte b = true := by
  rw [text_eq]
  intro b hb
  rcases List.mem_append.mp hb with hb | hb
  · split at hb
    · rw [List.mem_singleton] at hb; rw [hb]; rfl
    · cases hb
  rcases List.mem_append.mp hb with hb | hb
  · exact numByte_of_digit b (all_digit _ b hb)
  rcases List.mem_append.mp hb with hb | hb
  · unfold fracText at hb
    split at hb
    · cases hb
    · rcases List.mem_cons.mp hb with rfl | hb
      · rfl
      · exact numByte_of_digit b (all_digit _ b hb)
  · exact expText_bytes _ _ b hb

theorem number_first (n : Number) (h : n.Ok) : ∃ b t', n.text = b :: t' ∧ (isDigit b || b = 45) = true := by
  rw [text_eq]
  cases hneg : n.neg with
  | true => exact ⟨45, _, rfl, rfl⟩
  | false =>
    obtain ⟨d, w, hw'⟩ := List.exists_cons_of_ne_nil h.1
    rw [hw']
    exact ⟨digit d, _, rfl, by rw [isDigit_digit]; rfl⟩

theorem number_sign (n : Number) (h : n.Ok) :
    sign n.text = (n.neg, n.whole.map digit ++ (fracText n.fraction ++ expText n.capital n.exponent)) := by
  rw [text_eq]
  cases hneg : n.neg with
  | true => rfl
  | false =>
    obtain ⟨d, w, hw'⟩ := List.exists_cons_of_ne_nil h.1
    rw [hw']
    show (if digit d = 45 then _ else _) = _
    rw [if_neg (show digit d ≠ 45 from digit_ne_minus d)]
    rfl

theorem number_read (f : Floats) (n : Number) (h : n.Ok) :
    readNum f n.text =
      let rest := fracText n.fraction ++ expText n.capital n.exponent
      let v : Nat := n.whole.foldl (fun v d => v * 10 + d.val) 0
      if rest.isEmpty && !n.neg && decide (v < 2 ^ 64) then some (.int v)
      else if rest.isEmpty && n.neg && decide (0 < v) && decide (v ≤ 2 ^ 63) then some (.int (-(v : Int)))
      else (f.read n.text).map .float := by
  have hsplit := takeWhile_append_stop isDigit (n.whole.map digit) (fracText n.fraction ++ expText n.capital n.exponent) (all_digit _)
    (rest_head _ _ _)
  rw [readNum_unfold f _ _ _ _ _ (number_sign n h) hsplit.1 hsplit.2, integerOk_whole _ h.1 h.2.1, fractionOk_text _ _ _ h.2.2,
    decimal_whole]
  rfl

theorem rest_nil (n : Number) : (fracText n.fraction ++ expText n.capital n.exponent).isEmpty = true ↔
    n.fraction = [] ∧ n.exponent = none := by
  constructor
  · intro h
    constructor
    · apply Classical.byContradiction
      intro hf
      rw [rest_ne_nil n (.inl hf)] at h
      cases h
    · apply Classical.byContradiction
      intro hf
      rw [rest_ne_nil n (.inr hf)] at h
      cases h
  · rintro ⟨h1, h2⟩
    rw [h1, h2]; rfl

theorem number_int (f : Floats) (n : Number) (h : n.Ok) (i : Int) (hi : n.Is i) : readNum f n.text = some (.int i) := by
  obtain ⟨h1, h2, h3, h4, h5, h6⟩ := hi
  rw [number_read f n h]
  have hr := (rest_nil n).mpr ⟨h1, h2⟩
  dsimp only
  rw [hr]
  generalize n.whole.foldl (fun v d => v * 10 + d.val) 0 = v at h3 ⊢
  cases hn : n.neg with
  | false =>
    rw [hn] at h3
    simp only [Bool.false_eq_true, if_false, Int.one_mul] at h3
    subst h3
    rw [if_pos (by simp only [Bool.true_and, Bool.not_false, decide_eq_true_eq]; omega)]
  | true =>
    rw [hn] at h3
    simp only [if_true] at h3
    have := h6 hn
    rw [if_neg (by simp), if_pos (by simp only [Bool.true_and, Bool.and_eq_true, decide_eq_true_eq]; omega)]
    congr 2
    omega

theorem number_float (f : Floats) (n : Number) (h : n.Ok) (hi : ∀ i, ¬ n.Is i) : readNum f n.text = (f.read n.text).map .float := by
  rw [number_read f n h]
  dsimp only
  have key : (fracText n.fraction ++ expText n.capital n.exponent).isEmpty = true → ∀ i : Int,
      i = (if n.neg then -1 else 1) * ((n.whole.foldl (fun v d => v * 10 + d.val) 0 : Nat) : Int) →
      ¬ (-2 ^ 63 ≤ i ∧ i < 2 ^ 64 ∧ (n.neg = true → i ≠ 0)) :=
    fun hr i h3 h4 => hi i ⟨((rest_nil n).mp hr).1, ((rest_nil n).mp hr).2, h3, h4⟩
  generalize n.whole.foldl (fun v d => v * 10 + d.val) 0 = v at key ⊢
  rw [if_neg, if_neg]
  · intro hc
    simp only [Bool.and_eq_true, decide_eq_true_eq] at hc
    obtain ⟨⟨⟨hc1, hc2⟩, hc3⟩, hc4⟩ := hc
    refine key hc1 (-(v : Int)) (by rw [hc2]; simp) ⟨by omega, by omega, fun _ => by omega⟩
  · intro hc
    simp only [Bool.and_eq_true, decide_eq_true_eq, Bool.not_eq_true'] at hc
    obtain ⟨⟨hc1, hc2⟩, hc3⟩ := hc
    refine key hc1 (v : Int) (by rw [hc2]; simp) ⟨by omega, by omega, fun h => by rw [hc2] at h; cases h⟩

/-! Every text that is read as a number is one. -/

theorem digit_of (b : Byte) (h : isDigit b = true) : ∃ d : Fin 10, digit d = b := by
  unfold isDigit at h
  simp only [Bool.and_eq_true, decide_eq_true_eq] at h
  have h1 : 48 ≤ b.toNat := UInt8.le_iff_toNat_le.mp h.1
  have h2 : b.toNat ≤ 57 := UInt8.le_iff_toNat_le.mp h.2
  refine ⟨⟨b.toNat - 48, by omega⟩, ?_⟩
  unfold digit
  apply UInt8.toNat_inj.mp
  show (UInt8.ofNat (48 + (b.toNat - 48))).toNat = b.toNat
  rw [show 48 + (b.toNat - 48) = b.toNat by omega]
  simp

theorem digits_of (ds : List Byte) (h : ∀ b ∈ ds, isDigit b = true) : ∃ l : List (Fin 10), l.map digit = ds := by
  induction ds with
  | nil => exact ⟨[], rfl⟩
  | cons b ds ih =>
    obtain ⟨d, hd⟩ := digit_of b (h b (List.mem_cons_self ..))
    obtain ⟨l, hl⟩ := ih fun c hc => h c (List.mem_cons_of_mem _ hc)
    exact ⟨d :: l, by rw [List.map_cons, hd, hl]⟩

theorem takeWhile_imp {α : Type} (p : α → Bool) (l : List α) : ∀ a ∈ l.takeWhile p, p a = true := by
  induction l with
  | nil => intro a h; cases h
  | cons b l ih =>
    intro a h
    rw [List.takeWhile_cons] at h
    split at h
    · rename_i hb
      rcases List.mem_cons.mp h with rfl | h
      · exact hb
      · exact ih a h
    · cases h

theorem exponent_of (t : List Byte) (h : exponentOk t = true) :
    ∃ u e, expText u e = t ∧ ∀ s ds, e = some (s, ds) → ds ≠ [] := by
  cases t with
  | nil => exact ⟨false, none, rfl, fun s ds h => by cases h⟩
  | cons c rest =>
    cases rest with
    | nil => simp [exponentOk] at h
    | cons s ds =>
      have h' : ((decide (c = 101) || decide (c = 69)) &&
        (if (decide (s = 45) || decide (s = 43)) = true then !ds.isEmpty && ds.all isDigit else (s :: ds).all isDigit)) = true := h
      simp only [Bool.and_eq_true, Bool.or_eq_true, decide_eq_true_eq] at h'
      obtain ⟨hc, h'⟩ := h'
      have hu : ∃ u, letter u = c := by
        rcases hc with rfl | rfl
        · exact ⟨false, rfl⟩
        · exact ⟨true, rfl⟩
      obtain ⟨u, rfl⟩ := hu
      refine ⟨u, ?_⟩
      split at h'
      · rename_i hs
        simp only [Bool.and_eq_true, Bool.not_eq_true', List.all_eq_true] at h'
        obtain ⟨l, rfl⟩ := digits_of ds h'.2
        have hne : l ≠ [] := by
          rintro rfl
          cases h'.1
        rcases hs with rfl | rfl
        · exact ⟨some (some true, l), rfl, fun s ds h => by cases h; exact hne⟩
        · exact ⟨some (some false, l), rfl, fun s ds h => by cases h; exact hne⟩
      · obtain ⟨l, hl⟩ := digits_of (s :: ds) (List.all_eq_true.mp h')
        have hne : l ≠ [] := by
          rintro rfl
          cases hl
        exact ⟨some (none, l), by show letter u :: l.map digit = _; rw [hl], fun s ds h => by cases h; exact hne⟩

theorem fraction_of (t : List Byte) (h : fractionOk t = true) :
    ∃ fr u e, fracText fr ++ expText u e = t ∧ ∀ s ds, e = some (s, ds) → ds ≠ [] := by
  cases t with
  | nil => exact ⟨[], false, none, rfl, fun s ds h => by cases h⟩
  | cons b rest =>
    have h' : (if b = 46 then !(rest.takeWhile isDigit).isEmpty && exponentOk (rest.dropWhile isDigit)
      else exponentOk (b :: rest)) = true := h
    split at h'
    · rename_i hb
      subst hb
      simp only [Bool.and_eq_true, Bool.not_eq_true'] at h'
      obtain ⟨l, hl⟩ := digits_of (rest.takeWhile isDigit) (takeWhile_imp _ _)
      obtain ⟨u, e, he, hne⟩ := exponent_of _ h'.2
      refine ⟨l, u, e, ?_, hne⟩
      have : l ≠ [] := by
        rintro rfl
        rw [← hl] at h'
        cases h'.1
      unfold fracText
      rw [if_neg this, hl, he]
      show 46 :: (rest.takeWhile isDigit ++ rest.dropWhile isDigit) = _
      rw [List.takeWhile_append_dropWhile]
    · obtain ⟨u, e, he, hne⟩ := exponent_of _ h'
      exact ⟨[], u, e, he, hne⟩

theorem number_of (f : Floats) (t : List Byte) (j : Json) (h : readNum f t = some j) : ∃ n : Number, n.Ok ∧ n.text = t := by
  obtain ⟨neg, body, hs⟩ : ∃ neg body, sign t = (neg, body) := ⟨_, _, rfl⟩
  rw [readNum_unfold f t neg body _ _ hs rfl rfl] at h
  split at h
  · rename_i hok
    simp only [Bool.and_eq_true] at hok
    obtain ⟨hint, hfrac⟩ := hok
    obtain ⟨w, hw⟩ := digits_of (body.takeWhile isDigit) (takeWhile_imp _ _)
    obtain ⟨fr, u, e, hfe, hne⟩ := fraction_of _ hfrac
    refine ⟨⟨neg, w, fr, e, u⟩, ⟨?_, ?_, hne⟩, ?_⟩
    · rintro rfl
      rw [← hw] at hint
      cases hint
    · intro hz
      dsimp only at hz
      cases w with
      | nil => cases hz
      | cons d w =>
        simp only [List.head?_cons, Option.some.injEq] at hz
        subst hz
        rw [← hw] at hint
        unfold integerOk at hint
        simp only [Bool.and_eq_true, Bool.or_eq_true, decide_eq_true_eq, List.length_map] at hint
        rcases hint.2 with h | h
        · exact h
        · exact absurd rfl h
    · rw [text_eq]
      dsimp only
      rw [hfe, hw, List.takeWhile_append_dropWhile]
      cases t with
      | nil => cases hs; rfl
      | cons b rest =>
        have hs' : (if b = 45 then (true, rest) else (false, b :: rest)) = (neg, body) := hs
        split at hs'
        · rename_i hb
          cases hs'
          rw [hb]
          rfl
        · cases hs'
          rfl
  · cases h

theorem denotes_num {f : Floats} {t : List Byte} {j : Json} (h : readNum f t = some j) : Denotes f j t := by
  obtain ⟨n, hn, rfl⟩ := number_of f t j h
  by_cases hi : ∃ i, n.Is i
  · obtain ⟨i, hi⟩ := hi
    rw [number_int f n hn i hi] at h
    cases h
    simp only [Denotes]
    exact ⟨n, hn, rfl, hi⟩
  · have hi' : ∀ i, ¬ n.Is i := fun i h => hi ⟨i, h⟩
    rw [number_float f n hn hi'] at h
    cases hr : f.read n.text with
    | none => rw [hr] at h; cases h
    | some r =>
      rw [hr] at h
      cases h
      simp only [Denotes]
      exact ⟨n, hn, rfl, hi', hr⟩

/-! ## Strings -/

theorem hexVal_table : ∀ p ∈ hexDigits, hexVal p.1 = some p.2 := by decide

set_option maxRecDepth 20000 in
theorem hexVal_all : ∀ n : Fin 256, (hexVal (UInt8.ofNat n.val)).all (fun v => hexDigits.contains (UInt8.ofNat n.val, v)) = true := by
  decide

theorem hexVal_iff (b : Byte) (v : Nat) : hexVal b = some v ↔ (b, v) ∈ hexDigits := by
  constructor
  · intro hv
    have h := hexVal_all ⟨b.toNat, UInt8.toNat_lt b⟩
    have e : UInt8.ofNat b.toNat = b := by simp
    dsimp only at h
    rw [e, hv] at h
    simpa using h
  · exact fun hm => hexVal_table _ hm

theorem unescape_iff (e b : Byte) : unescape e = some b ↔ (e, b) ∈ shortEscapes := by
  unfold unescape shortEscapes
  simp only [List.mem_cons, Prod.mk.injEq, List.not_mem_nil, or_false]
  constructor
  · intro h
    repeat' split at h
    all_goals first
      | (cases h; done)
      | (injection h with h; simp_all)
  · rintro (⟨rfl, rfl⟩ | ⟨rfl, rfl⟩ | ⟨rfl, rfl⟩ | ⟨rfl, rfl⟩ | ⟨rfl, rfl⟩ | ⟨rfl, rfl⟩ | ⟨rfl, rfl⟩ | ⟨rfl, rfl⟩) <;> rfl

theorem encodeChar_char (ch : Char) : encodeChar ch.toNat = some (String.utf8EncodeChar ch) := by
  unfold encodeChar
  rw [if_pos (show ch.toNat.isValidChar from ch.valid), Char.ofNat_toNat]

theorem encodeChar_some {n : Nat} {bs : List Byte} (h : encodeChar n = some bs) :
    ∃ ch : Char, ch.toNat = n ∧ String.utf8EncodeChar ch = bs := by
  unfold encodeChar at h
  split at h
  · rename_i hv
    cases h
    refine ⟨Char.ofNat n, ?_, rfl⟩
    unfold Char.ofNat
    rw [dif_pos hv]
    rfl
  · cases h

theorem char_not_surrogate (ch : Char) : ¬ (0xD800 ≤ ch.toNat ∧ ch.toNat < 0xE000) := by
  have := ch.valid
  unfold UInt32.isValidChar Nat.isValidChar at this
  have e : ch.val.toNat = ch.toNat := rfl
  rw [e] at this
  omega

theorem step_hex {f : Floats} {st : List Frame} {use : Use} {acc : List Byte} {left code d : Nat} {b : Byte} (h : hexVal b = some d)
    (hl : left ≠ 1) : step f ⟨.hex use acc left code, st⟩ b = some ⟨.hex use acc (left - 1) (code * 16 + d), st⟩ := by
  show (match hexVal b with
    | none => none
    | some d => if left = 1 then endHex st use acc (code * 16 + d) else some ⟨.hex use acc (left - 1) (code * 16 + d), st⟩) = _
  rw [h]
  dsimp only
  rw [if_neg hl]

theorem step_hex_last {f : Floats} {st : List Frame} {use : Use} {acc : List Byte} {code d : Nat} {b : Byte} (h : hexVal b = some d) :
    step f ⟨.hex use acc 1 code, st⟩ b = endHex st use acc (code * 16 + d) := by
  show (match hexVal b with
    | none => none
    | some d => if 1 = 1 then endHex st use acc (code * 16 + d) else some ⟨.hex use acc (1 - 1) (code * 16 + d), st⟩) = _
  rw [h]
  dsimp only
  rw [if_pos rfl]

theorem step_hex_none {f : Floats} {st : List Frame} {use : Use} {acc : List Byte} {left code : Nat} {b : Byte} (h : hexVal b = none) :
    step f ⟨.hex use acc left code, st⟩ b = none := by
  show (match hexVal b with
    | none => none
    | some d => if left = 1 then endHex st use acc (code * 16 + d) else some ⟨.hex use acc (left - 1) (code * 16 + d), st⟩) = _
  rw [h]

theorem step_low {f : Floats} {st : List Frame} {use : Use} {acc : List Byte} {hi left code d : Nat} {b : Byte} (h : hexVal b = some d)
    (hl : left ≠ 1) : step f ⟨.lowHex use acc hi left code, st⟩ b = some ⟨.lowHex use acc hi (left - 1) (code * 16 + d), st⟩ := by
  show (match hexVal b with
    | none => none
    | some d => if left = 1 then endLow st use acc hi (code * 16 + d)
      else some ⟨.lowHex use acc hi (left - 1) (code * 16 + d), st⟩) = _
  rw [h]
  dsimp only
  rw [if_neg hl]

theorem step_low_last {f : Floats} {st : List Frame} {use : Use} {acc : List Byte} {hi code d : Nat} {b : Byte} (h : hexVal b = some d) :
    step f ⟨.lowHex use acc hi 1 code, st⟩ b = endLow st use acc hi (code * 16 + d) := by
  show (match hexVal b with
    | none => none
    | some d => if 1 = 1 then endLow st use acc hi (code * 16 + d)
      else some ⟨.lowHex use acc hi (1 - 1) (code * 16 + d), st⟩) = _
  rw [h]
  dsimp only
  rw [if_pos rfl]

theorem step_low_none {f : Floats} {st : List Frame} {use : Use} {acc : List Byte} {hi left code : Nat} {b : Byte} (h : hexVal b = none) :
    step f ⟨.lowHex use acc hi left code, st⟩ b = none := by
  show (match hexVal b with
    | none => none
    | some d => if left = 1 then endLow st use acc hi (code * 16 + d)
      else some ⟨.lowHex use acc hi (left - 1) (code * 16 + d), st⟩) = _
  rw [h]

theorem hex_run {f : Floats} {st : List Frame} {use : Use} {acc : List Byte} {a b c d : Byte} {n : Nat} (h : Hex4 a b c d n)
    (rest : List Byte) : parseFrom f ⟨.hex use acc 4 0, st⟩ (a :: b :: c :: d :: rest) =
      (endHex st use acc n).bind fun s => parseFrom f s rest := by
  obtain ⟨w, x, y, z, h1, h2, h3, h4, rfl⟩ := h
  rw [parseFrom_cons_some (step_hex ((hexVal_iff _ _).mpr h1) (by decide)),
    parseFrom_cons_some (step_hex ((hexVal_iff _ _).mpr h2) (by decide)),
    parseFrom_cons_some (step_hex ((hexVal_iff _ _).mpr h3) (by decide)), parseFrom_cons,
    step_hex_last ((hexVal_iff _ _).mpr h4)]
  rw [show (((0 * 16 + w) * 16 + x) * 16 + y) * 16 + z = w * 16 ^ 3 + x * 16 ^ 2 + y * 16 + z by omega]

theorem low_run {f : Floats} {st : List Frame} {use : Use} {acc : List Byte} {hi : Nat} {a b c d : Byte} {n : Nat} (h : Hex4 a b c d n)
    (rest : List Byte) : parseFrom f ⟨.lowHex use acc hi 4 0, st⟩ (a :: b :: c :: d :: rest) =
      (endLow st use acc hi n).bind fun s => parseFrom f s rest := by
  obtain ⟨w, x, y, z, h1, h2, h3, h4, rfl⟩ := h
  rw [parseFrom_cons_some (step_low ((hexVal_iff _ _).mpr h1) (by decide)),
    parseFrom_cons_some (step_low ((hexVal_iff _ _).mpr h2) (by decide)),
    parseFrom_cons_some (step_low ((hexVal_iff _ _).mpr h3) (by decide)), parseFrom_cons,
    step_low_last ((hexVal_iff _ _).mpr h4)]
  rw [show (((0 * 16 + w) * 16 + x) * 16 + y) * 16 + z = w * 16 ^ 3 + x * 16 ^ 2 + y * 16 + z by omega]

theorem chars_read (f : Floats) (st : List Frame) (use : Use) (rest : List Byte) {t u : List Byte} (h : Chars t u) :
    ∀ acc, parseFrom f ⟨.str use acc, st⟩ (t ++ 34 :: rest) = (endStr st use (acc ++ u)).bind fun s => parseFrom f s rest := by
  induction h with
  | nil => intro acc; rw [List.append_nil]; exact parseFrom_cons f _ 34 rest
  | @plain b t u h1 h2 h3 _ ih =>
    intro acc
    rw [List.cons_append, parseFrom_cons_some (s' := ⟨.str use (acc ++ [b]), st⟩) (by
      show (if b = 34 then endStr st use acc
        else if b = 92 then some ⟨.esc use acc, st⟩
        else if b < 32 then none
        else some ⟨.str use (acc ++ [b]), st⟩) = _
      rw [if_neg h2, if_neg h3, if_neg h1]), ih, List.append_assoc]
    rfl
  | @short e b t u h1 _ ih =>
    intro acc
    have hne : e ≠ 117 := by
      rintro rfl
      revert h1
      unfold shortEscapes
      simp
    rw [List.cons_append, List.cons_append, parseFrom_cons_some (s' := ⟨.esc use acc, st⟩) rfl,
      parseFrom_cons_some (s' := ⟨.str use (acc ++ [b]), st⟩) (by
        show (if e = 117 then _ else (unescape e).map fun c => (⟨.str use (acc ++ [c]), st⟩ : State)) = _
        rw [if_neg hne, (unescape_iff e b).mpr h1]
        rfl), ih, List.append_assoc]
    rfl
  | @unicode a b c d t u ch h1 _ ih =>
    intro acc
    have hch := char_not_surrogate ch
    simp only [List.cons_append]
    rw [parseFrom_cons_some (s' := ⟨.esc use acc, st⟩) rfl, parseFrom_cons_some (s' := ⟨.hex use acc 4 0, st⟩) rfl,
      hex_run h1]
    unfold endHex
    rw [if_neg (by omega), encodeChar_char]
    show parseFrom f ⟨.str use (acc ++ String.utf8EncodeChar ch), st⟩ _ = _
    rw [ih, List.append_assoc]
  | @pair a b c d a' b' c' d' t u ch hi lo h1 h2 h3 h4 h5 h6 h7 _ ih =>
    intro acc
    simp only [List.cons_append]
    rw [parseFrom_cons_some (s' := ⟨.esc use acc, st⟩) rfl, parseFrom_cons_some (s' := ⟨.hex use acc 4 0, st⟩) rfl,
      hex_run h1]
    unfold endHex
    rw [if_pos ⟨h3, h4⟩]
    show parseFrom f ⟨.lowEsc use acc hi, st⟩ _ = _
    rw [parseFrom_cons_some (s' := ⟨.lowU use acc hi, st⟩) rfl, parseFrom_cons_some (s' := ⟨.lowHex use acc hi 4 0, st⟩) rfl,
      low_run h2]
    unfold endLow
    rw [if_pos ⟨h5, h6⟩, show 0x10000 + (hi - 0xD800) * 1024 + (lo - 0xDC00) = ch.toNat from h7.symm, encodeChar_char]
    show parseFrom f ⟨.str use (acc ++ String.utf8EncodeChar ch), st⟩ _ = _
    rw [ih, List.append_assoc]

theorem ofUtf8_some {bs : List Byte} {s : String} (h : ofUtf8 bs = some s) : bs = s.toByteArray.data.toList := by
  unfold ofUtf8 String.fromUTF8? at h
  split at h
  · cases h
    rfl
  · cases h

theorem peel {f : Floats} {s : State} {rest : List Byte} {v : Json} (hf : finish f s = none) (h : parseFrom f s rest = some v) :
    ∃ b r s', rest = b :: r ∧ step f s b = some s' ∧ parseFrom f s' r = some v := by
  cases rest with
  | nil =>
    have : parseFrom f s [] = finish f s := rfl
    rw [this, hf] at h
    cases h
  | cons b r =>
    rw [parseFrom_cons] at h
    cases hs : step f s b with
    | none => rw [hs] at h; cases h
    | some s' => rw [hs] at h; exact ⟨b, r, s', rfl, hs, h⟩

theorem finish_none {f : Floats} {s : State} (h1 : ∀ v, s.mode ≠ .done v) (h2 : ∀ acc, s.mode ≠ .num acc) : finish f s = none := by
  obtain ⟨m, st⟩ := s
  cases st with
  | cons fr st => rfl
  | nil =>
    cases m <;> first
      | rfl
      | exact absurd rfl (h1 _)
      | exact absurd rfl (h2 _)

theorem peel_hex {f : Floats} {st : List Frame} {use : Use} {acc : List Byte} {left code : Nat} {rest : List Byte} {v : Json}
    (hl : left ≠ 1) (h : parseFrom f ⟨.hex use acc left code, st⟩ rest = some v) :
    ∃ b d r, rest = b :: r ∧ (b, d) ∈ hexDigits ∧ parseFrom f ⟨.hex use acc (left - 1) (code * 16 + d), st⟩ r = some v := by
  obtain ⟨b, r, s', rfl, hs, hr⟩ := peel (finish_none (by intro v h; cases h) (by intro v h; cases h)) h
  cases hx : hexVal b with
  | none => rw [step_hex_none hx] at hs; cases hs
  | some d =>
    rw [step_hex hx hl] at hs
    cases hs
    exact ⟨b, d, r, rfl, (hexVal_iff _ _).mp hx, hr⟩

theorem peel_low {f : Floats} {st : List Frame} {use : Use} {acc : List Byte} {hi left code : Nat} {rest : List Byte} {v : Json}
    (hl : left ≠ 1) (h : parseFrom f ⟨.lowHex use acc hi left code, st⟩ rest = some v) :
    ∃ b d r, rest = b :: r ∧ (b, d) ∈ hexDigits ∧ parseFrom f ⟨.lowHex use acc hi (left - 1) (code * 16 + d), st⟩ r = some v := by
  obtain ⟨b, r, s', rfl, hs, hr⟩ := peel (finish_none (by intro v h; cases h) (by intro v h; cases h)) h
  cases hx : hexVal b with
  | none => rw [step_low_none hx] at hs; cases hs
  | some d =>
    rw [step_low hx hl] at hs
    cases hs
    exact ⟨b, d, r, rfl, (hexVal_iff _ _).mp hx, hr⟩

theorem hex_sound {f : Floats} {st : List Frame} {use : Use} {acc : List Byte} {rest : List Byte} {v : Json}
    (h : parseFrom f ⟨.hex use acc 4 0, st⟩ rest = some v) :
    ∃ a b c d n r s', rest = a :: b :: c :: d :: r ∧ Hex4 a b c d n ∧ endHex st use acc n = some s' ∧ parseFrom f s' r = some v := by
  obtain ⟨a, w, r1, rfl, h1, h⟩ := peel_hex (by decide) h
  obtain ⟨b, x, r2, rfl, h2, h⟩ := peel_hex (by decide) h
  obtain ⟨c, y, r3, rfl, h3, h⟩ := peel_hex (by decide) h
  obtain ⟨d, r, s', rfl, hs, hr⟩ := peel (finish_none (by intro v h; cases h) (by intro v h; cases h)) h
  cases hx : hexVal d with
  | none => rw [step_hex_none hx] at hs; cases hs
  | some z =>
    rw [step_hex_last hx] at hs
    refine ⟨a, b, c, d, _, r, s', rfl, ⟨w, x, y, z, h1, h2, h3, (hexVal_iff _ _).mp hx, rfl⟩, ?_, hr⟩
    rw [show w * 16 ^ 3 + x * 16 ^ 2 + y * 16 + z = (((0 * 16 + w) * 16 + x) * 16 + y) * 16 + z by omega]
    exact hs

theorem low_sound {f : Floats} {st : List Frame} {use : Use} {acc : List Byte} {hi : Nat} {rest : List Byte} {v : Json}
    (h : parseFrom f ⟨.lowHex use acc hi 4 0, st⟩ rest = some v) :
    ∃ a b c d n r s', rest = a :: b :: c :: d :: r ∧ Hex4 a b c d n ∧ endLow st use acc hi n = some s' ∧ parseFrom f s' r = some v := by
  obtain ⟨a, w, r1, rfl, h1, h⟩ := peel_low (by decide) h
  obtain ⟨b, x, r2, rfl, h2, h⟩ := peel_low (by decide) h
  obtain ⟨c, y, r3, rfl, h3, h⟩ := peel_low (by decide) h
  obtain ⟨d, r, s', rfl, hs, hr⟩ := peel (finish_none (by intro v h; cases h) (by intro v h; cases h)) h
  cases hx : hexVal d with
  | none => rw [step_low_none hx] at hs; cases hs
  | some z =>
    rw [step_low_last hx] at hs
    refine ⟨a, b, c, d, _, r, s', rfl, ⟨w, x, y, z, h1, h2, h3, (hexVal_iff _ _).mp hx, rfl⟩, ?_, hr⟩
    rw [show w * 16 ^ 3 + x * 16 ^ 2 + y * 16 + z = (((0 * 16 + w) * 16 + x) * 16 + y) * 16 + z by omega]
    exact hs

theorem chars_sound (f : Floats) (st : List Frame) (use : Use) (v : Json) : ∀ (n : Nat) (rest : List Byte), rest.length ≤ n → ∀ acc,
    parseFrom f ⟨.str use acc, st⟩ rest = some v →
    ∃ body u r s', rest = body ++ 34 :: r ∧ Chars body u ∧ endStr st use (acc ++ u) = some s' ∧ parseFrom f s' r = some v := by
  intro n
  induction n with
  | zero =>
    intro rest hn acc h
    obtain ⟨b, r, s', rfl, _, _⟩ := peel (finish_none (by intro v h; cases h) (by intro v h; cases h)) h
    simp at hn
  | succ n ih =>
    intro rest hn acc h
    obtain ⟨b, r, s', rfl, hs, hr⟩ := peel (finish_none (by intro v h; cases h) (by intro v h; cases h)) h
    rw [List.length_cons] at hn
    have hs : (if b = 34 then endStr st use acc
        else if b = 92 then some ⟨.esc use acc, st⟩
        else if b < 32 then none
        else some ⟨.str use (acc ++ [b]), st⟩) = some s' := hs
    by_cases h34 : b = 34
    · rw [if_pos h34] at hs
      subst h34
      exact ⟨[], [], r, s', rfl, .nil, by rw [List.append_nil]; exact hs, hr⟩
    rw [if_neg h34] at hs
    by_cases h92 : b = 92
    · rw [if_pos h92] at hs
      subst h92
      cases hs
      obtain ⟨e, r2, s2, rfl, hs2, hr2⟩ := peel (finish_none (by intro v h; cases h) (by intro v h; cases h)) hr
      rw [List.length_cons] at hn
      have hs2 : (if e = 117 then some (⟨.hex use acc 4 0, st⟩ : State)
        else (unescape e).map fun c => (⟨.str use (acc ++ [c]), st⟩ : State)) = some s2 := hs2
      by_cases h117 : e = 117
      · rw [if_pos h117] at hs2
        subst h117
        cases hs2
        obtain ⟨a, b, c, d, code, r3, s3, rfl, hx, he, hr3⟩ := hex_sound hr2
        simp only [List.length_cons] at hn
        unfold endHex at he
        split at he
        · rename_i hsur
          cases he
          obtain ⟨e1, r4, s4, rfl, hs4, hr4⟩ := peel (finish_none (by intro v h; cases h) (by intro v h; cases h)) hr3
          have hs4 : (if e1 = 92 then some (⟨.lowU use acc code, st⟩ : State) else none) = some s4 := hs4
          split at hs4
          · rename_i h1
            subst h1
            cases hs4
            obtain ⟨e2, r5, s5, rfl, hs5, hr5⟩ := peel (finish_none (by intro v h; cases h) (by intro v h; cases h)) hr4
            have hs5 : (if e2 = 117 then some (⟨.lowHex use acc code 4 0, st⟩ : State) else none) = some s5 := hs5
            split at hs5
            · rename_i h2
              subst h2
              cases hs5
              obtain ⟨a', b', c', d', lo, r6, s6, rfl, hx', he', hr6⟩ := low_sound hr5
              unfold endLow at he'
              split at he'
              · rename_i hlo
                cases henc : encodeChar (0x10000 + (code - 0xD800) * 1024 + (lo - 0xDC00)) with
                | none => rw [henc] at he'; cases he'
                | some bs =>
                  rw [henc] at he'
                  cases he'
                  obtain ⟨ch, hch, rfl⟩ := encodeChar_some henc
                  simp only [List.length_cons] at hn
                  obtain ⟨body, u, r7, s7, rfl, hc, hend, hr7⟩ := ih r6 (by omega) _ hr6
                  refine ⟨_, _, r7, s7, ?_, .pair hx hx' hsur.1 hsur.2 hlo.1 hlo.2 hch hc, ?_, hr7⟩
                  · simp only [List.cons_append]
                  · rw [← List.append_assoc]; exact hend
              · cases he'
            · cases hs5
          · cases hs4
        · cases henc : encodeChar code with
          | none => rw [henc] at he; cases he
          | some bs =>
            rw [henc] at he
            cases he
            obtain ⟨ch, rfl, rfl⟩ := encodeChar_some henc
            obtain ⟨body, u, r4, s4, rfl, hc, hend, hr4⟩ := ih r3 (by omega) _ hr3
            refine ⟨_, _, r4, s4, ?_, .unicode hx hc, ?_, hr4⟩
            · simp only [List.cons_append]
            · rw [← List.append_assoc]; exact hend
      · rw [if_neg h117] at hs2
        cases hu : unescape e with
        | none => rw [hu] at hs2; cases hs2
        | some c =>
          rw [hu] at hs2
          cases hs2
          obtain ⟨body, u, r3, s3, rfl, hc, hend, hr3⟩ := ih r2 (by omega) _ hr2
          refine ⟨92 :: e :: body, c :: u, r3, s3, rfl, .short ((unescape_iff e c).mp hu) hc, ?_, hr3⟩
          rw [List.append_assoc] at hend
          exact hend
    · rw [if_neg h92] at hs
      split at hs
      · cases hs
      · rename_i hge
        cases hs
        obtain ⟨body, u, r3, s3, rfl, hc, hend, hr3⟩ := ih r (by omega) _ hr
        refine ⟨b :: body, b :: u, r3, s3, rfl, .plain hge h34 h92 hc, ?_, hr3⟩
        rw [List.append_assoc] at hend
        exact hend

/-! ## Every text of a document is read -/

theorem string_read (f : Floats) (s : String) (t : List Byte) (h : StringText s t) (σ : State) (ha : Awaits σ) (rest : List Byte) :
    parseFrom f σ (t ++ rest) = parseFrom f (deliver (.str s) σ.stack) rest := by
  obtain ⟨body, rfl, hc⟩ := h
  have e : 34 :: body ++ [34] ++ rest = 34 :: (body ++ 34 :: rest) := by simp
  rw [e, parseFrom_cons_some (s' := ⟨.str .value [], σ.stack⟩) (by rw [step_value f σ ha 34 rfl (by decide)]; rfl),
    chars_read f _ _ _ hc, List.nil_append]
  show (endStr σ.stack .value (utf8 s)).bind _ = _
  rw [endStr_value]
  rfl

theorem key_read (f : Floats) (k : String) (t : List Byte) (h : StringText k t) (m : List (String × Json)) (st : List Frame) (mode : Mode)
    (hm : mode = .key ∨ mode = .keyOrEnd) (rest : List Byte) :
    parseFrom f ⟨mode, .obj m :: st⟩ (t ++ rest) = parseFrom f ⟨.colon, .member m k :: st⟩ rest := by
  obtain ⟨body, rfl, hc⟩ := h
  have e : 34 :: body ++ [34] ++ rest = 34 :: (body ++ 34 :: rest) := by simp
  rw [e, parseFrom_cons_some (s' := ⟨.str .key [], .obj m :: st⟩) (by rcases hm with rfl | rfl <;> rfl),
    chars_read f _ _ _ hc, List.nil_append]
  show (endStr (.obj m :: st) .key (utf8 k)).bind _ = _
  rw [endStr_key]
  rfl

theorem delim_moreElems {f : Floats} {l : List Json} {t : List Byte} (h : MoreElems f l t) (rest : List Byte) : Delim (t ++ 93 :: rest) := by
  cases l with
  | nil => simp only [MoreElems] at h; subst h; rfl
  | cons j l => simp only [MoreElems] at h; obtain ⟨w, v, w', r, rfl, _⟩ := h; rfl

theorem delim_moreMembers {f : Floats} {l : List (String × Json)} {t : List Byte} (h : MoreMembers f l t) (rest : List Byte) :
    Delim (t ++ 125 :: rest) := by
  cases l with
  | nil => simp only [MoreMembers] at h; subst h; rfl
  | cons kj l =>
    obtain ⟨k, j⟩ := kj
    simp only [MoreMembers] at h
    obtain ⟨w, n, w', w'', v, w4, r, rfl, _⟩ := h
    rfl

mutual
theorem value_read (f : Floats) (j : Json) (t : List Byte) (h : Denotes f j t) (s : State) (ha : Awaits s)
    (hd : s.stack.length + depth j < 128) (rest : List Byte) (hr : Delim rest) :
    parseFrom f s (t ++ rest) = parseFrom f (deliver j s.stack) rest := by
  match j with
  | .null =>
    simp only [Denotes] at h
    subst h
    show parseFrom f s (110 :: 117 :: 108 :: 108 :: rest) = _
    rw [parseFrom_cons_some (by rw [step_value f s ha 110 rfl (by decide)]; rfl)]
    rfl
  | .bool true =>
    simp only [Denotes] at h
    subst h
    show parseFrom f s (116 :: 114 :: 117 :: 101 :: rest) = _
    rw [parseFrom_cons_some (by rw [step_value f s ha 116 rfl (by decide)]; rfl)]
    rfl
  | .bool false =>
    simp only [Denotes] at h
    subst h
    show parseFrom f s (102 :: 97 :: 108 :: 115 :: 101 :: rest) = _
    rw [parseFrom_cons_some (by rw [step_value f s ha 102 rfl (by decide)]; rfl)]
    rfl
  | .int i =>
    simp only [Denotes] at h
    obtain ⟨n, hn, rfl, hi⟩ := h
    exact parse_num f _ _ ⟨number_bytes n, number_first n hn, number_int f n hn i hi⟩ s ha rest hr
  | .float r =>
    simp only [Denotes] at h
    obtain ⟨n, hn, rfl, hi, hf⟩ := h
    exact parse_num f _ _ ⟨number_bytes n, number_first n hn, by rw [number_float f n hn hi, hf]; rfl⟩ s ha rest hr
  | .str x =>
    simp only [Denotes] at h
    exact string_read f x t h s ha rest
  | .arr l =>
    simp only [Denotes] at h
    obtain ⟨body, rfl, hl⟩ := h
    simp only [depth] at hd
    have e : 91 :: body ++ [93] ++ rest = 91 :: (body ++ 93 :: rest) := by simp
    rw [e, parseFrom_cons_some (s' := ⟨.elemOrEnd, .arr [] :: s.stack⟩) (by
      rw [step_value f s ha 91 rfl (by decide)]
      show (if s.stack.length + 1 < depthLimit then some _ else none) = _
      rw [if_pos (by unfold depthLimit; omega)])]
    cases l with
    | nil =>
      simp only [Elems] at hl
      rw [skip_blank f ⟨.elemOrEnd, _⟩ trivial _ _ hl]
      rfl
    | cons j l =>
      simp only [Elems] at hl
      obtain ⟨w, v, w', r, rfl, hw, hw', hv, hm⟩ := hl
      simp only [depths] at hd
      simp only [List.append_assoc]
      rw [skip_blank f ⟨.elemOrEnd, _⟩ trivial _ _ hw, value_read f j v hv ⟨.elemOrEnd, .arr [] :: s.stack⟩ (.inr rfl)
        (by show s.stack.length + 1 + depth j < 128; omega) _ (delim_blank hw' (delim_moreElems hm rest)),
        skip_blank f _ (deliver_skips _ _) _ _ hw']
      exact elems_read f l r hm [j] s.stack (by omega) rest
  | .obj m =>
    simp only [Denotes] at h
    obtain ⟨body, rfl, hl⟩ := h
    simp only [depth] at hd
    have e : 123 :: body ++ [125] ++ rest = 123 :: (body ++ 125 :: rest) := by simp
    rw [e, parseFrom_cons_some (s' := ⟨.keyOrEnd, .obj [] :: s.stack⟩) (by
      rw [step_value f s ha 123 rfl (by decide)]
      show (if s.stack.length + 1 < depthLimit then some _ else none) = _
      rw [if_pos (by unfold depthLimit; omega)])]
    cases m with
    | nil =>
      simp only [Members] at hl
      rw [skip_blank f ⟨.keyOrEnd, _⟩ trivial _ _ hl]
      rfl
    | cons kj l =>
      obtain ⟨k, j⟩ := kj
      simp only [Members] at hl
      obtain ⟨w₁, n, w₂, w₃, v, w₄, r, rfl, h1, h2, h3, h4, hn, hv, hm⟩ := hl
      simp only [memberDepths] at hd
      simp only [List.append_assoc, List.cons_append]
      rw [skip_blank f ⟨.keyOrEnd, _⟩ trivial _ _ h1, key_read f k n hn [] s.stack _ (.inr rfl), skip_blank f ⟨.colon, _⟩ trivial _ _ h2,
        parseFrom_cons_some (s' := ⟨.value, .member [] k :: s.stack⟩) rfl, skip_blank f ⟨.value, _⟩ trivial _ _ h3,
        value_read f j v hv ⟨.value, .member [] k :: s.stack⟩ (.inl rfl)
        (by show s.stack.length + 1 + depth j < 128; omega) _ (delim_blank h4 (delim_moreMembers hm rest)),
        skip_blank f _ (deliver_skips _ _) _ _ h4]
      exact members_read f l r hm [(k, j)] s.stack (by omega) rest
theorem elems_read (f : Floats) (l : List Json) (t : List Byte) (h : MoreElems f l t) (acc : List Json) (st : List Frame)
    (hd : st.length + 1 + depths l < 128) (rest : List Byte) :
    parseFrom f ⟨.nextElem, .arr acc :: st⟩ (t ++ 93 :: rest) = parseFrom f (deliver (.arr (acc ++ l)) st) rest := by
  match l with
  | [] =>
    simp only [MoreElems] at h
    subst h
    rw [List.append_nil]
    rfl
  | j :: l =>
    simp only [MoreElems] at h
    obtain ⟨w, v, w', r, rfl, hw, hw', hv, hm⟩ := h
    simp only [depths] at hd
    simp only [List.append_assoc, List.cons_append]
    rw [parseFrom_cons_some (s' := ⟨.value, .arr acc :: st⟩) rfl, skip_blank f ⟨.value, _⟩ trivial _ _ hw,
      value_read f j v hv ⟨.value, .arr acc :: st⟩ (.inl rfl)
        (by show st.length + 1 + depth j < 128; omega) _ (delim_blank hw' (delim_moreElems hm rest)),
        skip_blank f _ (deliver_skips _ _) _ _ hw']
    have := elems_read f l r hm (acc ++ [j]) st (by omega) rest
    rw [List.append_assoc] at this
    exact this
theorem members_read (f : Floats) (l : List (String × Json)) (t : List Byte) (h : MoreMembers f l t) (acc : List (String × Json))
    (st : List Frame) (hd : st.length + 1 + memberDepths l < 128) (rest : List Byte) :
    parseFrom f ⟨.nextMember, .obj acc :: st⟩ (t ++ 125 :: rest) = parseFrom f (deliver (.obj (acc ++ l)) st) rest := by
  match l with
  | [] =>
    simp only [MoreMembers] at h
    subst h
    rw [List.append_nil]
    rfl
  | (k, j) :: l =>
    simp only [MoreMembers] at h
    obtain ⟨w₁, n, w₂, w₃, v, w₄, r, rfl, h1, h2, h3, h4, hn, hv, hm⟩ := h
    simp only [memberDepths] at hd
    simp only [List.append_assoc, List.cons_append]
    rw [parseFrom_cons_some (s' := ⟨.key, .obj acc :: st⟩) rfl, skip_blank f ⟨.key, _⟩ trivial _ _ h1,
      key_read f k n hn acc st _ (.inl rfl), skip_blank f ⟨.colon, _⟩ trivial _ _ h2,
      parseFrom_cons_some (s' := ⟨.value, .member acc k :: st⟩) rfl, skip_blank f ⟨.value, _⟩ trivial _ _ h3,
      value_read f j v hv ⟨.value, .member acc k :: st⟩ (.inl rfl)
        (by show st.length + 1 + depth j < 128; omega) _ (delim_blank h4 (delim_moreMembers hm rest)),
        skip_blank f _ (deliver_skips _ _) _ _ h4]
    have := members_read f l r hm (acc ++ [(k, j)]) st (by omega) rest
    rw [List.append_assoc] at this
    exact this
end

/-! ## Nothing else is read -/

theorem drop_blank (t : List Byte) : ∃ w r, t = w ++ r ∧ Blank w ∧ ∀ b r', r = b :: r' → isSpace b = false := by
  induction t with
  | nil => exact ⟨[], [], rfl, fun b h => (by cases h), fun b r' h => by cases h⟩
  | cons c t ih =>
    cases hc : isSpace c with
    | true =>
      obtain ⟨w, r, rfl, hw, hr⟩ := ih
      refine ⟨c :: w, r, rfl, fun b hb => ?_, hr⟩
      rcases List.mem_cons.mp hb with rfl | hb
      · exact (isSpace_iff b).mp hc
      · exact hw b hb
    | false =>
      refine ⟨[], c :: t, rfl, fun b h => (by cases h), fun b r' h => ?_⟩
      cases h
      exact hc

/-- Blanks, and then something. -/
theorem peel_blank {f : Floats} {s : State} {rest : List Byte} {v : Json} (hs : Skips s.mode) (hf : finish f s = none)
    (h : parseFrom f s rest = some v) :
    ∃ w b r s', rest = w ++ b :: r ∧ Blank w ∧ isSpace b = false ∧ step f s b = some s' ∧ parseFrom f s' r = some v := by
  obtain ⟨w, r, rfl, hw, hr⟩ := drop_blank rest
  rw [skip_blank f s hs w r hw] at h
  obtain ⟨b, r, s', rfl, h1, h2⟩ := peel hf h
  exact ⟨w, b, r, s', rfl, hw, hr b r rfl, h1, h2⟩

theorem num_sound (f : Floats) (st : List Frame) (v : Json) (rest : List Byte) : ∀ acc,
    parseFrom f ⟨.num acc, st⟩ rest = some v →
    ∃ t r j, rest = t ++ r ∧ readNum f (acc ++ t) = some j ∧ parseFrom f (deliver j st) r = some v := by
  induction rest with
  | nil =>
    intro acc h
    have h : finish f ⟨.num acc, st⟩ = some v := h
    cases st with
    | cons fr st => cases h
    | nil =>
      have h : readNum f acc = some v := h
      exact ⟨[], [], v, rfl, by rw [List.append_nil]; exact h, rfl⟩
  | cons b rest ih =>
    intro acc h
    rw [parseFrom_cons] at h
    have e : step f ⟨.num acc, st⟩ b = if isNumByte b then some (⟨.num (acc ++ [b]), st⟩ : State)
        else (readNum f acc).bind fun v => stepPlain (deliver v st) b := rfl
    rw [e] at h
    split at h
    · obtain ⟨t, r, j, rfl, h1, h2⟩ := ih _ h
      rw [List.append_assoc] at h1
      exact ⟨b :: t, r, j, rfl, h1, h2⟩
    · cases hr : readNum f acc with
      | none => rw [hr] at h; cases h
      | some j =>
        rw [hr] at h
        refine ⟨[], b :: rest, j, rfl, by rw [List.append_nil]; exact hr, ?_⟩
        rw [parseFrom_cons, step_deliver]
        exact h

theorem lit_sound {f : Floats} {st : List Frame} {j v : Json} (lit : List Byte) : ∀ {rest : List Byte}, lit ≠ [] →
    parseFrom f ⟨.lit lit j, st⟩ rest = some v → ∃ r, rest = lit ++ r ∧ parseFrom f (deliver j st) r = some v := by
  induction lit with
  | nil => intro rest h; exact absurd rfl h
  | cons c lit ih =>
    intro rest _ h
    obtain ⟨b, r, s', rfl, hs, hr⟩ := peel (finish_none (by intro v h; cases h) (by intro v h; cases h)) h
    cases lit with
    | nil =>
      have hs : (if b = c then some (deliver j st) else none) = some s' := hs
      split at hs
      · rename_i hb
        cases hs
        exact ⟨r, by rw [hb]; rfl, hr⟩
      · cases hs
    | cons d lit =>
      have hs : (if b = c then some (⟨.lit (d :: lit) j, st⟩ : State) else none) = some s' := hs
      split at hs
      · rename_i hb
        cases hs
        obtain ⟨r', rfl, h'⟩ := ih (List.cons_ne_nil _ _) hr
        exact ⟨r', by rw [hb]; rfl, h'⟩
      · cases hs

theorem endStr_some {st : List Frame} {bs : List Byte} {s : State} (h : endStr st .value bs = some s) :
    ∃ x : String, bs = x.toByteArray.data.toList ∧ s = deliver (.str x) st := by
  unfold endStr at h
  cases hx : ofUtf8 bs with
  | none => rw [hx] at h; cases h
  | some x =>
    rw [hx] at h
    cases h
    exact ⟨x, ofUtf8_some hx, rfl⟩

theorem endStr_key_some {m : List (String × Json)} {st : List Frame} {bs : List Byte} {s : State}
    (h : endStr (.obj m :: st) .key bs = some s) :
    ∃ x : String, bs = x.toByteArray.data.toList ∧ s = ⟨.colon, .member m x :: st⟩ := by
  unfold endStr at h
  cases hx : ofUtf8 bs with
  | none => rw [hx] at h; cases h
  | some x =>
    rw [hx] at h
    cases h
    exact ⟨x, ofUtf8_some hx, rfl⟩

theorem open_some {mode : Mode} {fr : Frame} {st : List Frame} {s : State} (h : open' mode fr st = some s) :
    s = ⟨mode, fr :: st⟩ ∧ st.length + 1 < 128 := by
  unfold open' at h
  split at h
  · rename_i hl
    cases h
    exact ⟨rfl, hl⟩
  · cases h

/-- What is read from the first byte of a value on. -/
def ValueSound (f : Floats) (v : Json) (n : Nat) : Prop :=
  ∀ (st : List Frame) (b : Byte) (r : List Byte) (s : State), r.length < n → st.length < 128 → beginValue st b = some s →
    parseFrom f s r = some v →
    ∃ t r' j, b :: r = t ++ r' ∧ t ≠ [] ∧ Denotes f j t ∧ st.length + depth j < 128 ∧ parseFrom f (deliver j st) r' = some v

theorem elems_sound {f : Floats} {v : Json} {n : Nat} (ih : ValueSound f v n) (st : List Frame) (hst : st.length + 1 < 128) :
    ∀ (m : Nat) (rest : List Byte), rest.length ≤ m → rest.length ≤ n → ∀ acc,
    parseFrom f ⟨.nextElem, .arr acc :: st⟩ rest = some v →
    ∃ w t r l, rest = w ++ t ++ 93 :: r ∧ Blank w ∧ MoreElems f l t ∧ st.length + 1 + depths l < 128 ∧
      parseFrom f (deliver (.arr (acc ++ l)) st) r = some v := by
  intro m
  induction m with
  | zero =>
    intro rest hm _ acc h
    obtain ⟨b, r, s', rfl, _, _⟩ := peel (finish_none (by intro v h; cases h) (by intro v h; cases h)) h
    simp at hm
  | succ m ihm =>
    intro rest hm hn acc h
    obtain ⟨w, b, r, s', rfl, hw, hb, hs, hr⟩ := peel_blank (by trivial) (finish_none (by intro v h; cases h) (by intro v h; cases h)) h
    simp only [List.length_append, List.length_cons] at hm hn
    have hs : (if isSpace b = true then some (⟨.nextElem, .arr acc :: st⟩ : State)
      else if b = 44 then some ⟨.value, .arr acc :: st⟩
      else if b = 93 then some (deliver (.arr acc) st) else none) = some s' := hs
    rw [if_neg (by rw [hb]; exact Bool.false_ne_true)] at hs
    by_cases h44 : b = 44
    · rw [if_pos h44] at hs
      cases hs
      subst h44
      obtain ⟨w1, b1, r1, s1, rfl, hw1, hb1, hs1, hr1⟩ :=
        peel_blank (by trivial) (finish_none (by intro v h; cases h) (by intro v h; cases h)) hr
      have hs1 : (if isSpace b1 = true then some (⟨.value, .arr acc :: st⟩ : State) else beginValue (.arr acc :: st) b1) = some s1 := hs1
      rw [if_neg (by rw [hb1]; exact Bool.false_ne_true)] at hs1
      simp only [List.length_append, List.length_cons] at hm hn
      obtain ⟨t, r2, j, he, hne, hj, hd, hr2⟩ := ih (.arr acc :: st) b1 r1 s1 (by omega) hst hs1 hr1
      have hr2 : parseFrom f ⟨.nextElem, .arr (acc ++ [j]) :: st⟩ r2 = some v := hr2
      have hlen := congrArg List.length he
      simp only [List.length_append, List.length_cons] at hlen
      have htl : 0 < t.length := List.length_pos_iff.mpr hne
      obtain ⟨w3, t3, r3, l, rfl, hw3, hl, hd3, hr3⟩ := ihm r2 (by omega) (by omega) _ hr2
      refine ⟨w, 44 :: (w1 ++ t ++ w3 ++ t3), r3, j :: l, ?_, hw, ?_, ?_, ?_⟩
      · rw [he]
        simp only [List.append_assoc, List.cons_append]
      · simp only [MoreElems]
        exact ⟨w1, t, w3, t3, rfl, hw1, hw3, hj, hl⟩
      · simp only [depths]
        have hd : st.length + 1 + depth j < 128 := hd
        omega
      · rw [List.append_assoc] at hr3
        exact hr3
    · rw [if_neg h44] at hs
      split at hs
      · rename_i h93
        cases hs
        subst h93
        refine ⟨w, [], r, [], by simp, hw, by simp only [MoreElems], by simp only [depths]; omega, by rw [List.append_nil]; exact hr⟩
      · cases hs

/-- From a name on, which is preceded by blanks. -/
theorem member_sound {f : Floats} {v : Json} {n : Nat} (ih : ValueSound f v n) (st : List Frame) (hst : st.length + 1 < 128)
    (acc : List (String × Json)) (rest : List Byte) (hn : rest.length ≤ n)
    (h : parseFrom f ⟨.str .key [], .obj acc :: st⟩ rest = some v) :
    ∃ k nm w₂ w₃ t r j, 34 :: rest = nm ++ w₂ ++ 58 :: (w₃ ++ t ++ r) ∧ Blank w₂ ∧ Blank w₃ ∧ StringText k nm ∧ Denotes f j t ∧
      r.length < rest.length ∧ st.length + 1 + depth j < 128 ∧ parseFrom f ⟨.nextMember, .obj (acc ++ [(k, j)]) :: st⟩ r = some v := by
  obtain ⟨body, u, r1, s1, rfl, hc, hend, hr1⟩ := chars_sound f (.obj acc :: st) .key v _ rest (Nat.le_refl _) [] h
  obtain ⟨k, hk, rfl⟩ := endStr_key_some hend
  rw [List.nil_append] at hk
  subst hk
  obtain ⟨w2, b2, r2, s2, rfl, hw2, hb2, hs2, hr2⟩ :=
    peel_blank (by trivial) (finish_none (by intro v h; cases h) (by intro v h; cases h)) hr1
  have hs2 : (if isSpace b2 = true then some (⟨.colon, .member acc k :: st⟩ : State)
    else if b2 = 58 then some ⟨.value, .member acc k :: st⟩ else none) = some s2 := hs2
  rw [if_neg (by rw [hb2]; exact Bool.false_ne_true)] at hs2
  split at hs2
  · rename_i h58
    cases hs2
    subst h58
    obtain ⟨w3, b3, r3, s3, rfl, hw3, hb3, hs3, hr3⟩ :=
      peel_blank (by trivial) (finish_none (by intro v h; cases h) (by intro v h; cases h)) hr2
    have hs3 : (if isSpace b3 = true then some (⟨.value, .member acc k :: st⟩ : State)
      else beginValue (.member acc k :: st) b3) = some s3 := hs3
    rw [if_neg (by rw [hb3]; exact Bool.false_ne_true)] at hs3
    simp only [List.length_append, List.length_cons] at hn
    obtain ⟨t, r4, j, he, hne, hj, hd, hr4⟩ := ih (.member acc k :: st) b3 r3 s3 (by omega) hst hs3 hr3
    have hlen := congrArg List.length he
    simp only [List.length_append, List.length_cons] at hlen
    have htl : 0 < t.length := List.length_pos_iff.mpr hne
    refine ⟨k, 34 :: body ++ [34], w2, w3, t, r4, j, ?_, hw2, hw3, ⟨body, rfl, hc⟩, hj, ?_, hd, hr4⟩
    · rw [he]
      simp only [List.append_assoc, List.cons_append, List.nil_append]
    · simp only [List.length_append, List.length_cons]
      omega
  · cases hs2

theorem members_sound {f : Floats} {v : Json} {n : Nat} (ih : ValueSound f v n) (st : List Frame) (hst : st.length + 1 < 128) :
    ∀ (m : Nat) (rest : List Byte), rest.length ≤ m → rest.length ≤ n → ∀ acc,
    parseFrom f ⟨.nextMember, .obj acc :: st⟩ rest = some v →
    ∃ w t r l, rest = w ++ t ++ 125 :: r ∧ Blank w ∧ MoreMembers f l t ∧ st.length + 1 + memberDepths l < 128 ∧
      parseFrom f (deliver (.obj (acc ++ l)) st) r = some v := by
  intro m
  induction m with
  | zero =>
    intro rest hm _ acc h
    obtain ⟨b, r, s', rfl, _, _⟩ := peel (finish_none (by intro v h; cases h) (by intro v h; cases h)) h
    simp at hm
  | succ m ihm =>
    intro rest hm hn acc h
    obtain ⟨w, b, r, s', rfl, hw, hb, hs, hr⟩ := peel_blank (by trivial) (finish_none (by intro v h; cases h) (by intro v h; cases h)) h
    simp only [List.length_append, List.length_cons] at hm hn
    have hs : (if isSpace b = true then some (⟨.nextMember, .obj acc :: st⟩ : State)
      else if b = 44 then some ⟨.key, .obj acc :: st⟩
      else if b = 125 then some (deliver (.obj acc) st) else none) = some s' := hs
    rw [if_neg (by rw [hb]; exact Bool.false_ne_true)] at hs
    by_cases h44 : b = 44
    · rw [if_pos h44] at hs
      cases hs
      subst h44
      obtain ⟨w1, b1, r1, s1, rfl, hw1, hb1, hs1, hr1⟩ :=
        peel_blank (by trivial) (finish_none (by intro v h; cases h) (by intro v h; cases h)) hr
      have hs1 : (if isSpace b1 = true then some (⟨.key, .obj acc :: st⟩ : State)
        else if b1 = 34 then some ⟨.str .key [], .obj acc :: st⟩ else none) = some s1 := hs1
      rw [if_neg (by rw [hb1]; exact Bool.false_ne_true)] at hs1
      split at hs1
      · rename_i h34
        cases hs1
        subst h34
        simp only [List.length_append, List.length_cons] at hm hn
        obtain ⟨k, nm, w₂, w₃, t, r2, j, he, h2, h3, hk, hj, hlt, hd, hr2⟩ := member_sound ih st hst acc r1 (by omega) hr1
        obtain ⟨w4, t4, r4, l, rfl, hw4, hl, hd4, hr4⟩ := ihm r2 (by omega) (by omega) _ hr2
        refine ⟨w, 44 :: (w1 ++ nm ++ w₂ ++ 58 :: (w₃ ++ t ++ w4 ++ t4)), r4, (k, j) :: l, ?_, hw, ?_, ?_, ?_⟩
        · rw [he]
          simp only [List.append_assoc, List.cons_append]
        · simp only [MoreMembers]
          exact ⟨w1, nm, w₂, w₃, t, w4, t4, rfl, hw1, h2, h3, hw4, hk, hj, hl⟩
        · simp only [memberDepths]
          omega
        · rw [List.append_assoc] at hr4
          exact hr4
      · cases hs1
    · rw [if_neg h44] at hs
      split at hs
      · rename_i h125
        cases hs
        subst h125
        refine ⟨w, [], r, [], by simp, hw, by simp only [MoreMembers], by simp only [memberDepths]; omega,
          by rw [List.append_nil]; exact hr⟩
      · cases hs

theorem value_sound (f : Floats) (v : Json) : ∀ n, ValueSound f v n := by
  intro n
  induction n with
  | zero => intro st b r s hr; exact absurd hr (Nat.not_lt_zero _)
  | succ n ih =>
    intro st b r s hn hst hb hr
    unfold beginValue at hb
    by_cases h1 : b = 34
    · rw [if_pos h1] at hb
      cases hb
      subst h1
      obtain ⟨body, u, r', s', rfl, hc, hend, hr'⟩ := chars_sound f st .value v _ r (Nat.le_refl _) [] hr
      obtain ⟨x, hx, rfl⟩ := endStr_some hend
      rw [List.nil_append] at hx
      subst hx
      refine ⟨34 :: body ++ [34], r', .str x, by simp, by simp, ?_, hst, hr'⟩
      simp only [Denotes]
      exact ⟨body, rfl, hc⟩
    rw [if_neg h1] at hb
    by_cases h2 : b = 91
    · rw [if_pos h2] at hb
      subst h2
      obtain ⟨rfl, hlen⟩ := open_some hb
      obtain ⟨w, b1, r1, s1, rfl, hw, hb1, hs1, hr1⟩ :=
        peel_blank (by trivial) (finish_none (by intro v h; cases h) (by intro v h; cases h)) hr
      have hs1 : (if isSpace b1 = true then some (⟨.elemOrEnd, .arr [] :: st⟩ : State)
        else if b1 = 93 then some (deliver (.arr []) st) else beginValue (.arr [] :: st) b1) = some s1 := hs1
      rw [if_neg (by rw [hb1]; exact Bool.false_ne_true)] at hs1
      simp only [List.length_append, List.length_cons] at hn
      by_cases h93 : b1 = 93
      · rw [if_pos h93] at hs1
        cases hs1
        subst h93
        refine ⟨91 :: w ++ [93], r1, .arr [], by simp, by simp, ?_, by simp only [depth, depths]; omega, hr1⟩
        simp only [Denotes]
        exact ⟨w, rfl, by simp only [Elems]; exact hw⟩
      · rw [if_neg h93] at hs1
        obtain ⟨t, r2, j, he, hne, hj, hd, hr2⟩ := ih (.arr [] :: st) b1 r1 s1 (by omega) hlen hs1 hr1
        have hlen2 := congrArg List.length he
        simp only [List.length_append, List.length_cons] at hlen2
        have htl : 0 < t.length := List.length_pos_iff.mpr hne
        obtain ⟨w3, t3, r3, l, rfl, hw3, hl, hd3, hr3⟩ :=
          elems_sound ih st hlen _ r2 (Nat.le_refl _) (by omega) [j] hr2
        refine ⟨91 :: (w ++ t ++ w3 ++ t3) ++ [93], r3, .arr (j :: l), ?_, by simp, ?_, ?_, hr3⟩
        · rw [he]
          simp only [List.append_assoc, List.cons_append, List.nil_append]
        · simp only [Denotes]
          exact ⟨_, rfl, by simp only [Elems]; exact ⟨w, t, w3, t3, rfl, hw, hw3, hj, hl⟩⟩
        · simp only [depth, depths]
          have hd : st.length + 1 + depth j < 128 := hd
          omega
    rw [if_neg h2] at hb
    by_cases h3 : b = 123
    · rw [if_pos h3] at hb
      subst h3
      obtain ⟨rfl, hlen⟩ := open_some hb
      obtain ⟨w, b1, r1, s1, rfl, hw, hb1, hs1, hr1⟩ :=
        peel_blank (by trivial) (finish_none (by intro v h; cases h) (by intro v h; cases h)) hr
      have hs1 : (if isSpace b1 = true then some (⟨.keyOrEnd, .obj [] :: st⟩ : State)
        else if b1 = 34 then some ⟨.str .key [], .obj [] :: st⟩
        else if b1 = 125 then some (deliver (.obj []) st) else none) = some s1 := hs1
      rw [if_neg (by rw [hb1]; exact Bool.false_ne_true)] at hs1
      simp only [List.length_append, List.length_cons] at hn
      by_cases h34 : b1 = 34
      · rw [if_pos h34] at hs1
        cases hs1
        subst h34
        obtain ⟨k, nm, w₂, w₃, t, r2, j, he, hb2, hb3, hk, hj, hlt, hd, hr2⟩ := member_sound ih st hlen [] r1 (by omega) hr1
        obtain ⟨w4, t4, r4, l, rfl, hw4, hl, hd4, hr4⟩ :=
          members_sound ih st hlen _ r2 (Nat.le_refl _) (by omega) _ hr2
        refine ⟨123 :: (w ++ nm ++ w₂ ++ 58 :: (w₃ ++ t ++ w4 ++ t4)) ++ [125], r4, .obj ((k, j) :: l), ?_, by simp, ?_, ?_, hr4⟩
        · rw [he]
          simp only [List.append_assoc, List.cons_append, List.nil_append]
        · simp only [Denotes]
          exact ⟨_, rfl, by simp only [Members]; exact ⟨w, nm, w₂, w₃, t, w4, t4, rfl, hw, hb2, hb3, hw4, hk, hj, hl⟩⟩
        · simp only [depth, memberDepths]
          omega
      · rw [if_neg h34] at hs1
        split at hs1
        · rename_i h125
          cases hs1
          subst h125
          refine ⟨123 :: w ++ [125], r1, .obj [], by simp, by simp, ?_, by simp only [depth, memberDepths]; omega, hr1⟩
          simp only [Denotes]
          exact ⟨w, rfl, by simp only [Members]; exact hw⟩
        · cases hs1
    rw [if_neg h3] at hb
    by_cases h4 : b = 110
    · rw [if_pos h4] at hb
      cases hb
      subst h4
      obtain ⟨r', rfl, h'⟩ := lit_sound _ (List.cons_ne_nil _ _) hr
      exact ⟨[110, 117, 108, 108], r', .null, rfl, by simp, by simp only [Denotes], hst, h'⟩
    rw [if_neg h4] at hb
    by_cases h5 : b = 116
    · rw [if_pos h5] at hb
      cases hb
      subst h5
      obtain ⟨r', rfl, h'⟩ := lit_sound _ (List.cons_ne_nil _ _) hr
      exact ⟨[116, 114, 117, 101], r', .bool true, rfl, by simp, by simp only [Denotes], hst, h'⟩
    rw [if_neg h5] at hb
    by_cases h6 : b = 102
    · rw [if_pos h6] at hb
      cases hb
      subst h6
      obtain ⟨r', rfl, h'⟩ := lit_sound _ (List.cons_ne_nil _ _) hr
      exact ⟨[102, 97, 108, 115, 101], r', .bool false, rfl, by simp, by simp only [Denotes], hst, h'⟩
    rw [if_neg h6] at hb
    split at hb
    · cases hb
      obtain ⟨t, r', j, rfl, hj, hr'⟩ := num_sound f st v r _ hr
      have hj : readNum f (b :: t) = some j := hj
      refine ⟨b :: t, r', j, rfl, by simp, denotes_num hj, ?_, hr'⟩
      have : depth j = 0 := by
        cases j with
        | int _ => rfl
        | float _ => rfl
        | _ =>
          exfalso
          unfold readNum at hj
          dsimp only at hj
          split at hj
          · split at hj
            · cases hj
            · split at hj
              · cases hj
              · cases hx : f.read (b :: t) with
                | none => rw [hx] at hj; cases hj
                | some x => rw [hx] at hj; cases hj
          · cases hj
      omega
    · cases hb

/-- The reader reads exactly the texts of the grammar that are not too deep, as the documents they stand for. -/
theorem parse_iff (f : Floats) (t : List Byte) (j : Json) : parse f t = some j ↔ IsText f j t ∧ depth j < 128 := by
  constructor
  · intro h
    obtain ⟨w, b, r, s, rfl, hw, hb, hs, hr⟩ :=
      peel_blank (s := start) trivial (finish_none (by intro v h; cases h) (by intro v h; cases h)) h
    have hs : (if isSpace b = true then some (⟨.value, []⟩ : State) else beginValue [] b) = some s := hs
    rw [if_neg (by rw [hb]; exact Bool.false_ne_true)] at hs
    obtain ⟨v, r', j', he, hne, hj, hd, hr'⟩ := value_sound f j (r.length + 1) [] b r s (Nat.lt_succ_self _) (by decide) hs hr
    obtain ⟨w', r'', rfl, hw', hr2⟩ := drop_blank r'
    rw [skip_blank f _ (deliver_skips _ _) _ _ hw'] at hr'
    cases r'' with
    | nil =>
      have : j' = j := Option.some.inj hr'
      subst this
      refine ⟨⟨w, v, w', ?_, hw, hw', hj⟩, by have hd : 0 + depth j' < 128 := hd; omega⟩
      rw [he, List.append_nil, List.append_assoc]
    | cons c r'' =>
      exfalso
      have hc := hr2 c r'' rfl
      rw [parseFrom_cons] at hr'
      have e : step f (deliver j' []) c = if isSpace c = true then some (deliver j' []) else none := rfl
      rw [e, if_neg (by rw [hc]; exact Bool.false_ne_true)] at hr'
      cases hr'
  · rintro ⟨⟨w, v, w', rfl, hw, hw', hj⟩, hd⟩
    unfold parse
    rw [List.append_assoc, skip_blank f start trivial _ _ hw]
    have hdel : Delim w' := by
      have := delim_blank (rest := []) hw' trivial
      rwa [List.append_nil] at this
    rw [value_read f j v hj start (.inl rfl) (by show 0 + depth j < 128; omega) w' hdel]
    have := skip_blank f (deliver j []) (deliver_skips _ _) w' [] hw'
    rw [List.append_nil] at this
    show parseFrom f (deliver j []) w' = some j
    rw [this]
    rfl

end Abq.JsonText
