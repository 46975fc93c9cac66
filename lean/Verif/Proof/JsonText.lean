import Verif.Spec.JsonText

namespace Abq.JsonText
open RunStateDoc (Json)
open Spec.JsonText

theorem ofUtf8_utf8 (s : String) : ofUtf8 (utf8 s) = some s := by
  have e : (⟨(utf8 s).toArray⟩ : ByteArray) = s.toByteArray := rfl
  unfold ofUtf8
  rw [e]
  unfold String.fromUTF8?
  rw [dif_pos s.isValidUTF8]
  rfl

theorem parseFrom_cons (f : Floats) (s : State) (b : Byte) (bs : List Byte) :
    parseFrom f s (b :: bs) = (step f s b).bind fun s => parseFrom f s bs := rfl

theorem parseFrom_cons_some {f : Floats} {s s' : State} {b : Byte} {bs : List Byte} (h : step f s b = some s') :
    parseFrom f s (b :: bs) = parseFrom f s' bs := by
  rw [parseFrom_cons, h]; rfl

theorem parseFrom_cons_none {f : Floats} {s : State} {b : Byte} {bs : List Byte} (h : step f s b = none) :
    parseFrom f s (b :: bs) = none := by
  rw [parseFrom_cons, h]; rfl

/-! ## Strings -/

theorem hexVal_hexDigit : ∀ n : Fin 16, hexVal (hexDigit n.val) = some n.val := by decide

theorem encode_low : ∀ n : Fin 32, encodeChar n.val = some [UInt8.ofNat n.val] := by decide

theorem parse_escaped (f : Floats) (st : List Frame) (use : Use) (acc : List Byte) (b : Byte) (rest : List Byte) :
    parseFrom f ⟨.str use acc, st⟩ (escape b ++ rest) = parseFrom f ⟨.str use (acc ++ [b]), st⟩ rest := by
  unfold escape
  by_cases h1 : b = 34
  · subst h1; rfl
  rw [if_neg h1]
  by_cases h2 : b = 92
  · subst h2; rfl
  rw [if_neg h2]
  by_cases h3 : b = 8
  · subst h3; rfl
  rw [if_neg h3]
  by_cases h4 : b = 9
  · subst h4; rfl
  rw [if_neg h4]
  by_cases h5 : b = 10
  · subst h5; rfl
  rw [if_neg h5]
  by_cases h6 : b = 12
  · subst h6; rfl
  rw [if_neg h6]
  by_cases h7 : b = 13
  · subst h7; rfl
  rw [if_neg h7]
  by_cases h8 : b < 32
  · rw [if_pos h8]
    have hb : b.toNat < 32 := by simpa using UInt8.lt_iff_toNat_lt.mp h8
    have hhi : hexVal (hexDigit (b.toNat / 16)) = some (b.toNat / 16) := hexVal_hexDigit ⟨b.toNat / 16, by omega⟩
    have hlo : hexVal (hexDigit (b.toNat % 16)) = some (b.toNat % 16) := hexVal_hexDigit ⟨b.toNat % 16, by omega⟩
    have henc : encodeChar b.toNat = some [b] := by
      have := encode_low ⟨b.toNat, hb⟩
      simpa using this
    have e : b.toNat / 16 * 16 + b.toNat % 16 = b.toNat := by omega
    show parseFrom f ⟨.str use acc, st⟩ (92 :: 117 :: 48 :: 48 :: hexDigit (b.toNat / 16) :: hexDigit (b.toNat % 16) :: rest) = _
    rw [parseFrom_cons_some (s' := ⟨.esc use acc, st⟩) rfl, parseFrom_cons_some (s' := ⟨.hex use acc 4 0, st⟩) rfl,
      parseFrom_cons_some (s' := ⟨.hex use acc 3 0, st⟩) rfl, parseFrom_cons_some (s' := ⟨.hex use acc 2 0, st⟩) rfl,
      parseFrom_cons_some (s' := ⟨.hex use acc 1 (b.toNat / 16), st⟩) (by
        show (match hexVal (hexDigit (b.toNat / 16)) with
          | none => none
          | some d => if 2 = 1 then endHex st use acc (0 * 16 + d) else some ⟨.hex use acc (2 - 1) (0 * 16 + d), st⟩) = _
        rw [hhi]
        simp),
      parseFrom_cons_some (s' := ⟨.str use (acc ++ [b]), st⟩) (by
        show (match hexVal (hexDigit (b.toNat % 16)) with
          | none => none
          | some d => if 1 = 1 then endHex st use acc (b.toNat / 16 * 16 + d)
            else some ⟨.hex use acc (1 - 1) (b.toNat / 16 * 16 + d), st⟩) = _
        rw [hlo]
        dsimp only
        rw [if_pos rfl, e]
        unfold endHex
        rw [if_neg (by omega), henc]
        rfl)]
  · rw [if_neg h8]
    refine parseFrom_cons_some ?_
    show (if b = 34 then endStr st use acc
      else if b = 92 then some ⟨.esc use acc, st⟩
      else if b < 32 then none
      else some ⟨.str use (acc ++ [b]), st⟩) = _
    rw [if_neg h1, if_neg h2, if_neg h8]

theorem parse_chars (f : Floats) (st : List Frame) (use : Use) (bs : List Byte) (rest : List Byte) :
    ∀ acc, parseFrom f ⟨.str use acc, st⟩ (bs.flatMap escape ++ 34 :: rest) =
      (endStr st use (acc ++ bs)).bind fun s => parseFrom f s rest := by
  induction bs with
  | nil =>
    intro acc
    rw [List.append_nil]
    exact parseFrom_cons f _ 34 rest
  | cons b bs ih =>
    intro acc
    rw [List.flatMap_cons, List.append_assoc, parse_escaped, ih, List.append_assoc]
    rfl

theorem parse_strBody (f : Floats) (st : List Frame) (use : Use) (s : String) (rest : List Byte) :
    parseFrom f ⟨.str use [], st⟩ ((utf8 s).flatMap escape ++ 34 :: rest) =
      (endStr st use (utf8 s)).bind fun s => parseFrom f s rest := parse_chars f st use (utf8 s) rest []

theorem endStr_value (st : List Frame) (s : String) : endStr st .value (utf8 s) = some (deliver (.str s) st) := by
  unfold endStr
  rw [ofUtf8_utf8]

theorem endStr_key (m : List (String × Json)) (st : List Frame) (s : String) :
    endStr (.obj m :: st) .key (utf8 s) = some ⟨.colon, .member m s :: st⟩ := by
  unfold endStr
  rw [ofUtf8_utf8]

/-! ## Numbers -/

/-- Nothing, or something that ends a number. -/
def Delim : List Byte → Prop
  | [] => True
  | b :: _ => isNumByte b = false

theorem deliver_mode (v : Json) (st : List Frame) (acc : List Byte) : (deliver v st).mode ≠ .num acc := by
  cases st with
  | nil => intro h; cases h
  | cons fr st => cases fr <;> (intro h; cases h)

theorem step_deliver (f : Floats) (v : Json) (st : List Frame) (b : Byte) :
    step f (deliver v st) b = stepPlain (deliver v st) b := by
  unfold step
  cases hm : (deliver v st).mode with
  | num acc => exact absurd hm (deliver_mode v st acc)
  | _ => rfl

theorem num_more (f : Floats) (st : List Frame) (rest : List Byte) (t : List Byte) (ht : ∀ b ∈ t, isNumByte b = true) :
    ∀ acc, parseFrom f ⟨.num acc, st⟩ (t ++ rest) = parseFrom f ⟨.num (acc ++ t), st⟩ rest := by
  induction t with
  | nil => intro acc; rw [List.append_nil]; rfl
  | cons b t ih =>
    intro acc
    rw [List.cons_append, parseFrom_cons_some (s' := ⟨.num (acc ++ [b]), st⟩) (by
      show (if isNumByte b then some (⟨.num (acc ++ [b]), st⟩ : State) else _) = _
      rw [if_pos (ht b (List.mem_cons_self ..))]), ih (fun c hc => ht c (List.mem_cons_of_mem _ hc)), List.append_assoc]
    rfl

theorem num_end (f : Floats) (st : List Frame) (rest : List Byte) (hd : Delim rest) (acc : List Byte) (j : Json)
    (h : readNum f acc = some j) : parseFrom f ⟨.num acc, st⟩ rest = parseFrom f (deliver j st) rest := by
  cases rest with
  | nil =>
    show finish f ⟨.num acc, st⟩ = finish f (deliver j st)
    cases st with
    | nil => exact h
    | cons fr st => cases fr <;> rfl
  | cons b rest =>
    rw [parseFrom_cons, parseFrom_cons, step_deliver]
    have hb : isNumByte b = false := hd
    have e : step f ⟨.num acc, st⟩ b = stepPlain (deliver j st) b := by
      show (if isNumByte b then some (⟨.num (acc ++ [b]), st⟩ : State)
        else (readNum f acc).bind fun v => stepPlain (deliver v st) b) = _
      rw [if_neg (by rw [hb]; exact Bool.false_ne_true), h]
      rfl
    rw [e]

/-- A text that is read as a number. -/
structure NumText (f : Floats) (t : List Byte) (j : Json) : Prop where
  bytes : ∀ b ∈ t, isNumByte b = true
  first : ∃ b t', t = b :: t' ∧ (isDigit b || b = 45) = true
  read : readNum f t = some j

theorem digit_facts : ∀ b : Byte, (isDigit b || b = 45) = true → b ≠ 34 ∧ b ≠ 91 ∧ b ≠ 123 ∧ b ≠ 110 ∧ b ≠ 116 ∧ b ≠ 102 ∧
    isSpace b = false ∧ b ≠ 93 := by
  intro b h
  refine ⟨?_, ?_, ?_, ?_, ?_, ?_, ?_, ?_⟩ <;> first
    | (intro e; subst e; revert h; decide)
    | (cases hs : isSpace b with
       | false => rfl
       | true =>
         exfalso
         simp only [isSpace, Bool.or_eq_true, decide_eq_true_eq] at hs
         rcases hs with ((rfl | rfl) | rfl) | rfl <;> revert h <;> decide)

theorem beginValue_num (st : List Frame) (b : Byte) (h : (isDigit b || b = 45) = true) :
    beginValue st b = some ⟨.num [b], st⟩ := by
  obtain ⟨h1, h2, h3, h4, h5, h6, _, _⟩ := digit_facts b h
  unfold beginValue
  rw [if_neg h1, if_neg h2, if_neg h3, if_neg h4, if_neg h5, if_neg h6, if_pos h]

theorem isDigit_ofNat : ∀ n : Fin 10, isDigit (UInt8.ofNat (48 + n.val)) = true := by decide

theorem toNat_ofNat : ∀ n : Fin 10, (UInt8.ofNat (48 + n.val)).toNat - 48 = n.val := by decide

theorem numByte_of_digit (b : Byte) (h : isDigit b = true) : isNumByte b = true := by
  unfold isNumByte
  rw [h]
  rfl

theorem digits_unfold (n : Nat) : digits n =
    if n < 10 then [UInt8.ofNat (48 + n)] else digits (n / 10) ++ [UInt8.ofNat (48 + n % 10)] := by
  conv => lhs; unfold digits

theorem digits_isDigit (n : Nat) : ∀ b ∈ digits n, isDigit b = true := by
  induction n using Nat.strongRecOn with
  | ind n ih =>
    rw [digits_unfold]
    by_cases h : n < 10
    · rw [if_pos h]
      intro b hb
      rw [List.mem_singleton] at hb
      subst hb
      exact isDigit_ofNat ⟨n, h⟩
    · rw [if_neg h]
      intro b hb
      rcases List.mem_append.mp hb with hb | hb
      · exact ih (n / 10) (by omega) b hb
      · rw [List.mem_singleton] at hb
        subst hb
        exact isDigit_ofNat ⟨n % 10, by omega⟩

theorem decimal_digits (n : Nat) : decimal (digits n) = n := by
  induction n using Nat.strongRecOn with
  | ind n ih =>
    rw [digits_unfold]
    by_cases h : n < 10
    · rw [if_pos h]
      show 0 * 10 + ((UInt8.ofNat (48 + n)).toNat - 48) = n
      have := toNat_ofNat ⟨n, h⟩
      dsimp only at this
      omega
    · rw [if_neg h]
      have e := ih (n / 10) (by omega)
      unfold decimal at e ⊢
      rw [List.foldl_append, e]
      show n / 10 * 10 + ((UInt8.ofNat (48 + n % 10)).toNat - 48) = n
      have := toNat_ofNat ⟨n % 10, by omega⟩
      dsimp only at this
      omega

theorem digits_ne_nil (n : Nat) : digits n ≠ [] := by
  rw [digits_unfold]
  split
  · exact List.cons_ne_nil _ _
  · intro h; exact absurd (List.append_eq_nil_iff.mp h).2 (List.cons_ne_nil _ _)

theorem digits_head (n : Nat) : ∃ d : Fin 10, (digits n).head? = some (UInt8.ofNat (48 + d.val)) ∧ (0 < n → d ≠ 0) := by
  induction n using Nat.strongRecOn with
  | ind n ih =>
    rw [digits_unfold]
    by_cases h : n < 10
    · rw [if_pos h]
      refine ⟨⟨n, h⟩, rfl, fun hn e => ?_⟩
      have := congrArg Fin.val e
      dsimp at this
      omega
    · rw [if_neg h]
      obtain ⟨d, hd, hz⟩ := ih (n / 10) (by omega)
      refine ⟨d, ?_, fun _ => hz (by omega)⟩
      cases hx : digits (n / 10) with
      | nil => exact absurd hx (digits_ne_nil _)
      | cons a l => rw [hx] at hd; exact hd

theorem digit_ne_zero : ∀ d : Fin 10, d ≠ 0 → UInt8.ofNat (48 + d.val) ≠ 48 := by decide
theorem digit_ne_minus : ∀ d : Fin 10, UInt8.ofNat (48 + d.val) ≠ 45 := by decide

theorem integerOk_digits (n : Nat) : integerOk (digits n) = true := by
  unfold integerOk
  have h1 : (digits n).isEmpty = false := by
    cases h : digits n with
    | nil => exact absurd h (digits_ne_nil n)
    | cons => rfl
  rw [h1]
  by_cases h : n < 10
  · rw [digits_unfold, if_pos h]; rfl
  · obtain ⟨d, hd, hz⟩ := digits_head n
    rw [hd]
    have : decide (some (UInt8.ofNat (48 + d.val)) ≠ some 48) = true :=
      decide_eq_true fun e => digit_ne_zero d (hz (by omega)) (Option.some.inj e)
    rw [this, Bool.or_true]
    rfl

theorem takeWhile_all {α : Type} (p : α → Bool) (l : List α) (h : ∀ a ∈ l, p a = true) : l.takeWhile p = l := by
  induction l with
  | nil => rfl
  | cons a l ih =>
    rw [List.takeWhile_cons, if_pos (h a (List.mem_cons_self ..)), ih fun b hb => h b (List.mem_cons_of_mem _ hb)]

theorem dropWhile_all {α : Type} (p : α → Bool) (l : List α) (h : ∀ a ∈ l, p a = true) : l.dropWhile p = [] := by
  induction l with
  | nil => rfl
  | cons a l ih =>
    rw [List.dropWhile_cons, if_pos (h a (List.mem_cons_self ..)), ih fun b hb => h b (List.mem_cons_of_mem _ hb)]

theorem sign_digits (n : Nat) : sign (digits n) = (false, digits n) := by
  obtain ⟨d, hd, _⟩ := digits_head n
  cases h : digits n with
  | nil => rfl
  | cons b l =>
    rw [h] at hd
    have e : b = UInt8.ofNat (48 + d.val) := by simpa using hd
    show (if b = 45 then _ else _) = _
    rw [if_neg (by rw [e]; exact digit_ne_minus d)]

theorem readNum_unfold (f : Floats) (text : List Byte) (neg : Bool) (body ds rest : List Byte) (hs : sign text = (neg, body))
    (hd : body.takeWhile isDigit = ds) (hr : body.dropWhile isDigit = rest) :
    readNum f text =
      if integerOk ds && fractionOk rest then
        if rest.isEmpty && !neg && decide (decimal ds < 2 ^ 64) then some (.int (decimal ds))
        else if rest.isEmpty && neg && decide (0 < decimal ds) && decide (decimal ds ≤ 2 ^ 63) then some (.int (-(decimal ds : Int)))
        else (f.read text).map .float
      else none := by
  subst hd hr
  unfold readNum
  dsimp only
  rw [hs]

theorem numText_nat (f : Floats) (n : Nat) (h : n < 2 ^ 64) : NumText f (digits n) (.int n) := by
  refine ⟨fun b hb => numByte_of_digit b (digits_isDigit n b hb), ?_, ?_⟩
  · cases hx : digits n with
    | nil => exact absurd hx (digits_ne_nil n)
    | cons b l =>
      refine ⟨b, l, rfl, ?_⟩
      rw [digits_isDigit n b (by rw [hx]; exact List.mem_cons_self ..)]
      rfl
  · rw [readNum_unfold f _ _ _ _ _ (sign_digits n) (takeWhile_all _ _ (digits_isDigit n)) (dropWhile_all _ _ (digits_isDigit n)),
      integerOk_digits, decimal_digits]
    show (if (true && true) = true then if (true && !false && decide (n < 2 ^ 64)) = true then _ else _ else _) = _
    rw [decide_eq_true h]
    rfl

theorem numText_neg (f : Floats) (n : Nat) (h0 : 0 < n) (h : n ≤ 2 ^ 63) : NumText f (45 :: digits n) (.int (-(n : Int))) := by
  refine ⟨?_, ⟨45, digits n, rfl, rfl⟩, ?_⟩
  · intro b hb
    rcases List.mem_cons.mp hb with rfl | hb
    · rfl
    · exact numByte_of_digit b (digits_isDigit n b hb)
  · rw [readNum_unfold f (45 :: digits n) true (digits n) _ _ rfl (takeWhile_all _ _ (digits_isDigit n))
        (dropWhile_all _ _ (digits_isDigit n)), integerOk_digits, decimal_digits]
    show (if (true && true) = true then if (true && !true && decide (n < 2 ^ 64)) = true then _ else
      if (true && true && decide (0 < n) && decide (n ≤ 2 ^ 63)) = true then _ else _ else _) = _
    rw [decide_eq_true h, decide_eq_true h0]
    rfl

theorem numText_int (f : Floats) (n : Int) (h : -2 ^ 63 ≤ n ∧ n < 2 ^ 64) : NumText f (printInt n) (.int n) := by
  cases n with
  | ofNat n => exact numText_nat f n (by have := h.2; simp at this; omega)
  | negSucc n =>
    have := numText_neg f (n + 1) (by omega) (by have := h.1; rw [Int.negSucc_eq] at this; omega)
    rw [Int.negSucc_eq]
    exact this

/-! ### Other numbers -/

theorem isDigit_digit (d : Fin 10) : isDigit (digit d) = true := isDigit_ofNat d

theorem all_digit (ds : List (Fin 10)) : ∀ b ∈ ds.map digit, isDigit b = true := by
  intro b hb
  obtain ⟨d, _, rfl⟩ := List.mem_map.mp hb
  exact isDigit_digit d

theorem takeWhile_append_stop {α : Type} (p : α → Bool) (l r : List α) (h : ∀ a ∈ l, p a = true)
    (hr : ∀ a, r.head? = some a → p a = false) : (l ++ r).takeWhile p = l ∧ (l ++ r).dropWhile p = r := by
  induction l with
  | nil =>
    cases r with
    | nil => exact ⟨rfl, rfl⟩
    | cons a r =>
      have := hr a rfl
      simp [this]
  | cons a l ih =>
    have ha := h a (List.mem_cons_self ..)
    have := ih fun b hb => h b (List.mem_cons_of_mem _ hb)
    rw [List.cons_append, List.takeWhile_cons, List.dropWhile_cons, if_pos ha, if_pos ha, this.1, this.2]
    exact ⟨rfl, rfl⟩

/-- The text of the exponent. -/
def letter (u : Bool) : Byte := if u then 69 else 101

def expText (u : Bool) : Option (Option Bool × List (Fin 10)) → List Byte
  | none => []
  | some (none, ds) => letter u :: ds.map digit
  | some (some true, ds) => letter u :: 45 :: ds.map digit
  | some (some false, ds) => letter u :: 43 :: ds.map digit

def fracText (ds : List (Fin 10)) : List Byte := if ds = [] then [] else 46 :: ds.map digit

theorem text_eq (n : Number) : n.text = (if n.neg then [45] else []) ++ (n.whole.map digit ++ (fracText n.fraction ++ expText n.capital n.exponent)) := by
  unfold Number.text fracText
  rw [List.append_assoc, List.append_assoc]
  rfl

theorem exponentOk_text (u : Bool) (e : Option (Option Bool × List (Fin 10))) (h : ∀ s ds, e = some (s, ds) → ds ≠ []) :
    exponentOk (expText u e) = true := by
  rcases e with _ | ⟨s, ds⟩
  · rfl
  · have hne := h s ds rfl
    obtain ⟨d, ds', rfl⟩ := List.exists_cons_of_ne_nil hne
    have hall : ((d :: ds').map digit).all isDigit = true := List.all_eq_true.mpr (all_digit _)
    rcases s with _ | _ | _
    · show ((decide (letter u = 101) || decide (letter u = 69)) &&
        (if (decide (digit d = 45) || decide (digit d = 43)) = true then _ else ((d :: ds').map digit).all isDigit)) = true
      rw [if_neg, hall]
      · cases u <;> rfl
      · have : ∀ d : Fin 10, ¬ ((decide (digit d = 45) || decide (digit d = 43)) = true) := by decide
        exact this d
    · show ((decide (letter u = 101) || decide (letter u = 69)) &&
        (!((d :: ds').map digit).isEmpty && ((d :: ds').map digit).all isDigit)) = true
      rw [hall]; cases u <;> rfl
    · show ((decide (letter u = 101) || decide (letter u = 69)) &&
        (!((d :: ds').map digit).isEmpty && ((d :: ds').map digit).all isDigit)) = true
      rw [hall]; cases u <;> rfl

theorem expText_head (u : Bool) (e : Option (Option Bool × List (Fin 10))) : ∀ a, (expText u e).head? = some a → a = letter u := by
  rcases e with _ | ⟨_ | _ | _, ds⟩ <;> intro a h <;> simp [expText] at h <;> exact h.symm

theorem fractionOk_text (fr : List (Fin 10)) (u : Bool) (e : Option (Option Bool × List (Fin 10))) (h : ∀ s ds, e = some (s, ds) → ds ≠ []) :
    fractionOk (fracText fr ++ expText u e) = true := by
  unfold fracText
  by_cases hf : fr = []
  · rw [if_pos hf, List.nil_append]
    have he := exponentOk_text u e h
    cases hx : expText u e with
    | nil => rfl
    | cons b l =>
      have hb : b = letter u := expText_head u e b (by rw [hx]; rfl)
      rw [hx] at he
      show (if b = 46 then _ else exponentOk (b :: l)) = true
      rw [if_neg (by rw [hb]; cases u <;> decide), he]
  · rw [if_neg hf]
    have hs := takeWhile_append_stop isDigit (fr.map digit) (expText u e) (all_digit fr)
      (fun a ha => by rw [expText_head u e a ha]; cases u <;> rfl)
    show fractionOk (46 :: (fr.map digit ++ expText u e)) = true
    show (if (46 : Byte) = 46 then !((fr.map digit ++ expText u e).takeWhile isDigit).isEmpty &&
      exponentOk ((fr.map digit ++ expText u e).dropWhile isDigit) else
        exponentOk (46 :: (fr.map digit ++ expText u e))) = true
    rw [if_pos rfl, hs.1, hs.2, exponentOk_text u e h]
    cases fr with
    | nil => exact absurd rfl hf
    | cons d fr => rfl

theorem rest_head (fr : List (Fin 10)) (u : Bool) (e : Option (Option Bool × List (Fin 10))) :
    ∀ a, (fracText fr ++ expText u e).head? = some a → isDigit a = false := by
  intro a ha
  unfold fracText at ha
  split at ha
  · rw [List.nil_append] at ha
    rw [expText_head u e a ha]; cases u <;> rfl
  · have : a = 46 := by simpa using ha.symm
    rw [this]; rfl

theorem rest_ne_nil (n : Number) (h : n.fraction ≠ [] ∨ n.exponent ≠ none) : (fracText n.fraction ++ expText n.capital n.exponent).isEmpty = false := by
  rcases h with h | h
  · unfold fracText; rw [if_neg h]; rfl
  · cases he : n.exponent with
    | none => exact absurd he h
    | some e =>
      cases hx : fracText n.fraction ++ expText n.capital (some e) with
      | nil =>
        have := (List.append_eq_nil_iff.mp hx).2
        rcases e with ⟨_ | _ | _, ds⟩ <;> cases this
      | cons => rfl

theorem integerOk_whole (w : List (Fin 10)) (h1 : w ≠ []) (h2 : w.head? = some 0 → w.length = 1) : integerOk (w.map digit) = true := by
  cases w with
  | nil => exact absurd rfl h1
  | cons d w =>
    unfold integerOk
    by_cases hd : d = 0
    · have := h2 (by rw [hd]; rfl)
      rw [List.length_map, this]; rfl
    · have : digit d ≠ 48 := digit_ne_zero d hd
      simp [this]

theorem expText_bytes (u : Bool) (e : Option (Option Bool × List (Fin 10))) : ∀ b ∈ expText u e, isNumByte b = true := by
  rcases e with _ | ⟨s, ds⟩
  · intro b hb; cases hb
  · have hds : ∀ b ∈ ds.map digit, isNumByte b = true := fun b hb => numByte_of_digit b (all_digit ds b hb)
    rcases s with _ | _ | _ <;> intro b hb
    · rcases List.mem_cons.mp hb with rfl | hb
      · cases u <;> rfl
      · exact hds b hb
    · rcases List.mem_cons.mp hb with rfl | hb
      · cases u <;> rfl
      · rcases List.mem_cons.mp hb with rfl | hb
        · rfl
        · exact hds b hb
    · rcases List.mem_cons.mp hb with rfl | hb
      · cases u <;> rfl
      · rcases List.mem_cons.mp hb with rfl | hb
        · rfl
        · exact hds b hb

theorem numText_float (f : Floats) (r : String) (h : FloatKept f r) : NumText f (utf8 r) (.float r) := by
  obtain ⟨⟨n, ⟨⟨hw, hz, he⟩, hfe⟩, ht⟩, hr⟩ := h
  refine ⟨?_, ?_, ?_⟩
  · rw [ht, text_eq]
    intro b hb
    rcases List.mem_append.mp hb with hb | hb
    · split at hb
      · rw [List.mem_singleton] at hb; rw [hb]; rfl
      · cases hb
    rcases List.mem_append.mp hb with hb | hb
    · exact numByte_of_digit b (all_digit _ b hb)
    rcases List.mem_append.mp hb with hb | hb
    · unfold fracText at hb
      split at hb
      · cases hb
      · rcases List.mem_cons.mp hb with rfl | hb
        · rfl
        · exact numByte_of_digit b (all_digit _ b hb)
    · exact expText_bytes _ _ b hb
  · rw [ht, text_eq]
    cases hneg : n.neg with
    | true => exact ⟨45, _, rfl, rfl⟩
    | false =>
      obtain ⟨d, w, hw'⟩ := List.exists_cons_of_ne_nil hw
      rw [hw']
      exact ⟨digit d, _, rfl, by rw [isDigit_digit]; rfl⟩
  · have hsplit := takeWhile_append_stop isDigit (n.whole.map digit) (fracText n.fraction ++ expText n.capital n.exponent) (all_digit _)
      (rest_head _ _ _)
    have hsign : sign (utf8 r) = (n.neg, n.whole.map digit ++ (fracText n.fraction ++ expText n.capital n.exponent)) := by
      rw [ht, text_eq]
      cases hneg : n.neg with
      | true => rfl
      | false =>
        obtain ⟨d, w, hw'⟩ := List.exists_cons_of_ne_nil hw
        rw [hw']
        show (if digit d = 45 then _ else _) = _
        rw [if_neg (show digit d ≠ 45 from digit_ne_minus d)]
        rfl
    rw [readNum_unfold f _ _ _ _ _ hsign hsplit.1 hsplit.2, integerOk_whole _ hw hz, fractionOk_text _ _ _ he,
      rest_ne_nil n hfe, hr]
    rfl

/-! ## Values -/

/-- The machine is about to read a value. -/
def Awaits (s : State) : Prop := s.mode = .value ∨ s.mode = .elemOrEnd

theorem step_value (f : Floats) (s : State) (h : Awaits s) (b : Byte) (hs : isSpace b = false) (h93 : b ≠ 93) :
    step f s b = beginValue s.stack b := by
  obtain ⟨m, st⟩ := s
  rcases h with h | h
  · dsimp only at h
    subst h
    show (if isSpace b = true then _ else beginValue st b) = _
    rw [hs]; rfl
  · dsimp only at h
    subst h
    show (if isSpace b = true then _ else if b = 93 then _ else beginValue st b) = _
    rw [hs, if_neg h93]; rfl

theorem parse_num (f : Floats) (t : List Byte) (j : Json) (h : NumText f t j) (s : State) (ha : Awaits s) (rest : List Byte)
    (hd : Delim rest) : parseFrom f s (t ++ rest) = parseFrom f (deliver j s.stack) rest := by
  obtain ⟨hb, ⟨b, t', rfl, hf⟩, hr⟩ := h
  have facts := digit_facts b hf
  rw [List.cons_append, parseFrom_cons_some (s' := ⟨.num [b], s.stack⟩) (by
    rw [step_value f s ha b facts.2.2.2.2.2.2.1 facts.2.2.2.2.2.2.2, beginValue_num s.stack b hf]),
    num_more f s.stack rest t' (fun c hc => hb c (List.mem_cons_of_mem _ hc))]
  exact num_end f s.stack rest hd _ j hr

theorem parse_string (f : Floats) (s : String) (σ : State) (ha : Awaits σ) (rest : List Byte) :
    parseFrom f σ (printStr s ++ rest) = parseFrom f (deliver (.str s) σ.stack) rest := by
  have e : printStr s ++ rest = 34 :: ((utf8 s).flatMap escape ++ 34 :: rest) := by
    unfold printStr
    rw [List.cons_append, List.cons_append, List.append_assoc]
    rfl
  rw [e, parseFrom_cons_some (s' := ⟨.str .value [], σ.stack⟩) (by rw [step_value f σ ha 34 rfl (by decide)]; rfl),
    parse_strBody, endStr_value]
  rfl

theorem parse_key (f : Floats) (k : String) (m : List (String × Json)) (st : List Frame) (mode : Mode)
    (hm : mode = .key ∨ mode = .keyOrEnd) (rest : List Byte) :
    parseFrom f ⟨mode, .obj m :: st⟩ (printStr k ++ 58 :: rest) = parseFrom f ⟨.value, .member m k :: st⟩ rest := by
  have e : printStr k ++ 58 :: rest = 34 :: ((utf8 k).flatMap escape ++ 34 :: (58 :: rest)) := by
    unfold printStr
    rw [List.cons_append, List.cons_append, List.append_assoc]
    rfl
  rw [e, parseFrom_cons_some (s' := ⟨.str .key [], .obj m :: st⟩) (by rcases hm with rfl | rfl <;> rfl),
    parse_strBody, endStr_key]
  rfl

theorem delim_arr (l : List Json) (rest : List Byte) : Delim (printMoreElems l ++ rest) := by
  cases l with
  | nil => simp only [printMoreElems]; rfl
  | cons j l => simp only [printMoreElems]; rfl

theorem delim_obj (l : List (String × Json)) (rest : List Byte) : Delim (printMoreMembers l ++ rest) := by
  cases l with
  | nil => simp only [printMoreMembers]; rfl
  | cons j l => obtain ⟨k, j⟩ := j; simp only [printMoreMembers]; rfl

mutual
theorem parse_print (f : Floats) (j : Json) (hj : Holdable f j) (s : State) (ha : Awaits s)
    (hd : s.stack.length + depth j < depthLimit) (rest : List Byte) (hr : Delim rest) :
    parseFrom f s (print j ++ rest) = parseFrom f (deliver j s.stack) rest := by
  match j with
  | .null =>
    rw [show print .null = [110, 117, 108, 108] from by simp only [print]]
    show parseFrom f s (110 :: 117 :: 108 :: 108 :: rest) = _
    rw [parseFrom_cons_some (by rw [step_value f s ha 110 rfl (by decide)]; rfl)]
    rfl
  | .bool true =>
    rw [show print (.bool true) = [116, 114, 117, 101] from by simp only [print]]
    show parseFrom f s (116 :: 114 :: 117 :: 101 :: rest) = _
    rw [parseFrom_cons_some (by rw [step_value f s ha 116 rfl (by decide)]; rfl)]
    rfl
  | .bool false =>
    rw [show print (.bool false) = [102, 97, 108, 115, 101] from by simp only [print]]
    show parseFrom f s (102 :: 97 :: 108 :: 115 :: 101 :: rest) = _
    rw [parseFrom_cons_some (by rw [step_value f s ha 102 rfl (by decide)]; rfl)]
    rfl
  | .int n =>
    rw [show print (.int n) = printInt n from by simp only [print]]
    exact parse_num f _ _ (numText_int f n (by simpa only [Holdable] using hj)) s ha rest hr
  | .float r =>
    rw [show print (.float r) = utf8 r from by simp only [print]]
    exact parse_num f _ _ (numText_float f r (by simpa only [Holdable] using hj)) s ha rest hr
  | .str t =>
    rw [show print (.str t) = printStr t from by simp only [print]]
    exact parse_string f t s ha rest
  | .arr l =>
    rw [show print (.arr l) = 91 :: printElems l from by simp only [print]]
    simp only [Holdable] at hj
    simp only [depth] at hd
    rw [List.cons_append, parseFrom_cons_some (s' := ⟨.elemOrEnd, .arr [] :: s.stack⟩) (by
      rw [step_value f s ha 91 rfl (by decide)]
      show (if s.stack.length + 1 < depthLimit then some _ else none) = _
      rw [if_pos (by omega)])]
    cases l with
    | nil => simp only [printElems]; rfl
    | cons j l =>
      simp only [HoldableAll] at hj
      simp only [depths] at hd
      simp only [printElems]
      rw [List.append_assoc, parse_print f j hj.1 ⟨.elemOrEnd, .arr [] :: s.stack⟩ (.inr rfl)
        (by show s.stack.length + 1 + depth j < depthLimit; omega) _ (delim_arr l rest)]
      exact parse_elems f l hj.2 [j] s.stack (by omega) rest
  | .obj m =>
    rw [show print (.obj m) = 123 :: printMembers m from by simp only [print]]
    simp only [Holdable] at hj
    simp only [depth] at hd
    rw [List.cons_append, parseFrom_cons_some (s' := ⟨.keyOrEnd, .obj [] :: s.stack⟩) (by
      rw [step_value f s ha 123 rfl (by decide)]
      show (if s.stack.length + 1 < depthLimit then some _ else none) = _
      rw [if_pos (by omega)])]
    cases m with
    | nil => simp only [printMembers]; rfl
    | cons kj l =>
      obtain ⟨k, j⟩ := kj
      simp only [HoldableMembers] at hj
      simp only [memberDepths] at hd
      simp only [printMembers]
      rw [List.append_assoc, List.append_assoc, List.cons_append, parse_key f k [] s.stack _ (.inr rfl),
        parse_print f j hj.1 ⟨.value, .member [] k :: s.stack⟩ (.inl rfl)
        (by show s.stack.length + 1 + depth j < depthLimit; omega) _ (delim_obj l rest)]
      exact parse_members f l hj.2 [(k, j)] s.stack (by omega) rest
theorem parse_elems (f : Floats) (l : List Json) (hl : HoldableAll f l) (acc : List Json) (st : List Frame)
    (hd : st.length + 1 + depths l < depthLimit) (rest : List Byte) :
    parseFrom f ⟨.nextElem, .arr acc :: st⟩ (printMoreElems l ++ rest) = parseFrom f (deliver (.arr (acc ++ l)) st) rest := by
  match l with
  | [] =>
    simp only [printMoreElems, List.append_nil]
    rfl
  | j :: l =>
    simp only [HoldableAll] at hl
    simp only [depths] at hd
    simp only [printMoreElems]
    rw [List.append_assoc, List.cons_append, parseFrom_cons_some (s' := ⟨.value, .arr acc :: st⟩) rfl,
      parse_print f j hl.1 ⟨.value, .arr acc :: st⟩ (.inl rfl)
        (by show st.length + 1 + depth j < depthLimit; omega) _ (delim_arr l rest)]
    have := parse_elems f l hl.2 (acc ++ [j]) st (by omega) rest
    rw [List.append_assoc] at this
    exact this
theorem parse_members (f : Floats) (l : List (String × Json)) (hl : HoldableMembers f l) (acc : List (String × Json))
    (st : List Frame) (hd : st.length + 1 + memberDepths l < depthLimit) (rest : List Byte) :
    parseFrom f ⟨.nextMember, .obj acc :: st⟩ (printMoreMembers l ++ rest) = parseFrom f (deliver (.obj (acc ++ l)) st) rest := by
  match l with
  | [] =>
    simp only [printMoreMembers, List.append_nil]
    rfl
  | (k, j) :: l =>
    simp only [HoldableMembers] at hl
    simp only [memberDepths] at hd
    simp only [printMoreMembers]
    rw [List.cons_append, List.cons_append, List.cons_append, parseFrom_cons_some (s' := ⟨.key, .obj acc :: st⟩) rfl,
      List.append_assoc, List.append_assoc, List.cons_append, parse_key f k acc st _ (.inl rfl),
      parse_print f j hl.1 ⟨.value, .member acc k :: st⟩ (.inl rfl)
        (by show st.length + 1 + depth j < depthLimit; omega) _ (delim_obj l rest)]
    have := parse_members f l hl.2 (acc ++ [(k, j)]) st (by omega) rest
    rw [List.append_assoc] at this
    exact this
end

/-! ## Too deep -/

mutual
theorem parse_deep (f : Floats) (j : Json) (hj : Holdable f j) (s : State) (ha : Awaits s)
    (hd : depthLimit ≤ s.stack.length + depth j) (hs : s.stack.length < depthLimit) (rest : List Byte) (hr : Delim rest) :
    parseFrom f s (print j ++ rest) = none := by
  match j with
  | .null => simp only [depth] at hd; omega
  | .bool _ => simp only [depth] at hd; omega
  | .int _ => simp only [depth] at hd; omega
  | .float _ => simp only [depth] at hd; omega
  | .str _ => simp only [depth] at hd; omega
  | .arr l =>
    rw [show print (.arr l) = 91 :: printElems l from by simp only [print]]
    simp only [Holdable] at hj
    simp only [depth] at hd
    have hstep : step f s 91 = if s.stack.length + 1 < depthLimit then some ⟨.elemOrEnd, .arr [] :: s.stack⟩ else none := by
      rw [step_value f s ha 91 rfl (by decide)]
      rfl
    rw [List.cons_append]
    by_cases ho : s.stack.length + 1 < depthLimit
    · rw [if_pos ho] at hstep
      rw [parseFrom_cons_some hstep]
      cases l with
      | nil => simp only [depths] at hd; omega
      | cons j l =>
        simp only [HoldableAll] at hj
        simp only [depths] at hd
        simp only [printElems]
        rw [List.append_assoc]
        by_cases hjd : depthLimit ≤ s.stack.length + 1 + depth j
        · exact parse_deep f j hj.1 ⟨.elemOrEnd, .arr [] :: s.stack⟩ (.inr rfl) hjd ho _ (delim_arr l rest)
        · rw [parse_print f j hj.1 ⟨.elemOrEnd, .arr [] :: s.stack⟩ (.inr rfl)
            (by show s.stack.length + 1 + depth j < depthLimit; omega) _ (delim_arr l rest)]
          exact parse_deep_elems f l hj.2 [j] s.stack (by omega) ho rest
    · rw [if_neg ho] at hstep
      exact parseFrom_cons_none hstep
  | .obj m =>
    rw [show print (.obj m) = 123 :: printMembers m from by simp only [print]]
    simp only [Holdable] at hj
    simp only [depth] at hd
    have hstep : step f s 123 = if s.stack.length + 1 < depthLimit then some ⟨.keyOrEnd, .obj [] :: s.stack⟩ else none := by
      rw [step_value f s ha 123 rfl (by decide)]
      rfl
    rw [List.cons_append]
    by_cases ho : s.stack.length + 1 < depthLimit
    · rw [if_pos ho] at hstep
      rw [parseFrom_cons_some hstep]
      cases m with
      | nil => simp only [memberDepths] at hd; omega
      | cons kj l =>
        obtain ⟨k, j⟩ := kj
        simp only [HoldableMembers] at hj
        simp only [memberDepths] at hd
        simp only [printMembers]
        rw [List.append_assoc, List.append_assoc, List.cons_append, parse_key f k [] s.stack _ (.inr rfl)]
        by_cases hjd : depthLimit ≤ s.stack.length + 1 + depth j
        · exact parse_deep f j hj.1 ⟨.value, .member [] k :: s.stack⟩ (.inl rfl) hjd ho _ (delim_obj l rest)
        · rw [parse_print f j hj.1 ⟨.value, .member [] k :: s.stack⟩ (.inl rfl)
            (by show s.stack.length + 1 + depth j < depthLimit; omega) _ (delim_obj l rest)]
          exact parse_deep_members f l hj.2 [(k, j)] s.stack (by omega) ho rest
    · rw [if_neg ho] at hstep
      exact parseFrom_cons_none hstep
theorem parse_deep_elems (f : Floats) (l : List Json) (hl : HoldableAll f l) (acc : List Json) (st : List Frame)
    (hd : depthLimit ≤ st.length + 1 + depths l) (hs : st.length + 1 < depthLimit) (rest : List Byte) :
    parseFrom f ⟨.nextElem, .arr acc :: st⟩ (printMoreElems l ++ rest) = none := by
  match l with
  | [] => simp only [depths] at hd; omega
  | j :: l =>
    simp only [HoldableAll] at hl
    simp only [depths] at hd
    simp only [printMoreElems]
    rw [List.append_assoc, List.cons_append, parseFrom_cons_some (s' := ⟨.value, .arr acc :: st⟩) rfl]
    by_cases hjd : depthLimit ≤ st.length + 1 + depth j
    · exact parse_deep f j hl.1 ⟨.value, .arr acc :: st⟩ (.inl rfl) hjd hs _ (delim_arr l rest)
    · rw [parse_print f j hl.1 ⟨.value, .arr acc :: st⟩ (.inl rfl)
        (by show st.length + 1 + depth j < depthLimit; omega) _ (delim_arr l rest)]
      exact parse_deep_elems f l hl.2 (acc ++ [j]) st (by omega) hs rest
theorem parse_deep_members (f : Floats) (l : List (String × Json)) (hl : HoldableMembers f l) (acc : List (String × Json))
    (st : List Frame) (hd : depthLimit ≤ st.length + 1 + memberDepths l) (hs : st.length + 1 < depthLimit) (rest : List Byte) :
    parseFrom f ⟨.nextMember, .obj acc :: st⟩ (printMoreMembers l ++ rest) = none := by
  match l with
  | [] => simp only [memberDepths] at hd; omega
  | (k, j) :: l =>
    simp only [HoldableMembers] at hl
    simp only [memberDepths] at hd
    simp only [printMoreMembers]
    rw [List.cons_append, List.cons_append, List.cons_append, parseFrom_cons_some (s' := ⟨.key, .obj acc :: st⟩) rfl,
      List.append_assoc, List.append_assoc, List.cons_append, parse_key f k acc st _ (.inl rfl)]
    by_cases hjd : depthLimit ≤ st.length + 1 + depth j
    · exact parse_deep f j hl.1 ⟨.value, .member acc k :: st⟩ (.inl rfl) hjd hs _ (delim_obj l rest)
    · rw [parse_print f j hl.1 ⟨.value, .member acc k :: st⟩ (.inl rfl)
        (by show st.length + 1 + depth j < depthLimit; omega) _ (delim_obj l rest)]
      exact parse_deep_members f l hl.2 (acc ++ [(k, j)]) st (by omega) hs rest
end

/-! ## No control characters -/

theorem hexDigit_ge : ∀ n : Fin 16, ¬ hexDigit n.val < 32 := by decide

theorem escape_ge (b : Byte) : ∀ c ∈ escape b, ¬ c < 32 := by
  unfold escape
  intro c hc
  by_cases h1 : b = 34
  · rw [if_pos h1] at hc; revert c; decide
  rw [if_neg h1] at hc
  by_cases h2 : b = 92
  · rw [if_pos h2] at hc; revert c; decide
  rw [if_neg h2] at hc
  by_cases h3 : b = 8
  · rw [if_pos h3] at hc; revert c; decide
  rw [if_neg h3] at hc
  by_cases h4 : b = 9
  · rw [if_pos h4] at hc; revert c; decide
  rw [if_neg h4] at hc
  by_cases h5 : b = 10
  · rw [if_pos h5] at hc; revert c; decide
  rw [if_neg h5] at hc
  by_cases h6 : b = 12
  · rw [if_pos h6] at hc; revert c; decide
  rw [if_neg h6] at hc
  by_cases h7 : b = 13
  · rw [if_pos h7] at hc; revert c; decide
  rw [if_neg h7] at hc
  by_cases h8 : b < 32
  · rw [if_pos h8] at hc
    have hb : b.toNat < 32 := by simpa using UInt8.lt_iff_toNat_lt.mp h8
    simp only [List.mem_cons, List.not_mem_nil, or_false] at hc
    rcases hc with rfl | rfl | rfl | rfl | rfl | rfl
    · decide
    · decide
    · decide
    · decide
    · exact hexDigit_ge ⟨b.toNat / 16, by omega⟩
    · exact hexDigit_ge ⟨b.toNat % 16, by omega⟩
  · rw [if_neg h8, List.mem_singleton] at hc
    rw [hc]
    exact h8

theorem numByte_ge (b : Byte) (h : isNumByte b = true) : ¬ b < 32 := by
  intro hlt
  simp only [isNumByte, isDigit, Bool.or_eq_true, Bool.and_eq_true, decide_eq_true_eq] at h
  rcases h with ((((h | h) | h) | h) | h) | h
  · have h1 := UInt8.le_iff_toNat_le.mp h.1
    have h2 := UInt8.lt_iff_toNat_lt.mp hlt
    simp at h1 h2
    omega
  all_goals (subst h; revert hlt; decide)

theorem printStr_ge (s : String) : ∀ c ∈ printStr s, ¬ c < 32 := by
  intro c hc
  unfold printStr at hc
  rcases List.mem_append.mp hc with hc | hc
  · rcases List.mem_cons.mp hc with rfl | hc
    · decide
    · obtain ⟨b, _, hb⟩ := List.mem_flatMap.mp hc
      exact escape_ge b c hb
  · rw [List.mem_singleton] at hc; rw [hc]; decide

mutual
theorem print_ge (f : Floats) (j : Json) (hj : Holdable f j) : ∀ c ∈ print j, ¬ c < 32 := by
  match j with
  | .null => intro c hc; simp only [print] at hc; revert c; decide
  | .bool true => intro c hc; simp only [print] at hc; revert c; decide
  | .bool false => intro c hc; simp only [print] at hc; revert c; decide
  | .int n =>
    intro c hc
    simp only [print] at hc
    exact numByte_ge c ((numText_int f n (by simpa only [Holdable] using hj)).bytes c hc)
  | .float r =>
    intro c hc
    simp only [print] at hc
    exact numByte_ge c ((numText_float f r (by simpa only [Holdable] using hj)).bytes c hc)
  | .str t => intro c hc; simp only [print] at hc; exact printStr_ge t c hc
  | .arr l =>
    intro c hc
    simp only [print] at hc
    simp only [Holdable] at hj
    rcases List.mem_cons.mp hc with rfl | hc
    · decide
    · cases l with
      | nil => simp only [printElems] at hc; revert c; decide
      | cons j l =>
        simp only [printElems] at hc
        simp only [HoldableAll] at hj
        rcases List.mem_append.mp hc with hc | hc
        · exact print_ge f j hj.1 c hc
        · exact elems_ge f l hj.2 c hc
  | .obj m =>
    intro c hc
    simp only [print] at hc
    simp only [Holdable] at hj
    rcases List.mem_cons.mp hc with rfl | hc
    · decide
    · cases m with
      | nil => simp only [printMembers] at hc; revert c; decide
      | cons kj l =>
        obtain ⟨k, j⟩ := kj
        simp only [printMembers] at hc
        simp only [HoldableMembers] at hj
        rcases List.mem_append.mp hc with hc | hc
        · rcases List.mem_append.mp hc with hc | hc
          · exact printStr_ge k c hc
          · rcases List.mem_cons.mp hc with rfl | hc
            · decide
            · exact print_ge f j hj.1 c hc
        · exact members_ge f l hj.2 c hc
theorem elems_ge (f : Floats) (l : List Json) (hl : HoldableAll f l) : ∀ c ∈ printMoreElems l, ¬ c < 32 := by
  match l with
  | [] => intro c hc; simp only [printMoreElems] at hc; revert c; decide
  | j :: l =>
    intro c hc
    simp only [printMoreElems] at hc
    simp only [HoldableAll] at hl
    rcases List.mem_append.mp hc with hc | hc
    · rcases List.mem_cons.mp hc with rfl | hc
      · decide
      · exact print_ge f j hl.1 c hc
    · exact elems_ge f l hl.2 c hc
theorem members_ge (f : Floats) (l : List (String × Json)) (hl : HoldableMembers f l) : ∀ c ∈ printMoreMembers l, ¬ c < 32 := by
  match l with
  | [] => intro c hc; simp only [printMoreMembers] at hc; revert c; decide
  | (k, j) :: l =>
    intro c hc
    simp only [printMoreMembers] at hc
    simp only [HoldableMembers] at hl
    rcases List.mem_append.mp hc with hc | hc
    · rcases List.mem_append.mp hc with hc | hc
      · rcases List.mem_cons.mp hc with rfl | hc
        · decide
        · exact printStr_ge k c hc
      · rcases List.mem_cons.mp hc with rfl | hc
        · decide
        · exact print_ge f j hl.1 c hc
    · exact members_ge f l hl.2 c hc
end

end Abq.JsonText
