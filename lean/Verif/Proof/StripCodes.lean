import Verif.Spec.StripCodes

/-! # Lemmas about removing escape codes -/

namespace Abq.StripCodesProof
open Abq.StripCodes Abq.Spec.StripCodes

/-- The bytes of a character. -/
def enc (c : Char) : List Nat := (String.utf8EncodeChar c).map (·.toNat)

theorem enc_eq (c : Char) : enc c =
    if c.toNat ≤ 0x7f then [c.toNat]
    else if c.toNat ≤ 0x7ff then [c.toNat / 64 % 32 + 0xc0, c.toNat % 64 + 0x80]
    else if c.toNat ≤ 0xffff then [c.toNat / 4096 % 16 + 0xe0, c.toNat / 64 % 64 + 0x80, c.toNat % 64 + 0x80]
    else [c.toNat / 262144 % 8 + 0xf0, c.toNat / 4096 % 64 + 0x80, c.toNat / 64 % 64 + 0x80, c.toNat % 64 + 0x80] := by
  have h : c.val.toNat = c.toNat := rfl
  unfold enc String.utf8EncodeChar
  simp only [h]
  generalize c.toNat = v
  split
  · simp; omega
  · split
    · simp; omega
    · split
      · simp; omega
      · simp; omega

theorem run_append (a b : List Nat) : ∀ s, run s (a ++ b) = ((run (run s a).1 b).1, (run s a).2 ++ (run (run s a).1 b).2) := by
  induction a with
  | nil => intro s; rfl
  | cons x a ih => intro s; simp only [List.cons_append, run, ih, List.append_assoc]

theorem valid (c : Char) : c.toNat < 0xd800 ∨ 0xdfff < c.toNat ∧ c.toNat < 0x110000 := c.valid

/-- Between two characters. -/
def Between (s : State) : Prop := ∀ t p, s ≠ .utf8 t p

theorem lead2 {b : Nat} (h : 0xC2 ≤ b ∧ b ≤ 0xDF) : advance .ground b = (.utf8 .tail1 (b % 32 * 64), .nothing) := by
  unfold advance change begin; grind
theorem lead3 {b : Nat} (h : 0xE0 ≤ b ∧ b ≤ 0xEF) : advance .ground b =
    (.utf8 (if b = 0xE0 then .e0 else if b = 0xED then .ed else .tail2) (b % 16 * 4096), .nothing) := by
  unfold advance change begin; grind
theorem lead4 {b : Nat} (h : 0xF0 ≤ b ∧ b ≤ 0xF4) : advance .ground b =
    (.utf8 (if b = 0xF0 then .f0 else if b = 0xF4 then .f4 else .tail3) (b % 8 * 262144), .nothing) := by
  unfold advance change begin; grind

theorem ground_char (c : Char) (h : 0x80 ≤ c.toNat) : run .ground (enc c) = (.ground, [c.toNat]) := by
  have hv := valid c
  rw [enc_eq]
  generalize c.toNat = v at *
  rw [if_neg (by omega)]
  split
  · simp only [run, lead2 (b := v / 64 % 32 + 0xc0) (by omega)]
    simp only [advance, continued]
    rw [if_pos (by omega)]
    simp only [Told.written, List.nil_append, List.append_nil]
    congr 2; omega
  · split
    · simp only [run, lead3 (b := v / 4096 % 16 + 0xe0) (by omega)]
      have key : advance (.utf8 (if v / 4096 % 16 + 0xe0 = 0xE0 then .e0 else if v / 4096 % 16 + 0xe0 = 0xED then .ed else .tail2)
          ((v / 4096 % 16 + 0xe0) % 16 * 4096)) (v / 64 % 64 + 0x80) =
          (.utf8 .tail1 ((v / 4096 % 16 + 0xe0) % 16 * 4096 + (v / 64 % 64 + 0x80) % 64 * 64), .nothing) := by
        split
        · simp only [advance, continued]; rw [if_pos (by omega)]
        · split
          · simp only [advance, continued]; rw [if_pos (by omega)]
          · simp only [advance, continued]; rw [if_pos (by omega)]
      simp only [key]
      simp only [advance, continued]
      rw [if_pos (by omega)]
      simp only [Told.written, List.nil_append, List.append_nil]
      congr 2; omega
    · simp only [run, lead4 (b := v / 262144 % 8 + 0xf0) (by omega)]
      have key : advance (.utf8 (if v / 262144 % 8 + 0xf0 = 0xF0 then .f0 else if v / 262144 % 8 + 0xf0 = 0xF4 then .f4 else .tail3)
          ((v / 262144 % 8 + 0xf0) % 8 * 262144)) (v / 4096 % 64 + 0x80) =
          (.utf8 .tail2 ((v / 262144 % 8 + 0xf0) % 8 * 262144 + (v / 4096 % 64 + 0x80) % 64 * 4096), .nothing) := by
        split
        · simp only [advance, continued]; rw [if_pos (by omega)]
        · split
          · simp only [advance, continued]; rw [if_pos (by omega)]
          · simp only [advance, continued]; rw [if_pos (by omega)]
      simp only [key]
      have key2 : ∀ p, advance (.utf8 .tail2 p) (v / 64 % 64 + 0x80) = (.utf8 .tail1 (p + (v / 64 % 64 + 0x80) % 64 * 64), .nothing) := by
        intro p; simp only [advance, continued]; rw [if_pos (by omega)]
      simp only [key2]
      simp only [advance, continued]
      rw [if_pos (by omega)]
      simp only [Told.written, List.nil_append, List.append_nil]
      congr 2; omega

/-- A byte of a character that is not ASCII says nothing outside of plain text, nor do its later bytes there. -/
theorem silent (s : State) (hs : Between s) (b : Nat) (h : 0x80 ≤ b) (hg : s = .ground → b ≤ 0xBF) :
    (advance s b).2.written = [] ∧ Between (advance s b).1 := by
  by_cases hgr : s = .ground
  · have hb := hg hgr
    subst hgr
    simp only [advance, change]
    rw [if_neg (by omega), if_neg (by omega), if_neg (by omega), if_neg (by omega)]
    split
    · exact ⟨by simp only [Told.written]; rw [if_neg (by omega)], fun t p => by simp⟩
    · rw [if_neg (by omega)]
      exact ⟨rfl, fun t p => by simp⟩
  cases s <;> simp only [advance, change] <;> try (exact absurd rfl (hs _ _)) <;> try (exact absurd rfl hgr)
  all_goals (
    rw [if_neg (by omega), if_neg (by omega)]
    repeat' split
    all_goals first
      | omega
      | (refine ⟨?_, fun t p => by simp⟩; simp [Told.written] <;> omega)
      | exact absurd rfl hgr)

theorem silent_run (bs : List Nat) : ∀ s, Between s → (∀ b ∈ bs, 0x80 ≤ b ∧ b ≤ 0xBF) → (run s bs).2 = [] ∧ Between (run s bs).1 := by
  induction bs with
  | nil => intro s h _; exact ⟨rfl, h⟩
  | cons b bs ih =>
    intro s h hb
    obtain ⟨h1, h2⟩ := silent s h b (hb b List.mem_cons_self).1 fun _ => (hb b List.mem_cons_self).2
    obtain ⟨h3, h4⟩ := ih _ h2 fun x hx => hb x (List.mem_cons_of_mem _ hx)
    simp only [run]
    exact ⟨by rw [h1, h3]; rfl, h4⟩

theorem ascii (s : State) (hs : Between s) (b : Nat) (h : b < 0x80) :
    Between (advance s b).1 ∧ ((advance s b).2.written = [] ∨ (advance s b).2.written = [b] ∧ (0x20 ≤ b ∨ b = 10)) := by
  have out : ∀ b, (Told.execute b).written = [] ∨ (Told.execute b).written = [b] ∧ (0x20 ≤ b ∨ b = 10) := by
    intro b
    by_cases hb : b = 10
    · subst hb; exact .inr ⟨rfl, .inr rfl⟩
    · exact .inl (by simp only [Told.written]; rw [if_neg hb])
  have none : ∀ b, Told.nothing.written = [] ∨ Told.nothing.written = [b] ∧ (0x20 ≤ b ∨ b = 10) := fun _ => .inl rfl
  cases s <;> simp only [advance, change] <;> try (exact absurd rfl (hs _ _))
  all_goals
    repeat' split
  all_goals first
    | exact ⟨fun t p => by simp, out b⟩
    | exact ⟨fun t p => by simp, none b⟩
    | exact ⟨fun t p => by simp, .inr ⟨rfl, .inl (by omega)⟩⟩
    | omega

theorem enc_ascii (c : Char) (h : c.toNat < 0x80) : enc c = [c.toNat] := by rw [enc_eq, if_pos (by omega)]

theorem enc_lead (c : Char) (h : 0x80 ≤ c.toNat) : ∃ b bs, enc c = b :: bs ∧ 0xC2 ≤ b ∧ b < 0x100 ∧ ∀ x ∈ bs, 0x80 ≤ x ∧ x ≤ 0xBF := by
  have hv := valid c
  rw [enc_eq, if_neg (by omega)]
  generalize c.toNat = v at *
  split
  · exact ⟨_, _, rfl, by omega, by omega, by simp only [List.mem_cons, List.not_mem_nil, or_false]; omega⟩
  · split
    · refine ⟨_, _, rfl, by omega, by omega, ?_⟩
      simp only [List.mem_cons, List.not_mem_nil, or_false]
      rintro x (rfl | rfl) <;> omega
    · refine ⟨_, _, rfl, by omega, by omega, ?_⟩
      simp only [List.mem_cons, List.not_mem_nil, or_false]
      rintro x (rfl | rfl | rfl) <;> omega

theorem newline_of {c : Char} (h : c.toNat = 10) : c = '\n' := by
  apply Char.ext
  exact UInt32.toNat_inj.1 h

theorem char_run (s : State) (hs : Between s) (c : Char) :
    Between (run s (enc c)).1 ∧ ((run s (enc c)).2 = [] ∨ (run s (enc c)).2 = [c.toNat] ∧ Visible c) := by
  by_cases h : c.toNat < 0x80
  · rw [enc_ascii c h]
    obtain ⟨h1, h2⟩ := ascii s hs c.toNat h
    simp only [run, List.append_nil]
    refine ⟨h1, h2.imp_right fun h2 => ⟨h2.1, h2.2.imp_right newline_of⟩⟩
  · by_cases hg : s = .ground
    · rw [hg, ground_char c (by omega)]
      exact ⟨fun t p => by simp, .inr ⟨rfl, .inl (by omega)⟩⟩
    · obtain ⟨b, bs, he, hb, -, hbs⟩ := enc_lead c (by omega)
      rw [he]
      obtain ⟨h1, h2⟩ := silent s hs b (by omega) fun e => absurd e hg
      obtain ⟨h3, h4⟩ := silent_run bs _ h2 hbs
      simp only [run]
      exact ⟨h4, .inl (by rw [h1, h3]; rfl)⟩

theorem bytes_cons (c : Char) (t : List Char) : bytes (c :: t) = enc c ++ bytes t := rfl
theorem bytes_append (a b : List Char) : bytes (a ++ b) = bytes a ++ bytes b := by simp [bytes]

theorem text_run (t : List Char) : ∀ s, Between s → ∃ out : List Char, (run s (bytes t)).2 = out.map (·.toNat) ∧ out.Sublist t ∧ ∀ c ∈ out, Visible c := by
  induction t with
  | nil => intro s _; exact ⟨[], rfl, .slnil, fun c h => absurd h List.not_mem_nil⟩
  | cons c t ih =>
    intro s hs
    obtain ⟨h1, h2⟩ := char_run s hs c
    obtain ⟨out, h3, h4, h5⟩ := ih _ h1
    rw [bytes_cons, run_append]
    rcases h2 with h2 | ⟨h2, hv⟩
    · exact ⟨out, by rw [h2, h3]; rfl, h4.cons c, h5⟩
    · refine ⟨c :: out, by rw [h2, h3]; rfl, h4.cons₂ c, fun x hx => ?_⟩
      rcases List.mem_cons.1 hx with rfl | hx
      · exact hv
      · exact h5 x hx

theorem strip_of {t out : List Char} (h : (run .ground (bytes t)).2 = out.map (·.toNat)) : strip t = some out := by
  unfold strip
  simp only [h]
  rw [if_pos]
  · rw [List.map_map]
    congr 1
    exact (List.map_congr_left fun c _ => Char.ofNat_toNat c).trans (List.map_id' _)
  · rw [List.all_map, List.all_eq_true]
    intro c _
    simpa using valid c

/-! ## Pieces -/

theorem ground_visible (c : Char) (h : Visible c) : run .ground (enc c) = (.ground, [c.toNat]) := by
  by_cases hc : c.toNat < 0x80
  · rw [enc_ascii c hc]
    simp only [run, advance, change]
    rcases h with h | rfl
    · rw [if_neg (by omega), if_neg (by omega), if_neg (by omega), if_pos hc]
      rfl
    · rfl
  · exact ground_char c (by omega)

theorem ground_text (t : List Char) (h : ∀ c ∈ t, Visible c) : run .ground (bytes t) = (.ground, t.map (·.toNat)) := by
  induction t with
  | nil => rfl
  | cons c t ih =>
    rw [bytes_cons, run_append, ground_visible c (h c List.mem_cons_self), ih fun x hx => h x (List.mem_cons_of_mem _ hx)]
    rfl

/-- Characters that leave a set of states to itself, and show nothing. -/
theorem stays (S : State → Prop) (t : List Char) (h : ∀ c ∈ t, ∀ s, S s → S (run s (enc c)).1 ∧ (run s (enc c)).2 = []) :
    ∀ s, S s → S (run s (bytes t)).1 ∧ (run s (bytes t)).2 = [] := by
  induction t with
  | nil => intro s hs; exact ⟨hs, rfl⟩
  | cons c t ih =>
    intro s hs
    obtain ⟨h1, h2⟩ := h c List.mem_cons_self s hs
    obtain ⟨h3, h4⟩ := ih (fun x hx => h x (List.mem_cons_of_mem _ hx)) _ h1
    rw [bytes_cons, run_append]
    exact ⟨h3, by rw [h2, h4]; rfl⟩

theorem run_one (s : State) (b : Nat) : run s [b] = ((advance s b).1, (advance s b).2.written) := by simp [run]

theorem csi_stays (c : Char) (h : Within ' ' '?' c) (s : State) (hs : s = .csi) : (run s (enc c)).1 = .csi ∧ (run s (enc c)).2 = [] := by
  obtain ⟨h1, h2⟩ := h
  have h1 : 0x20 ≤ c.toNat := h1
  have h2 : c.toNat ≤ 0x3F := h2
  rw [enc_ascii c (by omega), run_one, hs]
  simp only [advance, change]
  rw [if_neg (by omega), if_neg (by omega), if_neg (by omega), if_neg (by omega)]
  exact ⟨rfl, rfl⟩

theorem csi_ends (c : Char) (h : Within '@' '~' c) : run .csi (enc c) = (.ground, []) := by
  obtain ⟨h1, h2⟩ := h
  have h1 : 0x40 ≤ c.toNat := h1
  have h2 : c.toNat ≤ 0x7E := h2
  rw [enc_ascii c (by omega), run_one]
  simp only [advance, change]
  rw [if_neg (by omega), if_neg (by omega), if_neg (by omega), if_pos (by omega)]
  rfl

theorem osc_byte (b : Nat) (h : 0x20 ≤ b) : advance .osc b = (.osc, .nothing) := by
  simp only [advance, change]
  rw [if_neg (by omega), if_neg (by omega), if_neg (by omega)]

theorem osc_bytes (bs : List Nat) (h : ∀ b ∈ bs, 0x20 ≤ b) : run .osc bs = (.osc, []) := by
  induction bs with
  | nil => rfl
  | cons b bs ih =>
    simp only [run, osc_byte b (h b List.mem_cons_self), ih fun x hx => h x (List.mem_cons_of_mem _ hx)]
    rfl

theorem osc_stays (c : Char) (h : 0x20 ≤ c.toNat) (s : State) (hs : s = .osc) : (run s (enc c)).1 = .osc ∧ (run s (enc c)).2 = [] := by
  rw [hs, osc_bytes]
  · exact ⟨rfl, rfl⟩
  · intro b hb
    by_cases hc : c.toNat < 0x80
    · rw [enc_ascii c hc, List.mem_singleton] at hb
      omega
    · obtain ⟨b', bs, he, hb', -, hbs⟩ := enc_lead c (by omega)
      rw [he] at hb
      rcases List.mem_cons.1 hb with rfl | hb
      · omega
      · have := (hbs b hb).1; omega

/-- In a string other than that of OSC. -/
def InString (s : State) : Prop := s = .dcsEntry ∨ s = .dcsParam ∨ s = .dcsIntermediate ∨ s = .dcs ∨ s = .sos

theorem string_stays (c : Char) (h : Within ' ' '~' c) (s : State) (hs : InString s) : InString (run s (enc c)).1 ∧ (run s (enc c)).2 = [] := by
  obtain ⟨h1, h2⟩ := h
  have h1 : 0x20 ≤ c.toNat := h1
  have h2 : c.toNat ≤ 0x7E := h2
  rw [enc_ascii c (by omega), run_one]
  unfold InString at *
  rcases hs with rfl | rfl | rfl | rfl | rfl <;> simp only [advance, change] <;> rw [if_neg (by omega), if_neg (by omega)] <;>
    repeat' split
  all_goals first
    | omega
    | exact ⟨by simp, rfl⟩

theorem string_ends (s : State) (hs : InString s) : run s (bytes ['\x1B', '\\']) = (.ground, []) := by
  have e : bytes ['\x1B', '\\'] = [0x1B, 0x5C] := by decide
  rw [e]
  rcases hs with rfl | rfl | rfl | rfl | rfl <;> rfl

/-- In a code without a string. -/
def InOther (s : State) : Prop := s = .escape ∨ s = .escapeIntermediate

theorem middle (t : List Char) (h : ∀ c ∈ t, Within ' ' '/' c) (hne : t ≠ []) : run .escape (bytes t) = (.escapeIntermediate, []) := by
  have one : ∀ c, Within ' ' '/' c → ∀ s, InOther s → run s (enc c) = (.escapeIntermediate, []) := by
    rintro c ⟨h1, h2⟩ s hs
    have h1 : 0x20 ≤ c.toNat := h1
    have h2 : c.toNat ≤ 0x2F := h2
    rw [enc_ascii c (by omega), run_one]
    rcases hs with rfl | rfl <;> simp only [advance, change] <;> rw [if_neg (by omega), if_neg (by omega), if_neg (by omega)]
    · rw [if_pos (by omega)]; rfl
    · rw [if_neg (by omega)]; rfl
  cases t with
  | nil => exact absurd rfl hne
  | cons c t =>
    rw [bytes_cons, run_append, one c (h c List.mem_cons_self) _ (.inl rfl)]
    have hst := stays (fun s => s = .escapeIntermediate) t (fun x hx s hs => by
      rw [one x (h x (List.mem_cons_of_mem _ hx)) s (.inr hs)]; exact ⟨rfl, rfl⟩) .escapeIntermediate rfl
    simp only [hst.2, List.nil_append]
    exact Prod.ext hst.1 rfl

theorem control_run (c : Char) (h : (Piece.control c).Valid) : run .ground (bytes [c]) = (.ground, []) := by
  obtain ⟨h1, h2, h3⟩ := h
  have ne : ∀ d : Char, c ≠ d → c.toNat ≠ d.toNat := fun d hd e => hd (Char.ext (UInt32.toNat_inj.1 e))
  have h2 : c.toNat ≠ 0x0A := ne _ h2
  have h3 : c.toNat ≠ 0x1B := ne _ h3
  have e : bytes [c] = [c.toNat] := by rw [bytes_cons, enc_ascii c (by omega)]; rfl
  rw [e, run_one]
  simp only [advance, change, if_neg h3, if_pos h1]
  split
  · simp only [Told.written]; rw [if_neg h2]
  · simp only [Told.written]; rw [if_neg h2]

theorem piece_run (p : Piece) (h : p.Valid) : run .ground (bytes p.chars) = (.ground, p.shown.map (·.toNat)) := by
  cases p with
  | text t => exact ground_text t h
  | csi ps f =>
    have e : bytes (Piece.csi ps f).chars = [0x1B, 0x5B] ++ (bytes ps ++ enc f) := by
      show bytes (['\x1B', '['] ++ (ps ++ [f])) = _
      rw [bytes_append, bytes_append]
      congr 1
      simp [bytes, enc]
    have h1 : run .ground [0x1B, 0x5B] = (.csi, []) := rfl
    obtain ⟨h2, h3⟩ := stays (fun s => s = .csi) ps (fun c hc s hs => csi_stays c (h.1 c hc) s hs) .csi rfl
    rw [e, run_append, h1, run_append, h2, h3, csi_ends f h.2]
    rfl
  | oscBell t =>
    have e : bytes (Piece.oscBell t).chars = [0x1B, 0x5D] ++ (bytes t ++ [7]) := by
      show bytes (['\x1B', ']'] ++ (t ++ ['\x07'])) = _
      rw [bytes_append, bytes_append]
      congr 1
    have h1 : run .ground [0x1B, 0x5D] = (.osc, []) := rfl
    obtain ⟨h2, h3⟩ := stays (fun s => s = .osc) t (fun c hc s hs => osc_stays c (h c hc) s hs) .osc rfl
    rw [e, run_append, h1, run_append, h2, h3]
    rfl
  | osc t =>
    have e : bytes (Piece.osc t).chars = [0x1B, 0x5D] ++ (bytes t ++ [0x1B, 0x5C]) := by
      show bytes (['\x1B', ']'] ++ (t ++ ['\x1B', '\\'])) = _
      rw [bytes_append, bytes_append]
      congr 1
    have h1 : run .ground [0x1B, 0x5D] = (.osc, []) := rfl
    obtain ⟨h2, h3⟩ := stays (fun s => s = .osc) t (fun c hc s hs => osc_stays c (h c hc) s hs) .osc rfl
    rw [e, run_append, h1, run_append, h2, h3]
    rfl
  | string st t =>
    obtain ⟨hst, ht⟩ := h
    have e : bytes (Piece.string st t).chars = bytes ['\x1B', st] ++ (bytes t ++ bytes ['\x1B', '\\']) := by
      show bytes (['\x1B', st] ++ (t ++ ['\x1B', '\\'])) = _
      rw [bytes_append, bytes_append]
    have h1 : InString (run .ground (bytes ['\x1B', st])).1 ∧ (run .ground (bytes ['\x1B', st])).2 = [] := by
      unfold InString
      rcases hst with rfl | rfl | rfl | rfl <;> decide
    obtain ⟨h2, h3⟩ := stays InString t (fun c hc s hs => string_stays c (ht c hc) s hs) _ h1.1
    rw [e, run_append, h1.2, run_append, h3, string_ends _ h2]
    rfl
  | control c => exact control_run c h
  | other m f =>
    obtain ⟨hm, hf, hne⟩ := h
    have e : bytes (Piece.other m f).chars = [0x1B] ++ (bytes m ++ enc f) := by
      show bytes (['\x1B'] ++ (m ++ [f])) = _
      rw [bytes_append, bytes_append]
      congr 1
      simp [bytes, enc]
    have h1 : run .ground [0x1B] = (.escape, []) := rfl
    obtain ⟨hf1, hf2⟩ := hf
    have hf1 : 0x30 ≤ f.toNat := hf1
    have hf2 : f.toNat ≤ 0x7E := hf2
    rw [e, run_append, h1, run_append, enc_ascii f (by omega), run_one]
    by_cases hme : m = []
    · obtain ⟨n1, n2, n3, n4, n5, n6⟩ := hne hme
      have ne : ∀ d : Char, f ≠ d → f.toNat ≠ d.toNat := fun d hd e => hd (Char.ext (UInt32.toNat_inj.1 e))
      have n1 : f.toNat ≠ 0x50 := ne 'P' n1
      have n2 : f.toNat ≠ 0x58 := ne 'X' n2
      have n3 : f.toNat ≠ 0x5B := ne '[' n3
      have n4 : f.toNat ≠ 0x5D := ne ']' n4
      have n5 : f.toNat ≠ 0x5E := ne '^' n5
      have n6 : f.toNat ≠ 0x5F := ne '_' n6
      have hr : run .escape (bytes m) = (.escape, []) := by rw [hme]; rfl
      rw [hr]
      simp only [advance, change]
      rw [if_neg (by omega), if_neg (by omega), if_neg (by omega), if_neg (by omega), if_neg (by omega), if_neg (by omega), if_neg (by omega),
        if_neg (by omega), if_pos (by omega)]
      rfl
    · rw [middle m hm hme]
      simp only [advance, change]
      rw [if_neg (by omega), if_neg (by omega), if_neg (by omega), if_pos (by omega)]
      rfl

theorem pieces_run (ps : List Piece) (h : ∀ p ∈ ps, p.Valid) :
    run .ground (bytes (ps.flatMap Piece.chars)) = (.ground, (ps.flatMap Piece.shown).map (·.toNat)) := by
  induction ps with
  | nil => rfl
  | cons p ps ih =>
    rw [List.flatMap_cons, bytes_append, run_append, piece_run p (h p List.mem_cons_self), ih fun x hx => h x (List.mem_cons_of_mem _ hx),
      List.flatMap_cons, List.map_append]

instance : DecidablePred Visible := fun c => inferInstanceAs (Decidable (0x20 ≤ c.toNat ∨ c = '\n'))
instance (lo hi : Char) : DecidablePred (Within lo hi) := fun c => inferInstanceAs (Decidable (lo.toNat ≤ c.toNat ∧ c.toNat ≤ hi.toNat))
instance : DecidablePred Piece.Valid
  | .text t => inferInstanceAs (Decidable (∀ c ∈ t, Visible c))
  | .csi ps f => inferInstanceAs (Decidable ((∀ c ∈ ps, Within ' ' '?' c) ∧ Within '@' '~' f))
  | .oscBell t | .osc t => inferInstanceAs (Decidable (∀ c ∈ t, 0x20 ≤ c.toNat))
  | .string s t => inferInstanceAs (Decidable ((s = 'P' ∨ s = 'X' ∨ s = '^' ∨ s = '_') ∧ ∀ c ∈ t, Within ' ' '~' c))
  | .other m f => inferInstanceAs (Decidable ((∀ c ∈ m, Within ' ' '/' c) ∧ Within '0' '~' f ∧
      (m = [] → f ≠ 'P' ∧ f ≠ 'X' ∧ f ≠ '[' ∧ f ≠ ']' ∧ f ≠ '^' ∧ f ≠ '_')))
  | .control c => inferInstanceAs (Decidable (c.toNat < 0x20 ∧ c ≠ '\n' ∧ c ≠ '\x1B'))

end Abq.StripCodesProof
