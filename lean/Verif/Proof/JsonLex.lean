import Verif.Proof.JsonText

/-!
Where a text is inside of strings, and how deep: a coarser machine that the reader follows. It shows that no proper part of the
text of an array or object, cut off at its beginning or its end, is a document.
-/

namespace Abq.JsonText
open RunStateDoc (Json)
open Spec.JsonText

inductive Lex where
  | out
  | inside
  | esc
deriving DecidableEq

def lexMode : Mode → Lex
  | .str .. => .inside
  | .esc .. => .esc
  | .hex .. => .inside
  | .lowEsc .. => .inside
  | .lowU .. => .esc
  | .lowHex .. => .inside
  | _ => .out

def lexStep (x : Lex) (b : Byte) : Lex :=
  match x with
  | .out => if b = 34 then .inside else .out
  | .inside => if b = 34 then .out else if b = 92 then .esc else .inside
  | .esc => .inside

def delta (x : Lex) (b : Byte) : Int :=
  match x with
  | .out => if b = 91 ∨ b = 123 then 1 else if b = 93 ∨ b = 125 then -1 else 0
  | _ => 0

/-- What is common to a step of the reader and one of the coarser machine. -/
structure Follows (s s' : State) (b : Byte) : Prop where
  lex : lexMode s'.mode = lexStep (lexMode s.mode) b
  depth : (s'.stack.length : Int) = s.stack.length + delta (lexMode s.mode) b
  plain : lexMode s.mode = .out → b ≠ 92

theorem deliver_length (v : Json) (st : List Frame) : (deliver v st).stack.length = st.length := by
  cases st with
  | nil => rfl
  | cons fr st => cases fr <;> rfl

theorem deliver_lex (v : Json) (st : List Frame) : lexMode (deliver v st).mode = .out := by
  cases st with
  | nil => rfl
  | cons fr st => cases fr <;> rfl

theorem lexStep_out {b : Byte} (h : b ≠ 34) : lexStep .out b = .out := if_neg h

theorem delta_zero {b : Byte} (h1 : b ≠ 91) (h2 : b ≠ 123) (h3 : b ≠ 93) (h4 : b ≠ 125) : delta .out b = 0 := by
  show (if b = 91 ∨ b = 123 then (1 : Int) else if b = 93 ∨ b = 125 then -1 else 0) = 0
  rw [if_neg (by rintro (h | h); exact h1 h; exact h2 h), if_neg (by rintro (h | h); exact h3 h; exact h4 h)]

theorem space_facts {b : Byte} (h : isSpace b = true) : b ≠ 34 ∧ b ≠ 92 ∧ b ≠ 91 ∧ b ≠ 123 ∧ b ≠ 93 ∧ b ≠ 125 := by
  simp only [isSpace, Bool.or_eq_true, decide_eq_true_eq] at h
  rcases h with ((rfl | rfl) | rfl) | rfl <;> decide

theorem follows_space {s : State} {b : Byte} (hl : lexMode s.mode = .out) (h : isSpace b = true) : Follows s s b := by
  obtain ⟨h1, h2, h3, h4, h5, h6⟩ := space_facts h
  refine ⟨?_, ?_, fun _ => h2⟩
  · rw [hl, lexStep_out h1]
  · rw [hl, delta_zero h3 h4 h5 h6]; omega

theorem follows_begin {s s' : State} {b : Byte} (hl : lexMode s.mode = .out) (h : beginValue s.stack b = some s') : Follows s s' b := by
  unfold beginValue at h
  by_cases h1 : b = 34
  · rw [if_pos h1] at h
    cases h
    subst h1
    exact ⟨by rw [hl]; rfl, by rw [hl]; show (s.stack.length : Int) = s.stack.length + 0; omega, fun _ => by decide⟩
  rw [if_neg h1] at h
  by_cases h2 : b = 91
  · rw [if_pos h2] at h
    unfold open' at h
    split at h
    · cases h
      subst h2
      exact ⟨by rw [hl]; rfl, by rw [hl]; rfl, fun _ => by decide⟩
    · cases h
  rw [if_neg h2] at h
  by_cases h3 : b = 123
  · rw [if_pos h3] at h
    unfold open' at h
    split at h
    · cases h
      subst h3
      exact ⟨by rw [hl]; rfl, by rw [hl]; rfl, fun _ => by decide⟩
    · cases h
  rw [if_neg h3] at h
  by_cases h4 : b = 110
  · rw [if_pos h4] at h
    cases h
    subst h4
    exact ⟨by rw [hl]; rfl, by rw [hl]; show (s.stack.length : Int) = s.stack.length + 0; omega, fun _ => by decide⟩
  rw [if_neg h4] at h
  by_cases h5 : b = 116
  · rw [if_pos h5] at h
    cases h
    subst h5
    exact ⟨by rw [hl]; rfl, by rw [hl]; show (s.stack.length : Int) = s.stack.length + 0; omega, fun _ => by decide⟩
  rw [if_neg h5] at h
  by_cases h6 : b = 102
  · rw [if_pos h6] at h
    cases h
    subst h6
    exact ⟨by rw [hl]; rfl, by rw [hl]; show (s.stack.length : Int) = s.stack.length + 0; omega, fun _ => by decide⟩
  rw [if_neg h6] at h
  by_cases h7 : (isDigit b || b = 45) = true
  · rw [if_pos h7] at h
    cases h
    have h92 : b ≠ 92 := by intro e; subst e; revert h7; decide
    have h125 : b ≠ 125 := by intro e; subst e; revert h7; decide
    refine ⟨by rw [hl, lexStep_out h1]; rfl, ?_, fun _ => h92⟩
    rw [hl, delta_zero h2 h3 (digit_facts b h7).2.2.2.2.2.2.2 h125]
    show (s.stack.length : Int) = s.stack.length + 0
    omega
  · rw [if_neg h7] at h
    cases h

theorem follows_same {s s' : State} {b : Byte} (hl : lexMode s.mode = .out) (hl' : lexMode s'.mode = .out)
    (hn : s'.stack.length = s.stack.length) (h1 : b ≠ 34) (h2 : b ≠ 91) (h3 : b ≠ 123) (h4 : b ≠ 93) (h5 : b ≠ 125) (h6 : b ≠ 92) :
    Follows s s' b := by
  refine ⟨by rw [hl, hl', lexStep_out h1], ?_, fun _ => h6⟩
  rw [hl, hn, delta_zero h2 h3 h4 h5]
  omega

theorem follows_close {s : State} {b : Byte} {fr : Frame} {st : List Frame} {v : Json} (hl : lexMode s.mode = .out)
    (hs : s.stack = fr :: st) (hb : b = 93 ∨ b = 125) : Follows s (deliver v st) b := by
  refine ⟨?_, ?_, ?_⟩
  · rw [hl, deliver_lex]
    rcases hb with rfl | rfl <;> rfl
  · rw [hl, deliver_length, hs]
    rcases hb with rfl | rfl
    · show (st.length : Int) = (st.length + 1 : Nat) + (-1 : Int); omega
    · show (st.length : Int) = (st.length + 1 : Nat) + (-1 : Int); omega
  · intro _
    rcases hb with rfl | rfl <;> decide

theorem follows_key {s : State} (hl : lexMode s.mode = .out) : Follows s ⟨.str .key [], s.stack⟩ 34 :=
  ⟨by rw [hl]; rfl, by rw [hl]; show (s.stack.length : Int) = s.stack.length + 0; omega, fun _ => by decide⟩

theorem hexVal_facts {b : Byte} {d : Nat} (h : hexVal b = some d) : b ≠ 34 ∧ b ≠ 92 := by
  constructor
  · intro e; subst e; revert h; simp [hexVal, isDigit]
  · intro e; subst e; revert h; simp [hexVal, isDigit]

theorem follows_inside {s s' : State} {b : Byte} (hl : lexMode s.mode = .inside) (hl' : lexMode s'.mode = .inside)
    (hn : s'.stack.length = s.stack.length) (h1 : b ≠ 34) (h2 : b ≠ 92) : Follows s s' b := by
  refine ⟨?_, ?_, fun e => absurd (hl.symm.trans e) (by decide)⟩
  · rw [hl, hl']
    show Lex.inside = if b = 34 then .out else if b = 92 then .esc else .inside
    rw [if_neg h1, if_neg h2]
  · rw [hl, hn]; show (s.stack.length : Int) = s.stack.length + 0; omega

theorem follows_esc {s s' : State} {b : Byte} (hl : lexMode s.mode = .esc) (hl' : lexMode s'.mode = .inside)
    (hn : s'.stack.length = s.stack.length) : Follows s s' b := by
  refine ⟨by rw [hl, hl']; rfl, ?_, fun e => absurd (hl.symm.trans e) (by decide)⟩
  rw [hl, hn]; show (s.stack.length : Int) = s.stack.length + 0; omega

theorem endStr_follows {st : List Frame} {use : Use} {acc : List Byte} {s' : State} (h : endStr st use acc = some s') :
    lexMode s'.mode = .out ∧ s'.stack.length = st.length := by
  unfold endStr at h
  split at h
  · cases h
  · split at h
    · cases h
      exact ⟨deliver_lex _ _, deliver_length _ _⟩
    · split at h
      · cases h; exact ⟨rfl, rfl⟩
      · cases h

theorem endHex_follows {st : List Frame} {use : Use} {acc : List Byte} {code : Nat} {s' : State}
    (h : endHex st use acc code = some s') : lexMode s'.mode = .inside ∧ s'.stack = st := by
  unfold endHex at h
  split at h
  · cases h; exact ⟨rfl, rfl⟩
  · cases he : encodeChar code with
    | none => rw [he] at h; cases h
    | some bs => rw [he] at h; cases h; exact ⟨rfl, rfl⟩

theorem endLow_follows {st : List Frame} {use : Use} {acc : List Byte} {hi code : Nat} {s' : State}
    (h : endLow st use acc hi code = some s') : lexMode s'.mode = .inside ∧ s'.stack = st := by
  unfold endLow at h
  split at h
  · cases he : encodeChar (0x10000 + (hi - 0xD800) * 1024 + (code - 0xDC00)) with
    | none => rw [he] at h; cases h
    | some bs => rw [he] at h; cases h; exact ⟨rfl, rfl⟩
  · cases h

/-- What a literal may go on with. -/
def litByte (b : Byte) : Bool := 97 ≤ b && b ≤ 122

theorem litByte_facts {b : Byte} (h : litByte b = true) : b ≠ 34 ∧ b ≠ 91 ∧ b ≠ 123 ∧ b ≠ 93 ∧ b ≠ 125 ∧ b ≠ 92 := by
  refine ⟨?_, ?_, ?_, ?_, ?_, ?_⟩ <;> (intro e; subst e; revert h; decide)

/-- Literals consist of letters. -/
def Good (s : State) : Prop := ∀ r v, s.mode = .lit r v → ∀ b ∈ r, litByte b = true

theorem stepPlain_follows {s s' : State} {b : Byte} (hg : Good s) (h : stepPlain s b = some s') : Follows s s' b := by
  obtain ⟨mode, st⟩ := s
  cases mode with
  | value =>
    change (if isSpace b = true then some _ else beginValue st b) = some s' at h
    by_cases hs : isSpace b = true
    · rw [if_pos hs] at h; cases h; exact follows_space rfl hs
    · rw [if_neg hs] at h; exact follows_begin rfl h
  | elemOrEnd =>
    unfold stepPlain at h
    dsimp only at h
    by_cases hs : isSpace b = true
    · rw [if_pos hs] at h; cases h; exact follows_space rfl hs
    · rw [if_neg hs] at h
      by_cases hb : b = 93
      · rw [if_pos hb] at h
        split at h
        · cases h; exact follows_close rfl rfl (.inl hb)
        · cases h
      · rw [if_neg hb] at h
        exact follows_begin rfl h
  | nextElem =>
    unfold stepPlain at h
    dsimp only at h
    by_cases hs : isSpace b = true
    · rw [if_pos hs] at h; cases h; exact follows_space rfl hs
    · rw [if_neg hs] at h
      by_cases hc : b = 44
      · rw [if_pos hc] at h
        cases h
        subst hc
        exact follows_same rfl rfl rfl (by decide) (by decide) (by decide) (by decide) (by decide) (by decide)
      · rw [if_neg hc] at h
        by_cases hb : b = 93
        · rw [if_pos hb] at h
          split at h
          · cases h; exact follows_close rfl rfl (.inl hb)
          · cases h
        · rw [if_neg hb] at h; cases h
  | keyOrEnd =>
    unfold stepPlain at h
    dsimp only at h
    by_cases hs : isSpace b = true
    · rw [if_pos hs] at h; cases h; exact follows_space rfl hs
    · rw [if_neg hs] at h
      by_cases hc : b = 34
      · rw [if_pos hc] at h
        cases h
        subst hc
        exact follows_key rfl
      · rw [if_neg hc] at h
        by_cases hb : b = 125
        · rw [if_pos hb] at h
          split at h
          · cases h; exact follows_close rfl rfl (.inr hb)
          · cases h
        · rw [if_neg hb] at h; cases h
  | key =>
    unfold stepPlain at h
    dsimp only at h
    by_cases hs : isSpace b = true
    · rw [if_pos hs] at h; cases h; exact follows_space rfl hs
    · rw [if_neg hs] at h
      by_cases hc : b = 34
      · rw [if_pos hc] at h
        cases h
        subst hc
        exact follows_key rfl
      · rw [if_neg hc] at h; cases h
  | nextMember =>
    unfold stepPlain at h
    dsimp only at h
    by_cases hs : isSpace b = true
    · rw [if_pos hs] at h; cases h; exact follows_space rfl hs
    · rw [if_neg hs] at h
      by_cases hc : b = 44
      · rw [if_pos hc] at h
        cases h
        subst hc
        exact follows_same rfl rfl rfl (by decide) (by decide) (by decide) (by decide) (by decide) (by decide)
      · rw [if_neg hc] at h
        by_cases hb : b = 125
        · rw [if_pos hb] at h
          split at h
          · cases h; exact follows_close rfl rfl (.inr hb)
          · cases h
        · rw [if_neg hb] at h; cases h
  | colon =>
    unfold stepPlain at h
    dsimp only at h
    by_cases hs : isSpace b = true
    · rw [if_pos hs] at h; cases h; exact follows_space rfl hs
    · rw [if_neg hs] at h
      by_cases hc : b = 58
      · rw [if_pos hc] at h
        cases h
        subst hc
        exact follows_same rfl rfl rfl (by decide) (by decide) (by decide) (by decide) (by decide) (by decide)
      · rw [if_neg hc] at h; cases h
  | str use acc =>
    unfold stepPlain at h
    dsimp only at h
    by_cases h1 : b = 34
    · rw [if_pos h1] at h
      have := endStr_follows h
      subst h1
      refine ⟨this.1, ?_, fun e => absurd e (by show Lex.inside ≠ Lex.out; decide)⟩
      rw [this.2]; show (st.length : Int) = st.length + 0; omega
    · rw [if_neg h1] at h
      by_cases h2 : b = 92
      · rw [if_pos h2] at h
        cases h
        subst h2
        refine ⟨rfl, ?_, fun e => absurd e (by show Lex.inside ≠ Lex.out; decide)⟩
        show (st.length : Int) = st.length + 0; omega
      · rw [if_neg h2] at h
        split at h
        · cases h
        · cases h
          exact follows_inside rfl rfl rfl h1 h2
  | esc use acc =>
    unfold stepPlain at h
    dsimp only at h
    split at h
    · cases h; exact follows_esc rfl rfl rfl
    · cases hu : unescape b with
      | none => rw [hu] at h; cases h
      | some c => rw [hu] at h; cases h; exact follows_esc rfl rfl rfl
  | hex use acc left code =>
    unfold stepPlain at h
    dsimp only at h
    cases hv : hexVal b with
    | none => rw [hv] at h; cases h
    | some d =>
      rw [hv] at h
      dsimp only at h
      have hb := hexVal_facts hv
      split at h
      · have := endHex_follows h
        exact follows_inside rfl this.1 (by rw [this.2]) hb.1 hb.2
      · cases h; exact follows_inside rfl rfl rfl hb.1 hb.2
  | lowEsc use acc hi =>
    unfold stepPlain at h
    dsimp only at h
    by_cases hb : b = 92
    · rw [if_pos hb] at h
      cases h
      subst hb
      refine ⟨rfl, ?_, fun e => absurd e (by show Lex.inside ≠ Lex.out; decide)⟩
      show (st.length : Int) = st.length + 0; omega
    · rw [if_neg hb] at h; cases h
  | lowU use acc hi =>
    unfold stepPlain at h
    dsimp only at h
    split at h
    · cases h; exact follows_esc rfl rfl rfl
    · cases h
  | lowHex use acc hi left code =>
    unfold stepPlain at h
    dsimp only at h
    cases hv : hexVal b with
    | none => rw [hv] at h; cases h
    | some d =>
      rw [hv] at h
      dsimp only at h
      have hb := hexVal_facts hv
      split at h
      · have := endLow_follows h
        exact follows_inside rfl this.1 (by rw [this.2]) hb.1 hb.2
      · cases h; exact follows_inside rfl rfl rfl hb.1 hb.2
  | lit r v =>
    have hr : ∀ c ∈ r, litByte c = true := hg r v rfl
    unfold stepPlain at h
    dsimp only at h
    split at h
    · cases h
    · rename_i c
      split at h
      · rename_i hb
        cases h
        have hf := litByte_facts (b := b) (by rw [hb]; exact hr c (List.mem_cons_self ..))
        exact follows_same rfl (deliver_lex _ _) (deliver_length _ _) hf.1 hf.2.1 hf.2.2.1 hf.2.2.2.1 hf.2.2.2.2.1 hf.2.2.2.2.2
      · cases h
    · rename_i c rest' _
      split at h
      · rename_i hb
        cases h
        have hf := litByte_facts (b := b) (by rw [hb]; exact hr c (List.mem_cons_self ..))
        exact follows_same rfl rfl rfl hf.1 hf.2.1 hf.2.2.1 hf.2.2.2.1 hf.2.2.2.2.1 hf.2.2.2.2.2
      · cases h
  | num acc => cases h
  | done v =>
    change (if isSpace b = true then some _ else none) = some s' at h
    by_cases hs : isSpace b = true
    · rw [if_pos hs] at h; cases h; exact follows_space rfl hs
    · rw [if_neg hs] at h; cases h

theorem deliver_good (v : Json) (st : List Frame) : Good (deliver v st) := by
  intro r w h
  cases st with
  | nil => cases h
  | cons fr st => cases fr <;> cases h

theorem begin_good {st : List Frame} {b : Byte} {s' : State} (h : beginValue st b = some s') : Good s' := by
  unfold beginValue at h
  repeat' split at h
  · cases h; intro r v h; cases h
  · unfold open' at h
    split at h
    · cases h; intro r v h; cases h
    · cases h
  · unfold open' at h
    split at h
    · cases h; intro r v h; cases h
    · cases h
  · cases h; intro r v h; cases h; decide
  · cases h; intro r v h; cases h; decide
  · cases h; intro r v h; cases h; decide
  · cases h; intro r v h; cases h
  · cases h

theorem endStr_good {st : List Frame} {use : Use} {acc : List Byte} {s' : State} (h : endStr st use acc = some s') : Good s' := by
  unfold endStr at h
  split at h
  · cases h
  · split at h
    · cases h; exact deliver_good _ _
    · split at h
      · cases h; intro r v h; cases h
      · cases h

theorem endHex_good {st : List Frame} {use : Use} {acc : List Byte} {code : Nat} {s' : State}
    (h : endHex st use acc code = some s') : Good s' := by
  intro r v hm
  have := (endHex_follows h).1
  rw [hm] at this
  cases this

theorem endLow_good {st : List Frame} {use : Use} {acc : List Byte} {hi code : Nat} {s' : State}
    (h : endLow st use acc hi code = some s') : Good s' := by
  intro r v hm
  have := (endLow_follows h).1
  rw [hm] at this
  cases this

theorem stepPlain_good {s s' : State} {b : Byte} (hg : Good s) (h : stepPlain s b = some s') : Good s' := by
  obtain ⟨mode, st⟩ := s
  unfold stepPlain at h
  dsimp only at h
  cases mode <;> dsimp only at h
  case lit r v =>
    have hr : ∀ c ∈ r, litByte c = true := hg r v rfl
    split at h
    · cases h
    · split at h
      · cases h; exact deliver_good _ _
      · cases h
    · split at h
      · cases h
        intro r' v' e
        cases e
        exact fun c hc => hr c (List.mem_cons_of_mem _ hc)
      · cases h
  case num => cases h
  case hex =>
    repeat' split at h
    · cases h
    · exact endHex_good h
    · cases h; intro r v e; cases e
  case lowHex =>
    repeat' split at h
    · cases h
    · exact endLow_good h
    · cases h; intro r v e; cases e
  case esc =>
    split at h
    · cases h; intro r v e; cases e
    · cases hu : unescape b with
      | none => rw [hu] at h; cases h
      | some c => rw [hu] at h; cases h; intro r v e; cases e
  all_goals
    repeat' split at h
    all_goals first
      | exact begin_good h
      | exact endStr_good h
      | (cases h; done)
      | (cases h; exact hg)
      | (cases h; exact deliver_good _ _)
      | (cases h; intro r v e; cases e)

theorem step_follows {f : Floats} {s s' : State} {b : Byte} (hg : Good s) (h : step f s b = some s') : Follows s s' b ∧ Good s' := by
  obtain ⟨mode, st⟩ := s
  unfold step at h
  dsimp only at h
  split at h
  · rename_i acc
    split at h
    · rename_i hb
      cases h
      refine ⟨follows_same rfl rfl rfl ?_ ?_ ?_ ?_ ?_ ?_, fun r v e => by cases e⟩ <;> (intro e; subst e; revert hb; decide)
    · cases hv : readNum f acc with
      | none => rw [hv] at h; cases h
      | some v =>
        rw [hv] at h
        have hp : stepPlain (deliver v st) b = some s' := h
        have hf := stepPlain_follows (deliver_good v st) hp
        refine ⟨⟨?_, ?_, fun _ => hf.plain (deliver_lex v st)⟩, stepPlain_good (deliver_good v st) hp⟩
        · rw [hf.lex, deliver_lex]; rfl
        · have := hf.depth
          rw [deliver_lex, deliver_length] at this
          exact this
  · exact ⟨stepPlain_follows hg h, stepPlain_good hg h⟩

/-- The reader after some bytes. -/
def runs (f : Floats) (s : State) : List Byte → Option State
  | [] => some s
  | b :: bs => (step f s b).bind fun s => runs f s bs

theorem parseFrom_runs (f : Floats) (bs rest : List Byte) : ∀ s,
    parseFrom f s (bs ++ rest) = (runs f s bs).bind fun s => parseFrom f s rest := by
  induction bs with
  | nil => intro s; rfl
  | cons b bs ih =>
    intro s
    rw [List.cons_append, parseFrom_cons]
    show _ = ((step f s b).bind fun s => runs f s bs).bind _
    cases h : step f s b with
    | none => rfl
    | some s' => exact ih s'

def lexRun (x : Lex) : List Byte → Lex
  | [] => x
  | b :: bs => lexRun (lexStep x b) bs

def net (x : Lex) : List Byte → Int
  | [] => 0
  | b :: bs => delta x b + net (lexStep x b) bs

theorem runs_follows {f : Floats} (bs : List Byte) : ∀ {s s' : State}, Good s → runs f s bs = some s' →
    lexMode s'.mode = lexRun (lexMode s.mode) bs ∧ (s'.stack.length : Int) = s.stack.length + net (lexMode s.mode) bs ∧ Good s' := by
  induction bs with
  | nil =>
    intro s s' hg h
    cases h
    exact ⟨rfl, by show (s.stack.length : Int) = s.stack.length + 0; omega, hg⟩
  | cons b bs ih =>
    intro s s' hg h
    change ((step f s b).bind fun s => runs f s bs) = some s' at h
    cases hs : step f s b with
    | none => rw [hs] at h; cases h
    | some t =>
      rw [hs] at h
      obtain ⟨hf, hgt⟩ := step_follows hg hs
      obtain ⟨h1, h2, h3⟩ := ih hgt h
      refine ⟨by rw [h1, hf.lex]; rfl, ?_, h3⟩
      rw [h2, hf.depth, hf.lex]
      show _ = _ + (delta _ b + net _ bs)
      omega

/-- One is inside of a string exactly if the other is not. -/
def Opposite (x y : Lex) : Prop := (x = .inside ∧ y = .out) ∨ (x = .out ∧ y = .inside)

theorem runs_opposite {f : Floats} (bs : List Byte) : ∀ {a a' b b' : State}, Good a → Good b → Opposite (lexMode a.mode) (lexMode b.mode) →
    runs f a bs = some a' → runs f b bs = some b' → Opposite (lexMode a'.mode) (lexMode b'.mode) := by
  induction bs with
  | nil => intro a a' b b' _ _ ho ha hb; cases ha; cases hb; exact ho
  | cons c bs ih =>
    intro a a' b b' hga hgb ho ha hb
    change ((step f a c).bind fun s => runs f s bs) = some a' at ha
    change ((step f b c).bind fun s => runs f s bs) = some b' at hb
    cases hsa : step f a c with
    | none => rw [hsa] at ha; cases ha
    | some a1 =>
      cases hsb : step f b c with
      | none => rw [hsb] at hb; cases hb
      | some b1 =>
        rw [hsa] at ha
        rw [hsb] at hb
        obtain ⟨hfa, hga1⟩ := step_follows hga hsa
        obtain ⟨hfb, hgb1⟩ := step_follows hgb hsb
        refine ih hga1 hgb1 ?_ ha hb
        rw [hfa.lex, hfb.lex]
        rcases ho with ⟨h1, h2⟩ | ⟨h1, h2⟩
        · have h92 := hfb.plain h2
          rw [h1, h2]
          by_cases h34 : c = 34
          · subst h34; exact .inr ⟨rfl, rfl⟩
          · left
            refine ⟨?_, lexStep_out h34⟩
            show (if c = 34 then Lex.out else if c = 92 then .esc else .inside) = _
            rw [if_neg h34, if_neg h92]
        · have h92 := hfa.plain h1
          rw [h1, h2]
          by_cases h34 : c = 34
          · subst h34; exact .inl ⟨rfl, rfl⟩
          · right
            refine ⟨lexStep_out h34, ?_⟩
            show (if c = 34 then Lex.out else if c = 92 then .esc else .inside) = _
            rw [if_neg h34, if_neg h92]

theorem finish_facts {f : Floats} {s : State} {v : Json} (h : finish f s = some v) :
    s.stack = [] ∧ lexMode s.mode = .out ∧ (s.mode = .done v ∨ ∃ acc, s.mode = .num acc) := by
  obtain ⟨mode, st⟩ := s
  unfold finish at h
  dsimp only at h
  cases st with
  | cons fr st => cases h
  | nil =>
    dsimp only at h
    cases mode <;> first
      | (cases h; done)
      | (cases h; exact ⟨rfl, rfl, .inl rfl⟩)
      | exact ⟨rfl, rfl, .inr ⟨_, rfl⟩⟩

/-- Once the outermost bracket is open, the reader is either inside of it or done. -/
def Bracketed (s : State) : Prop := s.stack ≠ [] ∨ ∃ v, s.mode = .done v

theorem deliver_bracketed (v : Json) (st : List Frame) : Bracketed (deliver v st) := by
  cases st with
  | nil => exact .inr ⟨v, rfl⟩
  | cons fr st => left; cases fr <;> exact List.cons_ne_nil _ _

theorem length_pos_of_ne_nil {α : Type} {l : List α} (h : l ≠ []) : 0 < l.length := by
  cases l with
  | nil => exact absurd rfl h
  | cons a l => exact Nat.succ_pos _

theorem stepPlain_bracketed {s s' : State} {b : Byte} (hb : Bracketed s) (h : stepPlain s b = some s') : Bracketed s' := by
  obtain ⟨mode, st⟩ := s
  unfold stepPlain at h
  dsimp only at h
  have hne : (∀ v, mode ≠ .done v) → st ≠ [] := by
    intro hm
    rcases hb with hb | ⟨v, hv⟩
    · exact hb
    · exact absurd hv (hm v)
  cases mode <;> dsimp only at h
  case done v =>
    split at h
    · cases h; exact hb
    · cases h
  case num => cases h
  case str use acc =>
    have hst := hne (fun v e => by cases e)
    repeat' split at h
    · left
      have := (endStr_follows h).2
      intro e
      rw [e] at this
      have := length_pos_of_ne_nil hst
      simp only [List.length_nil] at *
      omega
    · cases h; exact .inl hst
    · cases h
    · cases h; exact .inl hst
  case esc =>
    have hst := hne (fun v e => by cases e)
    split at h
    · cases h; exact .inl hst
    · cases hu : unescape b with
      | none => rw [hu] at h; cases h
      | some c => rw [hu] at h; cases h; exact .inl hst
  case hex =>
    have hst := hne (fun v e => by cases e)
    repeat' split at h
    · cases h
    · left; rw [(endHex_follows h).2]; exact hst
    · cases h; exact .inl hst
  case lowHex =>
    have hst := hne (fun v e => by cases e)
    repeat' split at h
    · cases h
    · left; rw [(endLow_follows h).2]; exact hst
    · cases h; exact .inl hst
  case lit r v =>
    have hst := hne (fun v e => by cases e)
    repeat' split at h
    all_goals first
      | (cases h; done)
      | (cases h; exact deliver_bracketed _ _)
      | (cases h; exact .inl hst)
  all_goals
    have hst := hne (fun v e => by cases e)
    repeat' split at h
    all_goals first
      | (cases h; done)
      | (cases h; exact deliver_bracketed _ _)
      | (cases h; exact .inl hst)
      | (left
         intro e
         have hl := (follows_begin (s := ⟨.value, st⟩) rfl h).depth
         rw [e] at hl
         have := length_pos_of_ne_nil hst
         have hd : -1 ≤ delta .out b := by unfold delta; dsimp only; repeat' split <;> omega
         unfold beginValue at h
         revert h
         repeat' split
         all_goals first
           | (intro h; cases h; exact hst e)
           | (unfold open'; split <;> (intro h; cases h) ; cases e)
           | (intro h; cases h))

theorem step_bracketed {f : Floats} {s s' : State} {b : Byte} (hb : Bracketed s) (h : step f s b = some s') : Bracketed s' := by
  obtain ⟨mode, st⟩ := s
  unfold step at h
  dsimp only at h
  split at h
  · rename_i acc
    split at h
    · cases h
      rcases hb with hb | ⟨v, hv⟩
      · exact .inl hb
      · cases hv
    · cases hv : readNum f acc with
      | none => rw [hv] at h; cases h
      | some v => rw [hv] at h; exact stepPlain_bracketed (deliver_bracketed v st) h
  · exact stepPlain_bracketed hb h

theorem runs_bracketed {f : Floats} (bs : List Byte) : ∀ {s s' : State}, Bracketed s → runs f s bs = some s' → Bracketed s' := by
  induction bs with
  | nil => intro s s' hb h; cases h; exact hb
  | cons b bs ih =>
    intro s s' hb h
    change ((step f s b).bind fun s => runs f s bs) = some s' at h
    cases hs : step f s b with
    | none => rw [hs] at h; cases h
    | some t => rw [hs] at h; exact ih (step_bracketed hb hs) h

/-- After the document there may only be blanks. -/
theorem done_spaces {f : Floats} (bs : List Byte) {v w : Json} (st : List Frame) (h : parseFrom f ⟨.done v, st⟩ bs = some w) :
    ∀ b ∈ bs, isSpace b = true := by
  induction bs with
  | nil => intro b hb; cases hb
  | cons c bs ih =>
    rw [parseFrom_cons] at h
    have hs : step f ⟨.done v, st⟩ c = if isSpace c = true then some ⟨.done v, st⟩ else none := rfl
    rw [hs] at h
    by_cases hc : isSpace c = true
    · rw [if_pos hc] at h
      intro b hb
      rcases List.mem_cons.mp hb with rfl | hb
      · exact hc
      · exact ih h b hb
    · rw [if_neg hc] at h; cases h

theorem elems_last (l : List Json) : ∃ t, printMoreElems l = t ++ [93] := by
  induction l with
  | nil => exact ⟨[], by simp only [printMoreElems]; rfl⟩
  | cons j l ih =>
    obtain ⟨t, ht⟩ := ih
    exact ⟨44 :: print j ++ t, by simp only [printMoreElems]; rw [ht, List.append_assoc]⟩

theorem members_last (l : List (String × Json)) : ∃ t, printMoreMembers l = t ++ [125] := by
  induction l with
  | nil => exact ⟨[], by simp only [printMoreMembers]; rfl⟩
  | cons kj l ih =>
    obtain ⟨k, j⟩ := kj
    obtain ⟨t, ht⟩ := ih
    exact ⟨44 :: printStr k ++ 58 :: print j ++ t, by simp only [printMoreMembers]; rw [ht]; simp only [List.append_assoc]⟩

/-- The text of an array or object is a bracket, something, and a bracket. -/
theorem container_ends (j : Json) (h : (∃ l, j = .arr l) ∨ ∃ m, j = .obj m) :
    ∃ a t z, print j = a :: t ++ [z] ∧ (a = 91 ∨ a = 123) ∧ isSpace z = false := by
  rcases h with ⟨l, rfl⟩ | ⟨m, rfl⟩
  · cases l with
    | nil => exact ⟨91, [], 93, by simp only [print, printElems]; rfl, .inl rfl, rfl⟩
    | cons j l =>
      obtain ⟨t, ht⟩ := elems_last l
      exact ⟨91, print j ++ t, 93, by simp only [print, printElems]; rw [ht, List.cons_append, List.append_assoc], .inl rfl, rfl⟩
  · cases m with
    | nil => exact ⟨123, [], 125, by simp only [print, printMembers]; rfl, .inr rfl, rfl⟩
    | cons kj l =>
      obtain ⟨k, j⟩ := kj
      obtain ⟨t, ht⟩ := members_last l
      exact ⟨123, printStr k ++ 58 :: print j ++ t, 125,
        by simp only [print, printMembers]; rw [ht]; simp only [List.cons_append, List.append_assoc], .inr rfl, rfl⟩

theorem good_start : Good start := fun r v h => by cases h

/-- The reader after a beginning of the text, which is not empty. -/
theorem after_beginning {f : Floats} {a : Byte} {t : List Byte} {s : State} (ha : a = 91 ∨ a = 123) (h : runs f start (a :: t) = some s) :
    Bracketed s := by
  change ((step f start a).bind fun s => runs f s t) = some s at h
  rcases ha with rfl | rfl
  · exact runs_bracketed t (s := ⟨.elemOrEnd, [.arr []]⟩) (.inl (List.cons_ne_nil _ _)) h
  · exact runs_bracketed t (s := ⟨.keyOrEnd, [.obj []]⟩) (.inl (List.cons_ne_nil _ _)) h

/-- The reader within the text of a document that begins and ends with a bracket is inside of brackets. -/
theorem inside_document {f : Floats} {a z : Byte} {t p q : List Byte} {v : Json} (ha : a = 91 ∨ a = 123) (hz : isSpace z = false)
    (hpq : a :: t ++ [z] = p ++ q) (hp : p ≠ []) (hq : q ≠ []) (hv : parse f (p ++ q) = some v) :
    ∃ s, runs f start p = some s ∧ s.stack ≠ [] ∧ parseFrom f s q = some v := by
  unfold parse at hv
  rw [parseFrom_runs] at hv
  cases hr : runs f start p with
  | none => rw [hr] at hv; cases hv
  | some s =>
    rw [hr] at hv
    refine ⟨s, rfl, ?_, hv⟩
    have hbr : Bracketed s := by
      cases p with
      | nil => exact absurd rfl hp
      | cons b p =>
        have : a = b := by
          rw [List.cons_append, List.cons_append] at hpq
          exact (List.cons.inj hpq).1
        subst this
        exact after_beginning ha hr
    rcases hbr with h | ⟨w, hw⟩
    · exact h
    · obtain ⟨mode, st⟩ := s
      dsimp only at hw
      subst hw
      have hsp := done_spaces q st hv
      have hlast : z ∈ q := by
        have h1 : (a :: t ++ [z]).getLast? = some z := by rw [List.getLast?_append]; rfl
        rw [hpq, List.getLast?_append] at h1
        cases hq' : q.getLast? with
        | none => exact absurd (List.getLast?_eq_none_iff.mp hq') hq
        | some y =>
          rw [hq'] at h1
          have : y = z := by simpa using h1
          rw [← this]
          exact List.mem_of_getLast? hq'
      rw [hsp z hlast] at hz
      cases hz

theorem prefix_none {f : Floats} {a z : Byte} {t p q : List Byte} {v : Json} (ha : a = 91 ∨ a = 123) (hz : isSpace z = false)
    (hpq : a :: t ++ [z] = p ++ q) (hq : q ≠ []) (hv : parse f (p ++ q) = some v) : parse f p = none := by
  by_cases hp : p = []
  · subst hp; rfl
  obtain ⟨s, hr, hs, _⟩ := inside_document ha hz hpq hp hq hv
  have : parse f p = (runs f start p).bind fun s => parseFrom f s [] := by
    rw [← parseFrom_runs, List.append_nil]; rfl
  rw [this, hr]
  show finish f s = none
  obtain ⟨mode, st⟩ := s
  cases st with
  | nil => exact absurd rfl hs
  | cons fr st => rfl

theorem runs_of_parse {f : Floats} {s : State} {q : List Byte} {v : Json} (h : parseFrom f s q = some v) :
    ∃ s', runs f s q = some s' ∧ s'.stack = [] ∧ lexMode s'.mode = .out := by
  have e : parseFrom f s q = (runs f s q).bind fun s => parseFrom f s [] := by rw [← parseFrom_runs, List.append_nil]
  rw [e] at h
  cases hr : runs f s q with
  | none => rw [hr] at h; cases h
  | some s' =>
    rw [hr] at h
    have := finish_facts (show finish f s' = some v from h)
    exact ⟨s', rfl, this.1, this.2.1⟩

theorem suffix_none {f : Floats} {a z : Byte} {t p q : List Byte} {v : Json} (ha : a = 91 ∨ a = 123) (hz : isSpace z = false)
    (hpq : a :: t ++ [z] = p ++ q) (hp : p ≠ []) (hv : parse f (p ++ q) = some v) : parse f q = none := by
  by_cases hq : q = []
  · subst hq; rfl
  obtain ⟨s, hr, hs, hsq⟩ := inside_document ha hz hpq hp hq hv
  cases hw : parse f q with
  | none => rfl
  | some w =>
    exfalso
    have hpos := length_pos_of_ne_nil hs
    obtain ⟨_, _, hgs⟩ := runs_follows p good_start hr
    obtain ⟨s1, hr1, hs1, hl1⟩ := runs_of_parse hsq
    obtain ⟨s2, hr2, hs2, hl2⟩ := runs_of_parse (show parseFrom f start q = some w from hw)
    obtain ⟨_, hn1, _⟩ := runs_follows q hgs hr1
    obtain ⟨_, hn2, _⟩ := runs_follows q good_start hr2
    rw [hs1] at hn1
    rw [hs2] at hn2
    cases hx : lexMode s.mode with
    | out =>
      rw [hx] at hn1
      change ((0 : Nat) : Int) = (0 : Nat) + net .out q at hn2
      simp only [List.length_nil] at hn1
      omega
    | inside =>
      have := runs_opposite q hgs good_start (.inl ⟨hx, rfl⟩) hr1 hr2
      rw [hl1, hl2] at this
      rcases this with ⟨h, _⟩ | ⟨_, h⟩ <;> cases h
    | esc =>
      cases q with
      | nil => exact hq rfl
      | cons c q =>
        change ((step f s c).bind fun s => runs f s q) = some s1 at hr1
        change ((step f start c).bind fun s => runs f s q) = some s2 at hr2
        cases ht1 : step f s c with
        | none => rw [ht1] at hr1; cases hr1
        | some t1 =>
          cases ht2 : step f start c with
          | none => rw [ht2] at hr2; cases hr2
          | some t2 =>
            rw [ht1] at hr1
            rw [ht2] at hr2
            obtain ⟨hf1, hg1⟩ := step_follows hgs ht1
            obtain ⟨hf2, hg2⟩ := step_follows good_start ht2
            have hl1' : lexMode t1.mode = .inside := by rw [hf1.lex, hx]; rfl
            by_cases h34 : c = 34
            · subst h34
              have hl2' : lexMode t2.mode = .inside := by rw [hf2.lex]; rfl
              have hd1 := hf1.depth
              have hd2 := hf2.depth
              rw [hx] at hd1
              obtain ⟨_, hm1, _⟩ := runs_follows q hg1 hr1
              obtain ⟨_, hm2, _⟩ := runs_follows q hg2 hr2
              rw [hs1, hl1', hd1] at hm1
              rw [hs2, hl2', hd2] at hm2
              change ((0 : Nat) : Int) = (s.stack.length + 0) + net .inside q at hm1
              change ((0 : Nat) : Int) = (((0 : Nat) : Int) + 0) + net .inside q at hm2
              omega
            · have hl2' : lexMode t2.mode = .out := by rw [hf2.lex]; exact lexStep_out h34
              have := runs_opposite q hg1 hg2 (.inl ⟨hl1', hl2'⟩) hr1 hr2
              rw [hl1, hl2] at this
              rcases this with ⟨h, _⟩ | ⟨_, h⟩ <;> cases h

theorem consumed_le (f : Floats) (bs : List Byte) : ∀ s, consumed f s bs ≤ bs.length := by
  induction bs with
  | nil => intro s; exact Nat.le_refl _
  | cons b bs ih =>
    intro s
    show (match step f s b with
      | none => 1
      | some s => 1 + consumed f s bs) ≤ bs.length + 1
    cases step f s b with
    | none => exact Nat.succ_le_succ (Nat.zero_le _)
    | some t =>
      show 1 + consumed f t bs ≤ bs.length + 1
      rw [Nat.add_comm]
      exact Nat.succ_le_succ (ih t)

end Abq.JsonText
