import Verif.Spec.JUnitText

/-! # Lemmas for C132 -/

namespace Abq.JUnitTextProof
open Abq.JUnitText Abq.Spec.JUnitText

theorem steps_append (s : Reader) (a b : List Char) : s.steps (a ++ b) = (s.steps a).bind fun s => s.steps b := by
  induction a generalizing s with
  | nil => rfl
  | cons c a ih =>
    simp only [List.cons_append, Reader.steps]
    cases s.step c with
    | none => rfl
    | some s' => exact ih s'

theorem steps_illegal (s : Reader) (cs : List Char) (c : Char) (hc : c ∈ cs) (h : Legal c = false) : s.steps cs = none := by
  induction cs generalizing s with
  | nil => cases hc
  | cons d cs ih =>
    simp only [Reader.steps]
    cases hc with
    | head => simp [Reader.step, h]
    | tail _ hc =>
      cases s.step d with
      | none => rfl
      | some s' => exact ih s' hc

/-- `normal`, with whether a carriage return came before. -/
def normF : Bool → List Char → List Char
  | _, [] => []
  | cr, c :: cs =>
    if c = '\r' then ' ' :: normF true cs
    else if c = '\n' then (if cr then normF false cs else ' ' :: normF false cs)
    else if c = '\t' then ' ' :: normF false cs
    else c :: normF false cs

theorem normF_true (cs : List Char) (h : ∀ t, cs ≠ '\n' :: t) : normF true cs = normF false cs := by
  cases cs with
  | nil => rfl
  | cons c t =>
    have : c ≠ '\n' := fun e => h t (by rw [e])
    simp [normF, this]

theorem normF_normal (cs : List Char) : normF false cs = normal cs := by
  fun_induction normal cs with
  | case1 => rfl
  | case2 cs ih => simp [normF, ih]
  | case3 c cs hn ih =>
    by_cases h1 : c = '\r'
    · subst h1
      have := normF_true cs (fun t e => hn t rfl e)
      simp [normF, this, ih]
    · by_cases h2 : c = '\n'
      · subst h2; simp [normF, ih]
      · by_cases h3 : c = '\t'
        · subst h3; simp [normF, ih]
        · simp [normF, h1, h2, h3, ih]

theorem normal_plain (cs : List Char) (h : ∀ c ∈ cs, c ≠ '\t' ∧ c ≠ '\n' ∧ c ≠ '\r') : normal cs = cs := by
  rw [← normF_normal]
  induction cs with
  | nil => rfl
  | cons c cs ih =>
    obtain ⟨h1, h2, h3⟩ := h c (by simp)
    simp [normF, h1, h2, h3, ih fun d hd => h d (by simp [hd])]

theorem steps_char (o : List Node) (r : Option Node) (n : List Char) (as : List (List Char × List Char)) (k acc : List Char) (cr : Bool)
    (c : Char) (hl : Legal c = true) :
    ∃ cr', Reader.steps ⟨o, r, .value n as k acc cr⟩ (escapeChar c) = some ⟨o, r, .value n as k (acc ++ normF cr [c]) cr'⟩ ∧
      ∀ cs, normF cr (c :: cs) = normF cr [c] ++ normF cr' cs := by
  unfold escapeChar
  by_cases h1 : c = '<'
  · subst h1; exact ⟨false, by simp [Reader.steps, Reader.step, Legal, letter, entity, normF], by simp [normF]⟩
  by_cases h2 : c = '>'
  · subst h2; exact ⟨false, by simp [Reader.steps, Reader.step, Legal, letter, entity, normF], by simp [normF]⟩
  by_cases h3 : c = '\''
  · subst h3; exact ⟨false, by simp [Reader.steps, Reader.step, Legal, letter, entity, normF], by simp [normF]⟩
  by_cases h4 : c = '&'
  · subst h4; exact ⟨false, by simp [Reader.steps, Reader.step, Legal, letter, entity, normF], by simp [normF]⟩
  by_cases h5 : c = '"'
  · subst h5; exact ⟨false, by simp [Reader.steps, Reader.step, Legal, letter, entity, normF], by simp [normF]⟩
  rw [if_neg h1, if_neg h2, if_neg h3, if_neg h4, if_neg h5]
  simp only [Reader.steps, Reader.step, hl]
  by_cases h6 : c = '\r'
  · subst h6; exact ⟨true, by simp [normF], by simp [normF]⟩
  by_cases h7 : c = '\n'
  · subst h7; exact ⟨false, by cases cr <;> simp [normF], by cases cr <;> simp [normF]⟩
  by_cases h8 : c = '\t'
  · subst h8; exact ⟨false, by simp [normF], by simp [normF]⟩
  exact ⟨false, by simp [normF, h1, h4, h5, h6, h7, h8], by simp [normF, h6, h7, h8]⟩

theorem steps_escape (o : List Node) (r : Option Node) (n : List Char) (as : List (List Char × List Char)) (k : List Char)
    (cs : List Char) (hl : ∀ c ∈ cs, Legal c = true) (acc : List Char) (cr : Bool) :
    ∃ cr', Reader.steps ⟨o, r, .value n as k acc cr⟩ (escape cs) = some ⟨o, r, .value n as k (acc ++ normF cr cs) cr'⟩ := by
  induction cs generalizing acc cr with
  | nil => exact ⟨cr, by simp [escape, Reader.steps, normF]⟩
  | cons c cs ih =>
    obtain ⟨cr1, h1, h2⟩ := steps_char o r n as k acc cr c (hl c (by simp))
    obtain ⟨cr2, h3⟩ := ih (fun d hd => hl d (by simp [hd])) (acc ++ normF cr [c]) cr1
    refine ⟨cr2, ?_⟩
    rw [show escape (c :: cs) = escapeChar c ++ escape cs from rfl, steps_append, h1, Option.bind_some, h3, h2 cs, List.append_assoc]

theorem legal_letter {c : Char} (h : letter c = true) : Legal c = true := by
  simp only [letter, Legal, Char.le_def, UInt32.le_iff_toNat_le, Bool.or_eq_true, Bool.and_eq_true, decide_eq_true_eq, beq_iff_eq] at h ⊢
  have e : c.toNat = c.val.toNat := rfl
  simp only [e]
  have a1 : 'a'.val.toNat = 97 := rfl
  have a2 : 'z'.val.toNat = 122 := rfl
  have a3 : 'A'.val.toNat = 65 := rfl
  have a4 : 'Z'.val.toNat = 90 := rfl
  omega

theorem steps_key (o : List Node) (r : Option Node) (n : List Char) (as : List (List Char × List Char)) (k : List Char)
    (hk : ∀ c ∈ k, letter c = true) (acc : List Char) :
    Reader.steps ⟨o, r, .key n as acc⟩ k = some ⟨o, r, .key n as (acc ++ k)⟩ := by
  induction k generalizing acc with
  | nil => simp [Reader.steps]
  | cons c k ih =>
    have := hk c (by simp)
    simp [Reader.steps, Reader.step, legal_letter this, this, ih (fun d hd => hk d (by simp [hd]))]

theorem steps_name (o : List Node) (r : Option Node) (k : List Char) (hk : ∀ c ∈ k, letter c = true) (acc : List Char) :
    Reader.steps ⟨o, r, .name acc⟩ k = some ⟨o, r, .name (acc ++ k)⟩ := by
  induction k generalizing acc with
  | nil => simp [Reader.steps]
  | cons c k ih =>
    have := hk c (by simp)
    simp [Reader.steps, Reader.step, legal_letter this, this, ih (fun d hd => hk d (by simp [hd]))]

theorem steps_close (o : List Node) (r : Option Node) (k : List Char) (hk : ∀ c ∈ k, letter c = true) (acc : List Char) :
    Reader.steps ⟨o, r, .close acc⟩ k = some ⟨o, r, .close (acc ++ k)⟩ := by
  induction k generalizing acc with
  | nil => simp [Reader.steps]
  | cons c k ih =>
    have := hk c (by simp)
    simp [Reader.steps, Reader.step, legal_letter this, this, ih (fun d hd => hk d (by simp [hd]))]

/-- Names as they occur. -/
def Word (w : List Char) : Prop := w ≠ [] ∧ ∀ c ∈ w, letter c = true

/-- An attribute as it is read. -/
def seen (a : String × List Char) : List Char × List Char := (a.1.toList, normal a.2)

theorem steps_tag (o : List Node) (r : Option Node) (n : List Char) (as done : List (List Char × List Char)) (c : Char) :
    Reader.steps ⟨o, r, .tag n as⟩ [c] = (Reader.step ⟨o, r, .tag n as⟩ c).bind some := by
  simp [Reader.steps]

/-- One attribute, behind the name of the tag or another attribute. -/
theorem steps_attribute (o : List Node) (r : Option Node) (m : Mode) (n : List Char) (as : List (List Char × List Char))
    (hm : m = .tag n as ∨ (m = .name n ∧ as = [])) (a : String × List Char) (hw : Word a.1.toList) (hl : ∀ c ∈ a.2, Legal c = true)
    (hd : ∀ b ∈ as, b.1 ≠ a.1.toList) :
    Reader.steps ⟨o, r, m⟩ (' ' :: a.1.toList ++ ['=', '"'] ++ escape a.2 ++ ['"']) = some ⟨o, r, .tag n (as ++ [seen a])⟩ := by
  obtain ⟨k, v⟩ := a
  dsimp only at hw hl hd ⊢
  unfold seen
  dsimp only
  revert hw hd
  generalize k.toList = w
  intro hw hd
  obtain ⟨h0, hw⟩ := hw
  cases w with
  | nil => exact absurd rfl h0
  | cons c w =>
    have hc := hw c (by simp)
    have hblank : Reader.step ⟨o, r, m⟩ ' ' = some ⟨o, r, .blank n as⟩ := by
      rcases hm with rfl | ⟨rfl, rfl⟩ <;> simp [Reader.step, Reader.inTag, Legal, letter]
    have hany : (as.any fun b => b.1 == c :: w) = false := by
      rw [List.any_eq_false]
      intro b hb h
      exact hd b hb (by simpa using h)
    have hfirst : Reader.steps ⟨o, r, m⟩ (' ' :: (c :: w) ++ ['=', '"']) = some ⟨o, r, .value n as (c :: w) [] false⟩ := by
      rw [steps_append]
      have h1 : Reader.steps ⟨o, r, m⟩ (' ' :: (c :: w)) = some ⟨o, r, .key n as (c :: w)⟩ := by
        simp only [Reader.steps, hblank, Option.bind_some]
        have h2 : Reader.step ⟨o, r, .blank n as⟩ c = some ⟨o, r, .key n as [c]⟩ := by simp [Reader.step, legal_letter hc, hc]
        rw [h2, Option.bind_some, steps_key _ _ _ _ _ (fun d hd => hw d (by simp [hd]))]
        rfl
      rw [h1, Option.bind_some]
      simp [Reader.steps, Reader.step, Legal, letter, hany]
    obtain ⟨cr, hv⟩ := steps_escape o r n as (c :: w) v hl [] false
    rw [steps_append, steps_append, hfirst, Option.bind_some, hv, Option.bind_some]
    simp [Reader.steps, Reader.step, Legal, normF_normal]

theorem steps_attributes (o : List Node) (r : Option Node) (n : List Char) (bs : List (String × List Char)) :
    ∀ (m : Mode) (as : List (List Char × List Char)) (_ : m = .tag n as ∨ (m = .name n ∧ as = [])) (_ : ∀ a ∈ bs, Word a.1.toList)
      (_ : ∀ a ∈ bs, ∀ c ∈ a.2, Legal c = true) (_ : ∀ a ∈ bs, ∀ b ∈ as, b.1 ≠ a.1.toList) (_ : (bs.map (·.1.toList)).Nodup),
      ∃ m', Reader.steps ⟨o, r, m⟩ (attributes bs) = some ⟨o, r, m'⟩ ∧
        (m' = .tag n (as ++ bs.map seen) ∨ (m' = .name n ∧ as ++ bs.map seen = [])) := by
  induction bs with
  | nil =>
    intro m as hm _ _ _ _
    exact ⟨m, by simp [attributes, Reader.steps], by simpa using hm⟩
  | cons a bs ih =>
    intro m as hm hw hl hd hn
    have h1 := steps_attribute o r m n as hm a (hw a (by simp)) (hl a (by simp)) (hd a (by simp))
    obtain ⟨m', h2, h3⟩ := ih (.tag n (as ++ [seen a])) (as ++ [seen a]) (.inl rfl) (fun b hb => hw b (by simp [hb]))
      (fun b hb => hl b (by simp [hb])) (by
        intro b hb d hd'
        rw [List.map_cons, List.nodup_cons] at hn
        rw [List.mem_append, List.mem_singleton] at hd'
        rcases hd' with hd' | rfl
        · exact hd b (by simp [hb]) d hd'
        · intro e
          exact hn.1 (List.mem_map.2 ⟨b, hb, e.symm⟩)) (List.nodup_cons.1 hn).2
    refine ⟨m', ?_, by simpa [List.append_assoc] using h3⟩
    rw [show attributes (a :: bs) = (' ' :: a.1.toList ++ ['=', '"'] ++ escape a.2 ++ ['"']) ++ attributes bs from rfl, steps_append, h1,
      Option.bind_some, h2]

/-- Good attributes. -/
def Fine (bs : List (String × List Char)) : Prop :=
  (∀ a ∈ bs, Word a.1.toList) ∧ (∀ a ∈ bs, ∀ c ∈ a.2, Legal c = true) ∧ (bs.map (·.1.toList)).Nodup

/-- A tag up to its end. -/
theorem steps_open (o : List Node) (name : String) (hn : Word name.toList) (bs : List (String × List Char)) (hb : Fine bs) :
    ∃ m, Reader.steps ⟨o, none, .between⟩ ('<' :: name.toList ++ attributes bs) = some ⟨o, none, m⟩ ∧
      (m = .tag name.toList (bs.map seen) ∨ (m = .name name.toList ∧ bs.map seen = [])) := by
  obtain ⟨hw, hl, hd⟩ := hb
  revert hn
  generalize name.toList = w
  rintro ⟨h0, hn⟩
  cases w with
  | nil => exact absurd rfl h0
  | cons c w =>
    have hc := hn c (by simp)
    have hq : c ≠ '?' := by rintro rfl; revert hc; decide
    have hs : c ≠ '/' := by rintro rfl; revert hc; decide
    have h1 : Reader.steps ⟨o, none, .between⟩ ('<' :: (c :: w)) = some ⟨o, none, .name (c :: w)⟩ := by
      have a1 : Reader.step ⟨o, none, .between⟩ '<' = some ⟨o, none, .lt⟩ := by simp [Reader.step, Legal]
      have a2 : Reader.step ⟨o, none, .lt⟩ c = some ⟨o, none, .name [c]⟩ := by simp [Reader.step, legal_letter hc, hc, hq, hs]
      simp only [Reader.steps, a1, a2, Option.bind_some]
      exact steps_name _ _ _ (fun d hd => hn d (by simp [hd])) _
    obtain ⟨m, h2, h3⟩ := steps_attributes o none (c :: w) bs (.name (c :: w)) [] (.inr ⟨rfl, rfl⟩) hw hl (by simp) hd
    exact ⟨m, by rw [steps_append, h1, Option.bind_some, h2], by simpa using h3⟩

theorem steps_leaf (o : List Node) (name : String) (hn : Word name.toList) (bs : List (String × List Char)) (hb : Fine bs) :
    Reader.steps ⟨o, none, .between⟩ (leaf name bs) = Reader.done ⟨o, none, .between⟩ (.elem name.toList (bs.map seen) []) := by
  obtain ⟨m, h1, h2⟩ := steps_open o name hn bs hb
  unfold leaf
  rw [steps_append, h1, Option.bind_some]
  have h3 : Reader.step ⟨o, none, m⟩ '/' = some ⟨o, none, .slash name.toList (bs.map seen)⟩ := by
    rcases h2 with rfl | ⟨rfl, h2⟩
    · simp [Reader.step, Reader.inTag, Legal]
    · rw [h2]; simp [Reader.step, Reader.inTag, Legal, letter]
  simp only [Reader.steps, h3, Option.bind_some]
  simp [Reader.step, Legal, Reader.done]

theorem steps_element (o : List Node) (name : String) (hn : Word name.toList) (bs : List (String × List Char)) (hb : Fine bs)
    (content : List Char) (ns : List Node)
    (hc : Reader.steps ⟨.elem name.toList (bs.map seen) [] :: o, none, .between⟩ content =
      some ⟨.elem name.toList (bs.map seen) ns :: o, none, .between⟩) :
    Reader.steps ⟨o, none, .between⟩ (element name bs content) = Reader.done ⟨o, none, .between⟩ (.elem name.toList (bs.map seen) ns) := by
  obtain ⟨m, h1, h2⟩ := steps_open o name hn bs hb
  unfold element
  have h3 : Reader.steps ⟨o, none, m⟩ ['>'] = some ⟨.elem name.toList (bs.map seen) [] :: o, none, .between⟩ := by
    rcases h2 with rfl | ⟨rfl, h2⟩
    · simp [Reader.steps, Reader.step, Reader.inTag, Reader.start, Legal]
    · rw [h2]; simp [Reader.steps, Reader.step, Reader.inTag, Reader.start, Legal, letter]
  rw [steps_append, steps_append, steps_append, steps_append, steps_append, h1, Option.bind_some, h3, Option.bind_some, hc, Option.bind_some]
  have h4 : Reader.steps ⟨.elem name.toList (bs.map seen) ns :: o, none, .between⟩ ['<', '/'] =
      some ⟨.elem name.toList (bs.map seen) ns :: o, none, .close []⟩ := by simp [Reader.steps, Reader.step, Legal]
  rw [h4, Option.bind_some, steps_close _ _ _ hn.2, Option.bind_some]
  simp [Reader.steps, Reader.step, Legal, letter, Reader.done]

theorem word_of (w : String) (cs : List Char) (e : w.toList = cs) (h : cs ≠ [] ∧ cs.all letter = true) : Word w.toList := by
  rw [e]
  exact ⟨h.1, by simpa using h.2⟩

/-- An element within another one. -/
theorem done_within (p : List Char) (as : List (List Char × List Char)) (ns : List Node) (o : List Node) (n : Node) :
    Reader.done ⟨.elem p as ns :: o, none, .between⟩ n = some ⟨.elem p as (ns ++ [n]) :: o, none, .between⟩ := rfl

/-- The element of a test case, as it is read. -/
def caseNode (st : Style) (c : JUnit.Case) : Node :=
  .elem "testcase".toList [seen ("name", c.name.toList), seen ("time", st.seconds c.time)]
    (match c.kind with
    | .success => []
    | .failure type message => [.elem "failure".toList [seen ("type", type.toList), seen ("message", message.toList)] []]
    | .error type message => [.elem "error".toList [seen ("type", type.toList), seen ("message", message.toList)] []]
    | .skipped => [.elem "skipped".toList [] []])

/-- The texts of a test case. -/
def textsOfCase (c : JUnit.Case) : List (List Char) :=
  c.name.toList :: match c.kind with
    | .failure type message => [type.toList, message.toList]
    | .error type message => [type.toList, message.toList]
    | _ => []

theorem fine_two (k l : String) (v w : List Char) (hk : Word k.toList) (hl : Word l.toList) (hn : k.toList ≠ l.toList)
    (hv : ∀ c ∈ v, Legal c = true) (hw : ∀ c ∈ w, Legal c = true) : Fine [(k, v), (l, w)] := by
  refine ⟨?_, ?_, by simpa using hn⟩ <;> intro a ha <;> simp only [List.mem_cons, List.not_mem_nil, or_false] at ha <;>
    rcases ha with rfl | rfl <;> assumption

theorem steps_case (st : Style) (hs : ∀ t, ∀ c ∈ st.seconds t, Legal c = true) (c : JUnit.Case)
    (hc : ∀ t ∈ textsOfCase c, ∀ x ∈ t, Legal x = true) (p : List Char) (as : List (List Char × List Char)) (ns o : List Node) :
    Reader.steps ⟨.elem p as ns :: o, none, .between⟩ (testCase st c) = some ⟨.elem p as (ns ++ [caseNode st c]) :: o, none, .between⟩ := by
  have htc : Word "testcase".toList := word_of _ _ rfl (by decide)
  have hf : Fine [("name", c.name.toList), ("time", st.seconds c.time)] :=
    fine_two _ _ _ _ (word_of _ _ rfl (by decide)) (word_of _ _ rfl (by decide)) (by decide) (hc _ (by simp [textsOfCase])) (hs _)
  obtain ⟨name, time, kind⟩ := c
  cases kind with
  | success => exact (steps_leaf _ _ htc _ hf).trans (done_within ..)
  | failure type message =>
    refine (steps_element _ _ htc _ hf _ [.elem "failure".toList [seen ("type", type.toList), seen ("message", message.toList)] []] ?_).trans
      (done_within ..)
    refine (steps_leaf _ _ (word_of _ _ rfl (by decide)) _ ?_).trans (done_within ..)
    exact fine_two _ _ _ _ (word_of _ _ rfl (by decide)) (word_of _ _ rfl (by decide)) (by decide) (hc _ (by simp [textsOfCase]))
      (hc _ (by simp [textsOfCase]))
  | error type message =>
    refine (steps_element _ _ htc _ hf _ [.elem "error".toList [seen ("type", type.toList), seen ("message", message.toList)] []] ?_).trans
      (done_within ..)
    refine (steps_leaf _ _ (word_of _ _ rfl (by decide)) _ ?_).trans (done_within ..)
    exact fine_two _ _ _ _ (word_of _ _ rfl (by decide)) (word_of _ _ rfl (by decide)) (by decide) (hc _ (by simp [textsOfCase]))
      (hc _ (by simp [textsOfCase]))
  | skipped =>
    refine (steps_element _ _ htc _ hf _ [.elem "skipped".toList [] []] ?_).trans (done_within ..)
    exact (steps_leaf _ _ (word_of _ _ rfl (by decide)) _ ⟨by simp, by simp, by simp⟩).trans (done_within ..)

theorem steps_cases (st : Style) (hs : ∀ t, ∀ c ∈ st.seconds t, Legal c = true) (cs : List JUnit.Case)
    (hc : ∀ c ∈ cs, ∀ t ∈ textsOfCase c, ∀ x ∈ t, Legal x = true) (p : List Char) (as : List (List Char × List Char)) (ns o : List Node) :
    Reader.steps ⟨.elem p as ns :: o, none, .between⟩ (cs.flatMap (testCase st)) =
      some ⟨.elem p as (ns ++ cs.map (caseNode st)) :: o, none, .between⟩ := by
  induction cs generalizing ns with
  | nil => simp [Reader.steps]
  | cons c cs ih =>
    rw [List.flatMap_cons, steps_append, steps_case st hs c (hc c (by simp)), Option.bind_some, ih (fun d hd => hc d (by simp [hd]))]
    simp

theorem legal_digit {c : Char} (h : c.isDigit = true) : Legal c = true := by
  simp only [Char.isDigit, Legal, UInt32.le_iff_toNat_le, Bool.or_eq_true, Bool.and_eq_true, decide_eq_true_eq, beq_iff_eq, ge_iff_le] at h ⊢
  have e : c.toNat = c.val.toNat := rfl
  simp only [e]
  have a1 : '0'.val.toNat = 48 := rfl
  have a2 : '9'.val.toNat = 57 := rfl
  omega

theorem digits (n : Nat) : ∀ c ∈ (Nat.repr n).toList, c.isDigit = true := by
  intro c hc
  simp only [Nat.repr, String.toList_ofList] at hc
  exact Nat.isDigit_of_mem_toDigits (by omega) (by omega) hc

theorem legal_seconds {st : Style} (h : Plain st) (t : Int) : ∀ c ∈ st.seconds t, Legal c = true := by
  intro c hc
  rcases h.1 t c hc with h | rfl | rfl
  · exact legal_digit h
  · rfl
  · rfl

theorem legal_timestamp {st : Style} (h : Plain st) : ∀ c ∈ st.timestamp, Legal c = true := by
  intro c hc
  rcases h.2 c hc with h | rfl | rfl | rfl | rfl | rfl
  · exact legal_digit h
  all_goals rfl

theorem digit_not_space {c : Char} (h : c.isDigit = true) : c ≠ '\t' ∧ c ≠ '\n' ∧ c ≠ '\r' := by
  refine ⟨?_, ?_, ?_⟩ <;> rintro rfl <;> revert h <;> decide

theorem normal_seconds {st : Style} (h : Plain st) (t : Int) : normal (st.seconds t) = st.seconds t := by
  refine normal_plain _ fun c hc => ?_
  rcases h.1 t c hc with h | rfl | rfl
  · exact digit_not_space h
  · decide
  · decide

theorem normal_repr (n : Nat) : normal (Nat.repr n).toList = (Nat.repr n).toList :=
  normal_plain _ fun c hc => digit_not_space (digits n c hc)

def suiteNode (st : Style) (s : JUnit.Suite) : Node :=
  .elem "testsuite".toList ((suiteAttributes st s).map seen) (s.cases.map (caseNode st))

theorem fine_suite {st : Style} (h : Plain st) (s : JUnit.Suite) : Fine (suiteAttributes st s) := by
  refine ⟨?_, ?_, ?_⟩
  · intro a ha
    simp only [suiteAttributes, List.mem_cons, List.not_mem_nil, or_false] at ha
    rcases ha with rfl | rfl | rfl | rfl | rfl | rfl | rfl | rfl | rfl <;> dsimp only <;> exact word_of _ _ rfl (by decide)
  · intro a ha
    simp only [suiteAttributes, List.mem_cons, List.not_mem_nil, or_false] at ha
    rcases ha with rfl | rfl | rfl | rfl | rfl | rfl | rfl | rfl | rfl
    · decide
    · decide
    · decide
    · exact fun c hc => legal_digit (digits _ c hc)
    · exact fun c hc => legal_digit (digits _ c hc)
    · exact fun c hc => legal_digit (digits _ c hc)
    · decide
    · exact legal_timestamp h
    · exact legal_seconds h _
  · simp only [suiteAttributes, List.map_cons, List.map_nil]
    decide

theorem steps_suite {st : Style} (h : Plain st) (s : JUnit.Suite) (hc : ∀ c ∈ s.cases, ∀ t ∈ textsOfCase c, ∀ x ∈ t, Legal x = true)
    (p : List Char) (as : List (List Char × List Char)) (ns o : List Node) :
    Reader.steps ⟨.elem p as ns :: o, none, .between⟩ (suite st s) = some ⟨.elem p as (ns ++ [suiteNode st s]) :: o, none, .between⟩ := by
  unfold suite
  split
  · next he =>
    simp only [Bool.and_eq_true, List.isEmpty_iff] at he
    refine (steps_leaf _ _ (word_of _ _ rfl (by decide)) _ (fine_suite h s)).trans ((done_within ..).trans ?_)
    unfold suiteNode
    rw [he.2]
    rfl
  · refine (steps_element _ _ (word_of _ _ rfl (by decide)) _ (fine_suite h s) _ (s.cases.map (caseNode st)) ?_).trans (done_within ..)
    exact steps_cases st (legal_seconds h) s.cases hc _ _ [] _

theorem declaration : "<?xml version=\"1.0\" encoding=\"utf-8\"?>".toList =
    ['<', '?', 'x', 'm', 'l', ' ', 'v', 'e', 'r', 's', 'i', 'o', 'n', '=', '"', '1', '.', '0', '"', ' ', 'e', 'n', 'c', 'o', 'd', 'i', 'n',
      'g', '=', '"', 'u', 't', 'f', '-', '8', '"', '?', '>'] := by decide

theorem read_document {st : Style} (h : Plain st) (s : JUnit.Suite) (hc : ∀ c ∈ s.cases, ∀ t ∈ textsOfCase c, ∀ x ∈ t, Legal x = true) :
    readXml (document st s) = some (.elem "testsuites".toList [] [suiteNode st s]) := by
  unfold readXml document
  have h1 : Reader.steps {} "<?xml version=\"1.0\" encoding=\"utf-8\"?>".toList = some ⟨[], none, .between⟩ := by
    rw [declaration]
    rfl
  have h2 := steps_element [] "testsuites" (word_of _ _ rfl (by decide)) [] ⟨by simp, by simp, by simp⟩ (suite st s) [suiteNode st s]
    (steps_suite h s hc _ _ [] [])
  rw [steps_append, h1, Option.bind_some, h2]
  rfl

/-! ## Illegal characters reach the document -/

theorem escape_illegal {c : Char} (h : Legal c = false) : escapeChar c = [c] := by
  unfold escapeChar
  have aux : ∀ d, Legal d = true → c ≠ d := by rintro d hd rfl; rw [h] at hd; cases hd
  rw [if_neg (aux _ rfl), if_neg (aux _ rfl), if_neg (aux _ rfl), if_neg (aux _ rfl), if_neg (aux _ rfl)]

theorem mem_attributes {c : Char} (h : Legal c = false) {bs : List (String × List Char)} {k : String} {v : List Char} (hm : (k, v) ∈ bs)
    (hc : c ∈ v) : c ∈ attributes bs := by
  unfold attributes
  rw [List.mem_flatMap]
  refine ⟨_, hm, ?_⟩
  have : c ∈ escape v := by
    unfold escape
    rw [List.mem_flatMap]
    exact ⟨c, hc, by rw [escape_illegal h]; simp⟩
  simp [this]

theorem mem_case (st : Style) {c : JUnit.Case} {x : Char} (h : Legal x = false) {t : List Char} (ht : t ∈ textsOfCase c) (hx : x ∈ t) :
    x ∈ testCase st c := by
  obtain ⟨name, time, kind⟩ := c
  have aux : t = name.toList → x ∈ attributes [("name", name.toList), ("time", st.seconds time)] := by
    rintro rfl
    exact mem_attributes h (k := "name") (by simp) hx
  cases kind with
  | success =>
    simp only [textsOfCase, List.mem_cons, List.not_mem_nil, or_false] at ht
    simp [testCase, leaf, aux ht]
  | skipped =>
    simp only [textsOfCase, List.mem_cons, List.not_mem_nil, or_false] at ht
    simp [testCase, element, aux ht]
  | failure type message =>
    simp only [textsOfCase, List.mem_cons, List.not_mem_nil, or_false] at ht
    rcases ht with ht | ht
    · simp [testCase, element, aux ht]
    · have : x ∈ attributes [("type", type.toList), ("message", message.toList)] := by
        rcases ht with rfl | rfl
        · exact mem_attributes h (k := "type") (by simp) hx
        · exact mem_attributes h (k := "message") (by simp) hx
      simp [testCase, element, leaf, this]
  | error type message =>
    simp only [textsOfCase, List.mem_cons, List.not_mem_nil, or_false] at ht
    rcases ht with ht | ht
    · simp [testCase, element, aux ht]
    · have : x ∈ attributes [("type", type.toList), ("message", message.toList)] := by
        rcases ht with rfl | rfl
        · exact mem_attributes h (k := "type") (by simp) hx
        · exact mem_attributes h (k := "message") (by simp) hx
      simp [testCase, element, leaf, this]

theorem read_illegal (st : Style) (s : JUnit.Suite) {c : JUnit.Case} (hc : c ∈ s.cases) {x : Char} (h : Legal x = false) {t : List Char}
    (ht : t ∈ textsOfCase c) (hx : x ∈ t) : readXml (document st s) = none := by
  have hm : x ∈ document st s := by
    have hne : ¬ (st.short && s.cases.isEmpty) = true := by
      simp only [Bool.and_eq_true, List.isEmpty_iff, not_and]
      rintro - e
      rw [e] at hc; cases hc
    unfold document suite element
    rw [if_neg hne]
    have : x ∈ s.cases.flatMap (testCase st) := List.mem_flatMap.2 ⟨c, hc, mem_case st h ht hx⟩
    simp only [List.mem_append, this]
    simp
  unfold readXml
  rw [steps_illegal _ _ x hm h]

/-! ## The texts of results -/

theorem texts_case (strip : String → String) (r : JUnit.Item) (x : Char) (hx : Legal x = false) :
    (∃ t ∈ textsOfCase (JUnit.caseOf strip r), x ∈ t) ↔ ∃ t ∈ textsOf strip r, x ∈ t := by
  obtain ⟨name, output, time, view⟩ := r
  obtain ⟨run, work, id, status, runtime, file, runner⟩ := view
  have h1 : x ∉ "failure".toList := fun h => absurd (List.all_eq_true.1 (show "failure".toList.all Legal = true by decide) x h) (by simp [hx])
  have h2 : x ∉ "error".toList := fun h => absurd (List.all_eq_true.1 (show "error".toList.all Legal = true by decide) x h) (by simp [hx])
  have h3 : x ∉ "timed out".toList := fun h => absurd (List.all_eq_true.1 (show "timed out".toList.all Legal = true by decide) x h) (by simp [hx])
  cases status <;> cases output <;> simp only [JUnit.caseOf, textsOfCase, textsOf, List.mem_cons, List.not_mem_nil, or_false, exists_eq_or_imp,
    exists_eq_left, h1, h2, h3, false_or, Option.getD_none, Option.getD_some]

end Abq.JUnitTextProof
