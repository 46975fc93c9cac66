import Verif.Proof.StripCodes
import Verif.Props.JUnitText

/-!
# C139: escape codes are taken out of what the JUnit report says of a test's output, and nothing else is

The full statement is that the message of a failure is the output but for escape codes. It fails for tabs and for codes that are not ended.
-/

namespace Abq.Props
open Abq.StripCodes Abq.Spec.StripCodes Abq.StripCodesProof
open Abq.Spec.JUnitText (Legal textsOf readXml)

/-- **C139**, codes. An output made of text, control characters and codes that are ended is left with its text: all of it, in order, and nothing
else. Missing: control characters other than line feeds are to be kept, and codes may not be ended, see `C139_full_statement_fails`. -/
theorem C139_codes_partial (ps : List Piece) (h : ∀ p ∈ ps, p.Valid) :
    strip (ps.flatMap Piece.chars) = some (ps.flatMap Piece.shown) :=
  strip_of (congrArg Prod.snd (pieces_run ps h))

/-- A failure in red, with a link. -/
def codePieces : List Piece :=
  [.csi "1;31".toList 'm', .text "not ok\n".toList, .csi [] 'm', .oscBell "8;;http://ä".toList, .text "see é".toList, .osc "8;;".toList, .other ['('] 'B',
    .string 'P' "1$r0m".toList, .other [] '7', .control '\r']

example : (∀ p ∈ codePieces, p.Valid) ∧ String.ofList (codePieces.flatMap Piece.shown) = "not ok\nsee é" := by
  refine ⟨by decide, by decide⟩

/-- **C139**, any output. Whatever the output is, cleaning it does not fail: it leaves a text, which has characters of the output in their
order, and among them no control characters but line feeds. -/
theorem C139_any (t : List Char) : ∃ out, strip t = some out ∧ out.Sublist t ∧ ∀ c ∈ out, Visible c := by
  obtain ⟨out, h1, h2, h3⟩ := text_run t .ground (fun _ _ => by simp)
  exact ⟨out, strip_of h1, h2, h3⟩

/-- **C139**, plain outputs. An output that has no control characters but line feeds is left as it is; so cleaning twice is cleaning once. -/
theorem C139_plain (t : List Char) : (strip t = some t ↔ ∀ c ∈ t, Visible c) ∧ (strip t).bind strip = strip t := by
  have plain : ∀ t : List Char, (∀ c ∈ t, Visible c) → strip t = some t := fun t h => by
    have := C139_codes_partial [.text t] (fun p hp => by rw [List.mem_singleton.1 hp]; exact h)
    simpa [Piece.chars, Piece.shown] using this
  obtain ⟨out, h1, -, h3⟩ := C139_any t
  refine ⟨⟨fun h => ?_, plain t⟩, ?_⟩
  · rw [h] at h1
    cases h1
    exact h3
  · rw [h1]
    exact plain out h3

example : ∀ c ∈ "expected 1, got 2\n\tat é".toList.filter (· ≠ '\t'), Visible c := by unfold Visible; decide

/-- **C139**, XML. Whatever codes and control characters the outputs of tests have, the JUnit report is an XML document, if names have only
characters that XML has, and no output has one of the two other characters that XML lacks, U+FFFE and U+FFFF. -/
theorem C139_document (st : JUnitText.Style) (hst : Spec.JUnitText.Plain st) (cleaned : String → String)
    (hc : ∀ s, strip s.toList = some (cleaned s).toList) (rs : List JUnit.Item)
    (hn : ∀ r ∈ rs, ∀ c ∈ r.name.toList, Legal c = true)
    (ho : ∀ r ∈ rs, ∀ o, r.output = some o → '\uFFFE' ∉ o.toList ∧ '\uFFFF' ∉ o.toList) :
    ∃ doc, readXml (JUnitText.file st cleaned rs) = some doc := by
  have key : ∀ s : String, '\uFFFE' ∉ s.toList ∧ '\uFFFF' ∉ s.toList → ∀ c ∈ (cleaned s).toList, Legal c = true := by
    intro s hs c hcm
    obtain ⟨out, h1, h2, h3⟩ := C139_any s.toList
    rw [hc] at h1
    cases h1
    have hv := h3 c hcm
    have hm := h2.subset hcm
    have hne : c ≠ '\uFFFE' ∧ c ≠ '\uFFFF' := ⟨fun e => hs.1 (e ▸ hm), fun e => hs.2 (e ▸ hm)⟩
    have h1 : c.toNat ≠ 0xFFFE := fun e => hne.1 (Char.ext (UInt32.toNat_inj.1 e))
    have h2 : c.toNat ≠ 0xFFFF := fun e => hne.2 (Char.ext (UInt32.toNat_inj.1 e))
    have h3 := valid c
    have hv : 0x20 ≤ c.toNat ∨ c.toNat = 10 := hv.imp_right fun e => by rw [e]; rfl
    unfold Legal
    simp only [Bool.or_eq_true, Bool.and_eq_true, decide_eq_true_eq, beq_iff_eq]
    omega
  rw [C132_document_iff st hst]
  intro r hr t ht
  have hout : '\uFFFE' ∉ (match r.output with | some o => o | none => "").toList ∧ '\uFFFF' ∉ (match r.output with | some o => o | none => "").toList := by
    cases h : r.output with
    | none => decide
    | some o => exact ho r hr o h
  unfold textsOf at ht
  split at ht <;> simp only [List.mem_cons, List.not_mem_nil, or_false] at ht
  all_goals first
    | (subst ht; exact hn r hr)
    | (rcases ht with rfl | rfl
       · exact hn r hr
       · exact key _ hout)

/-- There is such a function. -/
example : ∃ cleaned : String → String, ∀ s, strip s.toList = some (cleaned s).toList :=
  ⟨fun s => String.ofList ((strip s.toList).getD []), fun s => by
    obtain ⟨out, h, -, -⟩ := C139_any s.toList
    simp only [h, Option.getD_some, String.toList_ofList]⟩

/-- **C139** does not hold in full: tabs are taken out, so that outputs with and without them are the same in the report; a code that is not
ended takes the text after it along; and a command string (here an application program command) with a letter whose encoding has the byte 9C
ends there, so that the rest of it is left in the report. -/
theorem C139_full_statement_fails :
    strip "a\tb".toList = some "ab".toList ∧ strip "\x1B]0;title\nlost".toList = some [] ∧
    strip "\x1B_Überhang\x1B\\shown".toList = some "berhangshown".toList := by decide

end Abq.Props
