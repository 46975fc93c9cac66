import Verif.Proof.JsonGrammar
import Verif.Proof.JsonLex
import Verif.Proof.JsonZero
import Verif.Props.Framing
import Verif.Spec.Fetch
import Verif.Spec.ManifestStore
import Verif.Props.RunStateDoc

/-!
# C100: what is written as JSON is read back

For the text of messages, manifests, results and run states. The documents are those of `RunStateDoc.Json`; `depth`, `Holdable` and
the grammar are in `Spec/JsonText.lean`.
-/

namespace Abq.Props
open Abq.JsonText Abq.Spec.JsonText
open RunStateDoc (Json)

/-- Arrays in one another. -/
def nested : Nat → Json
  | 0 => .null
  | n + 1 => .arr [nested n]

theorem nested_depth (n : Nat) : depth (nested n) = n := by
  induction n with
  | zero => rfl
  | succ n ih => simp only [nested, depth, depths, ih]; omega

theorem nested_holdable (f : Floats) (n : Nat) : Holdable f (nested n) := by
  induction n with
  | zero => trivial
  | succ n ih => simp only [nested, Holdable, HoldableAll]; exact ⟨ih, trivial⟩

/-- C100: what is written is read back, if it is nested less than 128 deep.

Missing for the full statement, which is false (`C100_full_statement_fails`): documents that are deeper. -/
theorem C100_text_roundtrip_partial (f : Floats) (j : Json) (h : Holdable f j) (hd : depth j < 128) : parse f (print j) = some j := by
  have := parse_print f j h start (.inl rfl) (by show 0 + depth j < 128; omega) [] trivial
  rw [List.append_nil] at this
  exact this

/-- C100: documents that are nested 128 deep or more are written, and cannot be read. -/
theorem C100_too_deep (f : Floats) (j : Json) (h : Holdable f j) (hd : 128 ≤ depth j) : parse f (print j) = none := by
  have := parse_deep f j h start (.inl rfl) (by show 128 ≤ 0 + depth j; omega) (by decide) [] trivial
  rw [List.append_nil] at this
  exact this

/-- C100 in full is false: not everything that is written is read back. -/
theorem C100_full_statement_fails : ¬ ∀ (f : Floats) (j : Json), Holdable f j → parse f (print j) = some j := by
  intro h
  have h1 := h ⟨fun _ => none⟩ (nested 128) (nested_holdable _ _)
  rw [C100_too_deep _ _ (nested_holdable _ _) (by rw [nested_depth]; decide)] at h1
  cases h1

/-- C100: what is written has no line ends or other control characters in it: a result is one line of a file of results. -/
theorem C100_one_line (f : Floats) (j : Json) (h : Holdable f j) : ∀ b ∈ print j, 32 ≤ b := fun b hb =>
  UInt8.not_lt.mp (print_ge f j h b hb)

/-- C100: exactly the texts of the grammar which are not too deep are read, as what they stand for: whatever JSON a native runner
writes is understood, and nothing else is taken for JSON. -/
theorem C100_reader_exact (f : Floats) (t : List JsonText.Byte) (j : Json) : parse f t = some j ↔ IsText f j t ∧ depth j < 128 :=
  parse_iff f t j

/-- C100: a text stands for one document only. -/
theorem C100_unambiguous (f : Floats) (t : List JsonText.Byte) (j j' : Json) (h : IsText f j t) (h' : IsText f j' t)
    (hd : depth j < 128) (hd' : depth j' < 128) : j = j' := by
  have e := (C100_reader_exact f t j).mpr ⟨h, hd⟩
  have e' := (C100_reader_exact f t j').mpr ⟨h', hd'⟩
  exact Option.some.inj (e.symm.trans e')

/-- C100: of an array or object that was written, no proper beginning is taken for a document: a file that was cut off is
noticed. -/
theorem C100_cut_off (f : Floats) (j : Json) (hj : (∃ l, j = .arr l) ∨ ∃ m, j = .obj m) (h : Holdable f j) (hd : depth j < 128)
    (k : Nat) (hk : k < (print j).length) : parse f ((print j).take k) = none := by
  obtain ⟨a, t, z, e, ha, hz⟩ := container_ends j hj
  have hv := C100_text_roundtrip_partial f j h hd
  rw [← List.take_append_drop k (print j)] at hv
  refine prefix_none ha hz (p := (print j).take k) (q := (print j).drop k) (by rw [List.take_append_drop, e]) ?_ hv
  intro hnil
  have := congrArg List.length hnil
  rw [List.length_drop, List.length_nil] at this
  omega

/-- C100: and no proper end of it. -/
theorem C100_beginning_lost (f : Floats) (j : Json) (hj : (∃ l, j = .arr l) ∨ ∃ m, j = .obj m) (h : Holdable f j) (hd : depth j < 128)
    (k : Nat) (hk : 0 < k) : parse f ((print j).drop k) = none := by
  obtain ⟨a, t, z, e, ha, hz⟩ := container_ends j hj
  have hv := C100_text_roundtrip_partial f j h hd
  rw [← List.take_append_drop k (print j)] at hv
  refine suffix_none ha hz (p := (print j).take k) (q := (print j).drop k) (by rw [List.take_append_drop, e]) ?_ hv
  rw [e]
  obtain ⟨k, rfl⟩ : ∃ m, k = m + 1 := ⟨k - 1, by omega⟩
  simp

/-! ## Cases -/

namespace SampleText

/-- A text with strings, numbers, nesting, escapes and characters outside ASCII. -/
def doc : Json := .obj [("na\"me", .str "tést\n\u0001😀"), ("n", .arr [.int (-12), .int 18446744073709551615, .null]),
  ("ok", .bool true), ("o", .obj []), ("a", .arr [])]

def noFloats : Floats := ⟨fun _ => none⟩

theorem doc_holdable (f : Floats) : Holdable f doc := by
  simp only [doc, Holdable, HoldableAll, HoldableMembers]
  exact ⟨trivial, ⟨by omega, by omega, trivial, trivial⟩, trivial, trivial, trivial, trivial⟩

end SampleText

set_option maxRecDepth 20000 in
example : parse SampleText.noFloats (print SampleText.doc) = some SampleText.doc :=
  C100_text_roundtrip_partial _ _ (SampleText.doc_holdable _) (by decide)

/-- Blanks may follow a document, the end of another may not. -/
example : parse SampleText.noFloats ([91, 93] ++ [32]) = some (.arr []) ∧ parse SampleText.noFloats ([91, 93] ++ [32, 93]) = none ∧
    consumed SampleText.noFloats start ([91, 93] ++ [32, 93]) = 4 := ⟨rfl, rfl, rfl⟩

/-- Half of the default of a runner in Python: blanks after commas and colons, a pair of surrogates, a capital letter. -/
def pythonText : List JsonText.Byte :=
  [32, 123, 34, 97, 34, 58, 32, 34, 92, 117, 100, 56, 51, 100, 92, 117, 68, 69, 48, 48, 92, 47, 34, 44, 32, 34, 98, 34, 58, 32, 91, 93, 125, 10]

set_option maxRecDepth 20000 in
example : IsText SampleText.noFloats (.obj [("a", .str "😀/"), ("b", .arr [])]) pythonText :=
  ((C100_reader_exact _ _ _).mp (by rfl)).1

/-- A float that is kept. -/
example : Holdable ⟨fun t => if t = [49, 46, 53] then some "1.5" else none⟩ (.arr [.float "1.5"]) := by
  simp only [Holdable, HoldableAll]
  exact ⟨⟨⟨⟨false, [1], [5], none, false⟩, by unfold Number.IsFloat Number.Ok; exact ⟨⟨by decide, by decide, by intro s ds h; cases h⟩, by decide⟩, by decide⟩, by decide⟩, trivial⟩

example : 128 ≤ depth (nested 200) := by rw [nested_depth]; decide

/-! ## The other models use this text

What they assume of serialization (`Spec/Framing.lean`, `Model/ManifestStore.lean`, `Spec/Fetch.lean`, `Model/RunStateDoc.lean`) holds
of this text, for values which are not too deep. The translation between values and documents is a parameter. -/

/-- A type whose values are translated to documents and back. -/
structure Coded (T : Type) where
  enc : T → Json
  dec : Json → Option T
  back : ∀ m, dec (enc m) = some m
  /-- to arrays and objects, that is -/
  container : ∀ m, (∃ l, enc m = .arr l) ∨ ∃ ms, enc m = .obj ms

/-- What can be written and read. -/
def Coded.Fits {T : Type} (C : Coded T) (f : Floats) (m : T) : Prop := Holdable f (C.enc m) ∧ depth (C.enc m) < 128

theorem print_ne_nil {f : Floats} {j : Json} {v : Json} (h : parse f (print j) = some v) : print j ≠ [] := by
  intro e
  rw [e] at h
  cases h

open Classical in
/-- The value, if it can be written. (That it can be holds of all values that were read.) -/
noncomputable def Coded.check {T : Type} (C : Coded T) (f : Floats) (m : T) : Option {m : T // C.Fits f m} :=
  if h : C.Fits f m then some ⟨m, h⟩ else none

theorem Coded.check_fits {T : Type} (C : Coded T) (f : Floats) (m : T) (h : C.Fits f m) : C.check f m = some ⟨m, h⟩ := dif_pos h

/-- Messages are framed as in `Model/Framing.lean`, with this text and any compression. -/
noncomputable def wireCodec {T : Type} (C : Coded T) (f : Floats) (gzip : List Wire.Byte → List Wire.Byte)
    (gunzip : List Wire.Byte → Option (List Wire.Byte)) : Wire.Codec {m : T // C.Fits f m} where
  toVec m := (print (C.enc m.1)).map UInt8.toNat
  fromSlice bs := (parse f (bs.map UInt8.ofNat)).bind fun j => (C.dec j).bind (C.check f)
  gzip := gzip
  gunzip := gunzip

theorem ofNat_toNat (bs : List JsonText.Byte) : (bs.map UInt8.toNat).map UInt8.ofNat = bs := by
  rw [List.map_map]
  have : (UInt8.ofNat ∘ UInt8.toNat) = id := by funext b; simp
  rw [this, List.map_id]

/-- C100: what C34–C36 and C63 assume of messages holds of this text. -/
theorem C100_messages {T : Type} (C : Coded T) (f : Floats) (gzip : List Wire.Byte → List Wire.Byte)
    (gunzip : List Wire.Byte → Option (List Wire.Byte)) (hz : ∀ b, gunzip (gzip b) = some b) (hne : ∀ b, gzip b ≠ []) :
    (wireCodec C f gzip gunzip).Lawful where
  json := by
    rintro ⟨m, h⟩
    show (parse f (((print (C.enc m)).map UInt8.toNat).map UInt8.ofNat)).bind _ = _
    rw [ofNat_toNat, C100_text_roundtrip_partial f _ h.1 h.2]
    show (C.dec (C.enc m)).bind _ = _
    rw [C.back]
    exact C.check_fits f m h
  gz := hz
  jsonNe := by
    rintro ⟨m, h⟩ e
    exact print_ne_nil (C100_text_roundtrip_partial f _ h.1 h.2) (List.map_eq_nil_iff.mp e)
  gzNe := hne

/-- **C36**: what is assumed in `C36_abandoned_for_ever` holds of JSON messages of any kind. -/
theorem C36_json {T : Type} (C : Coded T) (f : Floats) (gzip : List Wire.Byte → List Wire.Byte)
    (gunzip : List Wire.Byte → Option (List Wire.Byte)) : (wireCodec C f gzip gunzip).RefusesZeros := by
  intro b k hk
  show (parse f ((b ++ List.replicate k 0).map UInt8.ofNat)).bind _ = none
  have h0 : (0 : JsonText.Byte) ∈ (b ++ List.replicate k 0).map UInt8.ofNat :=
    List.mem_map.mpr ⟨0, List.mem_append_right _ (List.mem_replicate.mpr ⟨by omega, rfl⟩), rfl⟩
  rw [parse_zero f _ h0]
  rfl

/-- Reading a file: how many bytes were taken if it fails. -/
noncomputable def readFile {T : Type} (C : Coded T) (f : Floats) (bs : List JsonText.Byte) : Except Nat {m : T // C.Fits f m} :=
  match (parse f bs).bind fun j => (C.dec j).bind (C.check f) with
  | some m => .ok m
  | none => .error (consumed f start bs)

theorem readFile_none {T : Type} (C : Coded T) (f : Floats) (bs : List JsonText.Byte) (h : parse f bs = none) :
    readFile C f bs = .error (consumed f start bs) := by
  unfold readFile
  rw [h]
  rfl

/-- C100: what C25 and others assume of manifests in files holds of this text. -/
noncomputable def manifestCodec {T : Type} (C : Coded T) (f : Floats) : ManifestStore.Codec {m : T // C.Fits f m} where
  encode m := print (C.enc m.1)
  decode := readFile C f
  roundtrip := by
    rintro ⟨m, h⟩
    unfold readFile
    rw [C100_text_roundtrip_partial f _ h.1 h.2]
    have e : ((some (C.enc m)).bind fun j => (C.dec j).bind (C.check f)) = some ⟨m, h⟩ := by
      show (C.dec (C.enc m)).bind _ = _
      rw [C.back]
      exact C.check_fits f m h
    rw [e]
  prefix_fails := by
    rintro ⟨m, h⟩ k hk
    refine ⟨consumed f start ((print (C.enc m)).take k), ?_, readFile_none C f _ (C100_cut_off f _ (C.container m) h.1 h.2 k hk)⟩
    refine Nat.le_trans (consumed_le f _ _) ?_
    rw [List.length_take]
    exact Nat.min_le_left ..
  suffix_fails := by
    rintro ⟨m, h⟩ k hk
    exact ⟨_, readFile_none C f _ (C100_beginning_lost f _ (C.container m) h.1 h.2 k hk)⟩

theorem consumed_runs {f : Floats} (p t : List JsonText.Byte) : ∀ {s s' : State}, runs f s p = some s' →
    consumed f s (p ++ t) = p.length + consumed f s' t := by
  induction p with
  | nil =>
    intro s s' h
    cases h
    exact (Nat.zero_add _).symm
  | cons b p ih =>
    intro s s' h
    change ((step f s b).bind fun s => runs f s p) = some s' at h
    show (match step f s b with
      | none => 1
      | some s => 1 + consumed f s (p ++ t)) = p.length + 1 + consumed f s' t
    cases hs : step f s b with
    | none => rw [hs] at h; cases h
    | some s1 =>
      rw [hs] at h
      have := ih (s := s1) h
      show 1 + consumed f s1 (p ++ t) = _
      omega

/-- C100: an array or object that is followed by something other than white space is not read, which is noticed after its end. -/
theorem C100_followed (f : Floats) (j : Json) (hj : (∃ l, j = .arr l) ∨ ∃ m, j = .obj m) (h : Holdable f j) (hd : depth j < 128)
    (t : List JsonText.Byte) (ht : ∃ b ∈ t, isSpace b = false) :
    parse f (print j ++ t) = none ∧ (print j).length ≤ consumed f start (print j ++ t) := by
  have hv := C100_text_roundtrip_partial f j h hd
  obtain ⟨s, hr, hs, -⟩ := runs_of_parse (show parseFrom f start (print j) = some j from hv)
  obtain ⟨a, u, z, e, ha, -⟩ := container_ends j hj
  have hb : Bracketed s := by
    rw [e, List.cons_append] at hr
    exact after_beginning ha hr
  refine ⟨?_, by rw [consumed_runs _ _ hr]; omega⟩
  unfold parse
  rw [parseFrom_runs, hr]
  show parseFrom f s t = none
  rcases hb with hb | ⟨w, hw⟩
  · exact absurd hs hb
  · cases hp : parseFrom f s t with
    | none => rfl
    | some v =>
      exfalso
      obtain ⟨mode, st⟩ := s
      dsimp only at hw
      subst hw
      obtain ⟨b, hb1, hb2⟩ := ht
      rw [done_spaces t st hp b hb1] at hb2
      cases hb2

/-- C100: what `C23_another_manifest` assumes of manifests in files holds of this text. -/
theorem C100_manifests {T : Type} (C : Coded T) (f : Floats) : ManifestStore.Spec.NoTrailing (manifestCodec C f) := by
  rintro ⟨u, hu⟩ ⟨v, hv⟩ hlt
  change (print (C.enc v)).length < (print (C.enc u)).length at hlt
  obtain ⟨a, t, z, e, -, hz⟩ := container_ends (C.enc u) (C.container u)
  have hmem : z ∈ (print (C.enc u)).drop (print (C.enc v)).length := by
    rw [e] at hlt ⊢
    simp only [List.length_append, List.length_cons, List.length_nil] at hlt
    rw [List.drop_append_of_le_length (by simp only [List.length_cons]; omega)]
    exact List.mem_append_right _ (List.mem_cons_self ..)
  obtain ⟨h1, h2⟩ := C100_followed f (C.enc v) (C.container v) hv.1 hv.2 _ ⟨z, hmem, hz⟩
  exact ⟨_, h2, readFile_none C f _ h1⟩

/-- Lines of results. `isJson` is stricter than `RawValue` is, which has no limit for the depth. -/
def lineCodec {T : Type} (C : Coded T) (f : Floats) : Fetch.Codec T where
  encode m := (print (C.enc m)).map UInt8.toNat
  isJson bs := (parse f (bs.map UInt8.ofNat)).isSome
  decode bs := (parse f (bs.map UInt8.ofNat)).bind C.dec

/-- C100: what C97 assumes of lines of results holds of this text. -/
theorem C100_lines {T : Type} (C : Coded T) (f : Floats) (m : T) (h : C.Fits f m) : (lineCodec C f).Lawful m where
  oneLine := by
    have key : ∀ b ∈ (print (C.enc m)).map UInt8.toNat, 32 ≤ b := by
      intro b hb
      obtain ⟨c, hc, rfl⟩ := List.mem_map.mp hb
      exact UInt8.le_iff_toNat_le.mp (C100_one_line f _ h.1 c hc)
    exact ⟨fun hb => absurd (key _ hb) (by decide), fun hb => absurd (key _ hb) (by decide)⟩
  isJson := by
    show (parse f (((print (C.enc m)).map UInt8.toNat).map UInt8.ofNat)).isSome = true
    rw [ofNat_toNat, C100_text_roundtrip_partial f _ h.1 h.2]
    rfl
  readBack := by
    show (parse f (((print (C.enc m)).map UInt8.toNat).map UInt8.ofNat)).bind C.dec = _
    rw [ofNat_toNat, C100_text_roundtrip_partial f _ h.1 h.2]
    exact C.back m
  nothingLess := by
    intro k hk
    show (parse f ((((print (C.enc m)).map UInt8.toNat).take k).map UInt8.ofNat)).isSome = false
    rw [← List.map_take, ofNat_toNat, C100_cut_off f _ (C.container m) h.1 h.2 k (by simpa [lineCodec] using hk)]
    rfl

/-- The text of stored run states. -/
def stateText (f : Floats) : RunStateDoc.Text where
  print := print
  parse := parse f
  ok j := Holdable f j ∧ depth j < 128
  roundtrip j h := C100_text_roundtrip_partial f j h.1 h.2

/-- C100 and C24 together: a stored run state is read back, if its metadata can be held and is nested less than 127 deep. -/
theorem C100_run_state (m : RunStateDoc.Meta) (f : Floats) (s : RunStateDoc.RunState m) (h : s.InRange)
    (hm : Holdable f (m.enc s.initMetadata)) (hd : depth (m.enc s.initMetadata) < 127) :
    RunStateDoc.tryLoad m (stateText f) (.bytes (RunStateDoc.serialize (stateText f) s)) = .found s := by
  have hbytes : ∀ l : List Nat, (∀ b ∈ l, RunStateDoc.byte b) →
      HoldableAll f (l.map fun b : Nat => Json.int b) ∧ depths (l.map fun b : Nat => Json.int b) = 0 := by
    intro l
    induction l with
    | nil => intro _; exact ⟨trivial, rfl⟩
    | cons b l ih =>
      intro hb
      have h1 : b < 256 := hb b (List.mem_cons_self ..)
      have := ih fun c hc => hb c (List.mem_cons_of_mem _ hc)
      simp only [List.map_cons, HoldableAll, Holdable, depths, depth, this.2]
      exact ⟨⟨by omega, this.1⟩, rfl⟩
  have henc : ∀ e : RunStateDoc.Entity, e.InRange → Holdable f (RunStateDoc.encEntity e) ∧ depth (RunStateDoc.encEntity e) ≤ 3 := by
    rintro ⟨id, tag⟩ ⟨_, h2, h3⟩
    have hb := hbytes id h2
    cases tag with
    | runner r =>
      have h3 : r.worker < 2 ^ 32 ∧ r.runner < 2 ^ 32 := h3
      simp only [RunStateDoc.encEntity, RunStateDoc.encTag, RunStateDoc.encBytes, Holdable, HoldableMembers, HoldableAll, depth,
        memberDepths, depths, hb.2]
      exact ⟨⟨hb.1, ⟨⟨by omega, by omega, trivial⟩, trivial⟩, trivial⟩, by omega⟩
    | localClient =>
      simp only [RunStateDoc.encEntity, RunStateDoc.encTag, RunStateDoc.encBytes, Holdable, HoldableMembers, HoldableAll, depth,
        memberDepths, depths, hb.2]
      exact ⟨⟨hb.1, trivial, trivial⟩, by omega⟩
    | externalClient =>
      simp only [RunStateDoc.encEntity, RunStateDoc.encTag, RunStateDoc.encBytes, Holdable, HoldableMembers, HoldableAll, depth,
        memberDepths, depths, hb.2]
      exact ⟨⟨hb.1, trivial, trivial⟩, by omega⟩
  have hws : ∀ ws : List RunStateDoc.Entity, (∀ e ∈ ws, e.InRange) →
      HoldableAll f (ws.map RunStateDoc.encEntity) ∧ depths (ws.map RunStateDoc.encEntity) ≤ 3 := by
    intro ws
    induction ws with
    | nil => intro _; exact ⟨trivial, by simp [depths]⟩
    | cons e ws ih =>
      intro he
      have h1 := henc e (he e (List.mem_cons_self ..))
      have h2 := ih fun c hc => he c (List.mem_cons_of_mem _ hc)
      simp only [List.map_cons, HoldableAll, depths]
      exact ⟨⟨h1.1, h2.1⟩, by omega⟩
  refine C24_round_trip m (stateText f) s h ?_
  obtain ⟨h1, h2, h3⟩ := h
  obtain ⟨c, md, ws, hash⟩ := s
  dsimp only at h1 h2 h3 hm hd
  have hw := hws ws h2
  show Holdable f _ ∧ depth _ < 128
  cases hash with
  | none =>
    simp only [RunStateDoc.encDoc, List.append_nil, Holdable, HoldableMembers, depth, memberDepths]
    exact ⟨⟨by omega, by omega, hm, hw.1, trivial⟩, by omega⟩
  | some b =>
    have hb := hbytes b (h3 b rfl).2
    simp only [RunStateDoc.encDoc, List.cons_append, List.nil_append, RunStateDoc.encBytes, Holdable, HoldableMembers, depth,
      memberDepths, hb.2]
    exact ⟨⟨by omega, by omega, hm, hw.1, hb.1, trivial⟩, by omega⟩

example : RunStateDoc.tryLoad Sample.noMeta (stateText SampleText.noFloats)
    (.bytes (RunStateDoc.serialize (stateText SampleText.noFloats) Sample.state)) = .found Sample.state := by
  refine C100_run_state _ _ _ Sample.state_inRange ?_ ?_
  · show Holdable _ (.obj [("k", .bool true)])
    simp only [Holdable, HoldableMembers]
    exact ⟨trivial, trivial⟩
  · show depth (.obj [("k", .bool true)]) < 127
    decide

/-- The hypothesis of the examples of C24. -/
example (f : Floats) : (stateText f).ok Sample.otherVersion := by
  show Holdable f _ ∧ depth _ < 128
  refine ⟨?_, by decide⟩
  simp only [Sample.otherVersion, Holdable, HoldableMembers, HoldableAll]
  exact ⟨by omega, by omega, trivial, trivial, trivial⟩

/-- Values that are lists of truth values, and what is assumed of them in C97. -/
def SampleText.bools : Coded (List Bool) where
  enc l := .arr (l.map .bool)
  dec
    | .arr l => l.mapM fun
      | .bool b => some b
      | _ => none
    | _ => none
  back m := by
    show (m.map Json.bool).mapM _ = some m
    induction m with
    | nil => rfl
    | cons b m ih => rw [List.map_cons, List.mapM_cons, ih]; rfl
  container m := .inl ⟨_, rfl⟩

example : (lineCodec SampleText.bools SampleText.noFloats).Lawful [true, false] :=
  C100_lines _ _ _ ⟨by simp only [SampleText.bools, List.map_cons, List.map_nil, Holdable, HoldableAll]; exact ⟨trivial, trivial, trivial⟩,
    by decide⟩

end Abq.Props
