import Verif.Spec.Messages
import Verif.Proof.Address
import Verif.Props.RunStateDoc
/-!
# Messages are read back

`Fit f k j`: the document can be held, and is nested `k` deep at most.
-/

namespace Abq.Messages
open Abq.Protocol Abq.Spec.JsonText Abq.Spec.Messages
open RunStateDoc (Json field reqField optField decNat decU32 decI32 encBytes decBytes encTag decTag encEntity decEntity decWorkerRunner)
open JsonText (Floats)

/-! ## Structs -/

theorem filter_present_none (ms : List (String × Option Json)) (name : String) (h : name ∉ ms.map (·.1)) :
    (present ms).filter (fun p => p.1 = name) = [] := by
  induction ms with
  | nil => rfl
  | cons p ms ih =>
    obtain ⟨n, o⟩ := p
    simp only [List.map_cons, List.mem_cons, not_or] at h
    cases o with
    | none => exact ih h.2
    | some j =>
      show List.filter _ ((n, j) :: present ms) = []
      rw [List.filter_cons_of_neg (by simpa using fun e => h.1 e.symm)]
      exact ih h.2

theorem filter_present (ms : List (String × Option Json)) (name : String) (o : Option Json) (hn : (ms.map (·.1)).Nodup)
    (h : (name, o) ∈ ms) : (present ms).filter (fun p => p.1 = name) = (o.map fun j => (name, j)).toList := by
  induction ms with
  | nil => cases h
  | cons p ms ih =>
    obtain ⟨n, o'⟩ := p
    simp only [List.map_cons, List.nodup_cons] at hn
    rcases List.mem_cons.mp h with e | h'
    · cases e
      cases o with
      | none => exact filter_present_none ms name hn.1
      | some j =>
        show List.filter _ ((name, j) :: present ms) = [(name, j)]
        rw [List.filter_cons_of_pos (by simp), filter_present_none ms name hn.1]
    · have hne : n ≠ name := by
        rintro rfl
        exact hn.1 (List.mem_map.mpr ⟨(n, o), h', rfl⟩)
      cases o' with
      | none => exact ih hn.2 h'
      | some j =>
        show List.filter _ ((n, j) :: present ms) = _
        rw [List.filter_cons_of_neg (by simpa using hne)]
        exact ih hn.2 h'

theorem field_present {ms : List (String × Option Json)} {name : String} {o : Option Json} (hn : (ms.map (·.1)).Nodup)
    (h : (name, o) ∈ ms) : field name (present ms) = some o := by
  unfold field
  rw [filter_present ms name o hn h]
  cases o <;> rfl

theorem req_present {α : Type} {ms : List (String × Option Json)} {name : String} {j : Json} {dec : Json → Option α}
    (hn : (ms.map (·.1)).Nodup) (h : (name, some j) ∈ ms) : reqField name (present ms) dec = dec j := by
  unfold reqField
  rw [field_present hn h]

theorem opt_present_none {α : Type} {ms : List (String × Option Json)} {name : String} {dec : Json → Option α}
    (hn : (ms.map (·.1)).Nodup) (h : (name, none) ∈ ms) : optField name (present ms) dec = some none := by
  unfold optField
  rw [field_present hn h]

theorem opt_present_null {α : Type} {ms : List (String × Option Json)} {name : String} {dec : Json → Option α}
    (hn : (ms.map (·.1)).Nodup) (h : (name, some .null) ∈ ms) : optField name (present ms) dec = some none := by
  unfold optField
  rw [field_present hn h]

theorem opt_present_some {α : Type} {ms : List (String × Option Json)} {name : String} {j : Json} {dec : Json → Option α} {a : α}
    (hn : (ms.map (·.1)).Nodup) (h : (name, some j) ∈ ms) (hj : j ≠ .null) (hd : dec j = some a) :
    optField name (present ms) dec = some (some a) := by
  unfold optField
  rw [field_present hn h]
  cases j with
  | null => exact absurd rfl hj
  | _ => simp only [hd, Option.map_some]

/-- A member that is left out if there is nothing. -/
theorem opt_present {α : Type} {ms : List (String × Option Json)} {name : String} {enc : α → Json} {dec : Json → Option α}
    (o : Option α) (hn : (ms.map (·.1)).Nodup) (h : (name, o.map enc) ∈ ms) (he : ∀ a, enc a ≠ .null)
    (hd : ∀ a, o = some a → dec (enc a) = some a) : optField name (present ms) dec = some o := by
  cases o with
  | none => exact opt_present_none hn h
  | some a => exact opt_present_some hn h (he a) (hd a rfl)

/-- A member that is `null` if there is nothing. -/
theorem opt_present_enc {α : Type} {ms : List (String × Option Json)} {name : String} {enc : α → Json} {dec : Json → Option α}
    (o : Option α) (hn : (ms.map (·.1)).Nodup) (h : (name, some (encOpt enc o)) ∈ ms) (he : ∀ a, enc a ≠ .null)
    (hd : ∀ a, o = some a → dec (enc a) = some a) : optField name (present ms) dec = some o := by
  cases o with
  | none => exact opt_present_null hn h
  | some a => exact opt_present_some hn h (he a) (hd a rfl)

theorem struct_ne_null (ms : List (String × Option Json)) : struct ms ≠ .null := by intro h; cases h

/-! ## What fits -/

def Fit (f : Floats) (k : Nat) (j : Json) : Prop := Holdable f j ∧ depth j ≤ k

theorem Fit.mono {f : Floats} {k k' : Nat} {j : Json} (h : Fit f k j) (hk : k ≤ k') : Fit f k' j := ⟨h.1, Nat.le_trans h.2 hk⟩

/-- All members fit. -/
def FitMembers (f : Floats) (k : Nat) : List (String × Option Json) → Prop
  | [] => True
  | (_, o) :: ms => (∀ j, o = some j → Fit f k j) ∧ FitMembers f k ms

theorem fit_present {f : Floats} {k : Nat} {ms : List (String × Option Json)} (h : FitMembers f k ms) :
    HoldableMembers f (present ms) ∧ memberDepths (present ms) ≤ k := by
  induction ms with
  | nil => exact ⟨trivial, Nat.zero_le _⟩
  | cons p ms ih =>
    obtain ⟨n, o⟩ := p
    cases o with
    | none => exact ih h.2
    | some j =>
      have h1 := h.1 j rfl
      have h2 := ih h.2
      exact ⟨⟨h1.1, h2.1⟩, Nat.max_le.mpr ⟨h1.2, h2.2⟩⟩

theorem fit_struct {f : Floats} {k : Nat} {ms : List (String × Option Json)} (h : FitMembers f k ms) : Fit f (k + 1) (struct ms) := by
  have := fit_present h
  refine ⟨this.1, ?_⟩
  show 1 + memberDepths (present ms) ≤ _
  omega

theorem fit_obj1 {f : Floats} {k : Nat} {name : String} {j : Json} (h : Fit f k j) : Fit f (k + 1) (.obj [(name, j)]) := by
  refine ⟨⟨h.1, trivial⟩, ?_⟩
  show 1 + max (depth j) 0 ≤ _
  have := h.2
  omega

theorem fit_arr {f : Floats} {k : Nat} {l : List Json} (h : ∀ j ∈ l, Fit f k j) : Fit f (k + 1) (.arr l) := by
  have key : HoldableAll f l ∧ depths l ≤ k := by
    induction l with
    | nil => exact ⟨trivial, Nat.zero_le _⟩
    | cons j l ih =>
      have h1 := h j (List.mem_cons_self ..)
      have h2 := ih fun i hi => h i (List.mem_cons_of_mem _ hi)
      exact ⟨⟨h1.1, h2.1⟩, Nat.max_le.mpr ⟨h1.2, h2.2⟩⟩
  refine ⟨key.1, ?_⟩
  show 1 + depths l ≤ _
  omega

theorem fit_map {α : Type} {f : Floats} {k : Nat} {enc : α → Json} {l : List α} (h : ∀ a ∈ l, Fit f k (enc a)) :
    Fit f (k + 1) (.arr (l.map enc)) := by
  refine fit_arr fun j hj => ?_
  obtain ⟨a, ha, rfl⟩ := List.mem_map.mp hj
  exact h a ha

theorem fit_str (f : Floats) (k : Nat) (s : String) : Fit f k (.str s) := ⟨trivial, Nat.zero_le _⟩
theorem fit_bool (f : Floats) (k : Nat) (b : Bool) : Fit f k (.bool b) := ⟨trivial, Nat.zero_le _⟩
theorem fit_null (f : Floats) (k : Nat) : Fit f k .null := ⟨trivial, Nat.zero_le _⟩
theorem fit_nat (f : Floats) (k n : Nat) (h : n < 2 ^ 64) : Fit f k (.int n) := ⟨by simp only [Holdable]; omega, Nat.zero_le _⟩

theorem opt_fit {α : Type} {f : Floats} {k : Nat} {enc : α → Json} {o : Option α} (h : ∀ a, o = some a → Fit f k (enc a)) :
    ∀ j, o.map enc = some j → Fit f k j := by
  intro j hj
  cases o with
  | none => cases hj
  | some a =>
    cases hj
    exact h a rfl

theorem some_fit {f : Floats} {k : Nat} {i : Json} (h : Fit f k i) : ∀ j, some i = some j → Fit f k j := by
  intro j hj
  cases hj
  exact h

/-- The depth is at least that of a member. -/
theorem member_depth {ms : List (String × Option Json)} {name : String} {j : Json} (h : (name, some j) ∈ ms) :
    1 + depth j ≤ depth (struct ms) := by
  show 1 + depth j ≤ 1 + memberDepths (present ms)
  induction ms with
  | nil => cases h
  | cons p ms ih =>
    obtain ⟨n, o⟩ := p
    rcases List.mem_cons.mp h with e | h
    · cases e
      show _ ≤ 1 + max (depth j) _
      omega
    · have := ih h
      cases o with
      | none => exact this
      | some i =>
        show _ ≤ 1 + max (depth i) (memberDepths (present ms))
        omega

theorem arr_depth {l : List Json} {j : Json} (h : j ∈ l) : 1 + depth j ≤ depth (.arr l) := by
  show _ ≤ 1 + depths l
  induction l with
  | nil => cases h
  | cons i l ih =>
    rcases List.mem_cons.mp h with rfl | h
    · show _ ≤ 1 + max (depth j) _
      omega
    · have := ih h
      show _ ≤ 1 + max (depth i) (depths l)
      omega

theorem obj1_depth (name : String) (j : Json) : depth (.obj [(name, j)]) = 1 + depth j := by
  show 1 + max (depth j) 0 = _
  omega

/-! ## Simple parts -/

theorem dec_enc_nat {n : Nat} (h : U64 n) : decU64 (.int n) = some n := by
  have h : n < u64Bound := h
  unfold decU64
  exact Props.decNat_ofNat _ n h
theorem dec_enc_u32 {n : Nat} (h : U32 n) : decU32 (.int n) = some n := Props.decU32_ofNat n h

theorem mapM_enc {α : Type} {enc : α → Json} {dec : Json → Option α} {l : List α} (h : ∀ a ∈ l, dec (enc a) = some a) :
    (l.map enc).mapM dec = some l := by
  induction l with
  | nil => rfl
  | cons a l ih =>
    simp only [List.map_cons, List.mapM_cons, h a (List.mem_cons_self ..), ih fun b hb => h b (List.mem_cons_of_mem _ hb)]
    rfl

theorem decArr_enc {α : Type} {enc : α → Json} {dec : Json → Option α} {l : List α} (h : ∀ a ∈ l, dec (enc a) = some a) :
    decArr dec (.arr (l.map enc)) = some l := mapM_enc h

theorem decStrs_enc (l : List String) : decStrs (encStrs l) = some l := mapM_enc fun _ _ => rfl

theorem decU8_enc (b : UInt8) : decU8 (.int b.toNat) = some b := by
  unfold decU8
  rw [Props.decNat_ofNat 256 b.toNat b.toNat_lt]
  simp

theorem decU8s_enc (l : List UInt8) : decU8s (encU8s l) = some l := mapM_enc (enc := fun b : UInt8 => .int b.toNat) fun b _ => decU8_enc b

theorem decBytes_enc {n : Nat} {l : List Nat} (h : Bytes n l) : decBytes n (encBytes l) = some l := Props.decBytes_enc n l h.1 h.2

theorem fit_strs (f : Floats) (l : List String) : Fit f 1 (encStrs l) := fit_map fun a _ => fit_str f 0 a

theorem fit_u8s (f : Floats) (l : List UInt8) : Fit f 1 (encU8s l) :=
  fit_map fun b _ => fit_nat f 0 b.toNat (Nat.lt_trans b.toNat_lt (by decide))

theorem fit_bytes (f : Floats) {n : Nat} {l : List Nat} (h : Bytes n l) : Fit f 1 (encBytes l) :=
  fit_map fun b hb => fit_nat f 0 b (Nat.lt_trans (h.2 b hb) (by decide))

theorem u32_u64 {n : Nat} (h : U32 n) : n < 2 ^ 64 := Nat.lt_trans h (by decide)

theorem fit_tag (f : Floats) {t : Tag} (h : TagOk t) : Fit f 2 (encTag t) := by
  cases t with
  | runner r =>
    refine fit_obj1 (fit_arr ?_)
    simp only [List.mem_cons, List.not_mem_nil, or_false]
    rintro j (rfl | rfl)
    · exact fit_nat f 0 _ (u32_u64 h.1)
    · exact fit_nat f 0 _ (u32_u64 h.2)
  | localClient => exact fit_str ..
  | externalClient => exact fit_str ..

theorem decTag_enc {t : Tag} (h : TagOk t) : decTag (encTag t) = some t := Props.decTag_enc t (by cases t <;> exact h)

theorem decEntity_enc {e : RunStateDoc.Entity} (h : EntityOk e) : decEntity (encEntity e) = some e :=
  Props.decEntity_enc e ⟨h.1.1, h.1.2, by
    obtain ⟨_, h⟩ := h
    cases ht : e.tag <;> rw [ht] at h <;> exact h⟩

theorem fit_entity (f : Floats) {e : RunStateDoc.Entity} (h : EntityOk e) : Fit f 3 (encEntity e) :=
  fit_struct (ms := [("id", some (encBytes e.id)), ("tag", some (encTag e.tag))])
    ⟨some_fit ((fit_bytes f h.1).mono (by decide)), some_fit (fit_tag f h.2), trivial⟩

/-- Finds a member of a struct. -/
syntax "find" : tactic
macro_rules
  | `(tactic| find) => `(tactic| first
    | exact List.mem_cons_self ..
    | (refine List.mem_cons_of_mem _ ?_; find))

/-- The names of the members of a struct differ. -/
macro "distinct" : tactic => `(tactic| (simp only [List.map_cons, List.map_nil]; decide))

theorem decStr_enc (s : String) : decStr (.str s) = some s := rfl
theorem decBool_enc (b : Bool) : decBool (.bool b) = some b := rfl
theorem decMeta_enc (m : Metadata) : decMeta (.obj m) = some m := rfl

/-- Reads a member of a struct. -/
macro "req" t:term : tactic =>
  `(tactic| first
    | rw [req_present (by distinct) (by find), ($t : _), Option.bind_some]
    | rw [req_present (by distinct) (by find), ($t : _), Option.map_some])

/-- Reads a member that is left out if there is nothing. -/
macro "opt" o:term ", " t:term : tactic =>
  `(tactic| first
    | rw [opt_present $o (by distinct) (by find) (by intro a h; cases h) (by exact $t), Option.bind_some]
    | rw [opt_present $o (by distinct) (by find) (by intro a h; cases h) (by exact $t), Option.map_some])

theorem decRunnerMeta_enc {m : RunnerMeta} (h : U32 m.runner.worker) (h' : U32 m.runner.runner) :
    decRunnerMeta (encRunnerMeta m) = some m := by
  have hr : decWorkerRunner (encWorkerRunner m.runner) = some m.runner := by
    simp only [encWorkerRunner, decWorkerRunner, dec_enc_u32 h, dec_enc_u32 h', Option.bind_some, Option.map_some]
  simp only [encRunnerMeta, decRunnerMeta, struct]
  req hr
  req decBool_enc
  req decBool_enc

theorem fit_runnerMeta (f : Floats) {m : RunnerMeta} (h : U32 m.runner.worker) (h' : U32 m.runner.runner) :
    Fit f 2 (encRunnerMeta m) := by
  refine fit_struct ⟨some_fit (fit_arr ?_), some_fit (fit_bool ..), some_fit (fit_bool ..), trivial⟩
  simp only [List.mem_cons, List.not_mem_nil, or_false]
  rintro j (rfl | rfl)
  · exact fit_nat f 0 _ (u32_u64 h)
  · exact fit_nat f 0 _ (u32_u64 h')

theorem decVersion_enc {v : Version} (h : VersionOk v) : decVersion (encVersion v) = some v := by
  have e : ∀ ms, decVersion (.obj ms) = (reqField "major" ms decU64).bind fun major =>
    (reqField "minor" ms decU64).map fun minor => ⟨major, minor⟩ := fun _ => rfl
  unfold encVersion struct
  rw [e]
  req (dec_enc_nat h.1)
  req (dec_enc_nat h.2)

theorem fit_version (f : Floats) {v : Version} (h : VersionOk v) : Fit f 1 (encVersion v) :=
  fit_struct ⟨some_fit (fit_str ..), some_fit (fit_nat f 0 _ h.1), some_fit (fit_nat f 0 _ h.2), trivial⟩

theorem decSpecification_enc (s : Specification) : decSpecification (encSpecification s) = some s := by
  simp only [encSpecification, decSpecification, struct, members, Option.bind_some]
  req decStr_enc
  req decStr_enc
  req decStr_enc
  req decStr_enc
  req decStr_enc
  req decStr_enc
  req decStr_enc

theorem fit_specification (f : Floats) (s : Specification) : Fit f 1 (encSpecification s) :=
  fit_struct ⟨some_fit (fit_str ..), some_fit (fit_str ..), some_fit (fit_str ..), some_fit (fit_str ..), some_fit (fit_str ..),
    some_fit (fit_str ..), some_fit (fit_str ..), some_fit (fit_str ..), trivial⟩

/-! ## Results -/

theorem encOptNat_eq (o : Option Nat) : encOptNat o = encOpt (fun n : Nat => .int n) o := by cases o <;> rfl

theorem decLocation_enc {l : Location} (h : LocationOk l) : decLocation (encLocation l) = some l := by
  simp only [encLocation, decLocation, struct, members, Option.bind_some, encOptNat_eq]
  req decStr_enc
  rw [opt_present_enc l.line (by distinct) (by find) (by intro a h; cases h) fun n hn => dec_enc_nat (h.1 n hn)]
  dsimp only [Option.bind_some]
  rw [opt_present_enc l.column (by distinct) (by find) (by intro a h; cases h) fun n hn => dec_enc_nat (h.2 n hn)]
  rfl

theorem fit_opt (f : Floats) {α : Type} {k : Nat} {enc : α → Json} {o : Option α} (h : ∀ a, o = some a → Fit f k (enc a)) :
    Fit f k (encOpt enc o) := by
  cases o with
  | none => exact fit_null ..
  | some a => exact h a rfl

theorem fit_location (f : Floats) {l : Location} (h : LocationOk l) : Fit f 1 (encLocation l) := by
  refine fit_struct ⟨some_fit (fit_str ..), some_fit ?_, some_fit ?_, trivial⟩
  · rw [encOptNat_eq]
    exact fit_opt f fun n hn => fit_nat f 0 n (h.1 n hn)
  · rw [encOptNat_eq]
    exact fit_opt f fun n hn => fit_nat f 0 n (h.2 n hn)

theorem decOob_enc {f : Floats} {e : OutOfBandError} (h : ErrorOk f e) : decOob (encOob e) = some e := by
  simp only [encOob, decOob, struct, members, Option.bind_some]
  req decStr_enc
  opt e.backtrace, fun a _ => decStrs_enc a
  opt e.exception, fun a _ => decStr_enc a
  opt e.location, fun a ha => decLocation_enc (h.1 a ha)
  opt e.metadata, fun a _ => decMeta_enc a

theorem fit_oob (f : Floats) {e : OutOfBandError} (h : ErrorOk f e) : Fit f (errorHeight e) (encOob e) := by
  have hd : ∀ m, e.metadata = some m → 1 + depth (.obj m) ≤ errorHeight e := by
    intro m hm
    unfold errorHeight
    rw [hm]
    exact Nat.le_max_right ..
  have hs : ∀ b, e.backtrace = some b → 2 ≤ errorHeight e := by
    intro b hb
    unfold errorHeight
    rw [hb]
    rw [if_pos (.inl rfl)]
    exact Nat.le_max_left ..
  have hl : ∀ b, e.location = some b → 2 ≤ errorHeight e := by
    intro b hb
    unfold errorHeight
    rw [hb]
    rw [if_pos (.inr rfl)]
    exact Nat.le_max_left ..
  have h1 : 1 ≤ errorHeight e := by
    unfold errorHeight
    refine Nat.le_trans ?_ (Nat.le_max_left ..)
    split <;> decide
  obtain ⟨k, hk⟩ : ∃ k, errorHeight e = k + 1 := ⟨errorHeight e - 1, by omega⟩
  rw [hk] at hd hs hl ⊢
  exact fit_struct ⟨some_fit (fit_str ..), opt_fit fun a ha => (fit_strs f a).mono (by have := hs a ha; omega),
    opt_fit fun a _ => fit_str f k a, opt_fit fun a ha => (fit_location f (h.1 a ha)).mono (by have := hl a ha; omega),
    opt_fit fun a ha => ⟨h.2 a ha, by have := hd a ha; omega⟩, trivial⟩

theorem strs_depth (l : List String) : 1 ≤ depth (encStrs l) := by
  show 1 ≤ 1 + depths (l.map .str)
  omega

theorem struct_depth (ms : List (String × Option Json)) : 1 ≤ depth (struct ms) := by
  show 1 ≤ 1 + memberDepths (present ms)
  omega

theorem oob_depth (e : OutOfBandError) : errorHeight e ≤ depth (encOob e) := by
  obtain ⟨message, backtrace, exception, location, metadata⟩ := e
  refine Nat.max_le.mpr ⟨?_, ?_⟩
  · split
    · rename_i h
      rcases h with h | h
      · obtain ⟨b, hb⟩ := Option.isSome_iff_exists.mp h
        dsimp only at hb
        subst hb
        exact Nat.le_trans (by have := strs_depth b; omega) (member_depth (name := "backtrace") (j := encStrs b) (by find))
      · obtain ⟨b, hb⟩ := Option.isSome_iff_exists.mp h
        dsimp only at hb
        subst hb
        exact Nat.le_trans (by have : 1 ≤ depth (encLocation b) := struct_depth _; omega)
          (member_depth (name := "location") (j := encLocation b) (by find))
    · exact struct_depth _
  · cases metadata with
    | none => exact Nat.zero_le _
    | some m => exact member_depth (name := "meta") (by find)

theorem fit_oobs (f : Floats) {es : List OutOfBandError} (h : ∀ e ∈ es, ErrorOk f e) :
    Fit f (errorsHeight es + 1) (.arr (es.map encOob)) := by
  have key : ∀ e ∈ es, errorHeight e ≤ errorsHeight es := by
    clear h
    induction es with
    | nil => intro e he; cases he
    | cons x es ih =>
      intro e he
      show _ ≤ max (errorHeight x) (errorsHeight es)
      rcases List.mem_cons.mp he with rfl | he
      · omega
      · have := ih e he
        omega
  exact fit_map fun e he => (fit_oob f (h e he)).mono (key e he)

theorem oobs_depth (es : List OutOfBandError) : 1 + errorsHeight es ≤ depth (.arr (es.map encOob)) := by
  induction es with
  | nil => exact Nat.le_refl _
  | cons e es ih =>
    have h1 := oob_depth e
    show 1 + max (errorHeight e) (errorsHeight es) ≤ 1 + max (depth (encOob e)) (depths (es.map encOob))
    have : 1 + errorsHeight es ≤ 1 + depths (es.map encOob) := ih
    omega

theorem decFailure_enc (e : Option String) (b : Option (List String)) : decFailure (encFailure e b) = some (e, b) := by
  simp only [encFailure, decFailure, struct]
  opt e, fun a _ => decStr_enc a
  opt b, fun a _ => decStrs_enc a

theorem decAbqStatus_enc (s : AbqStatus) : decAbqStatus (encStatus s) = some s := by
  cases s with
  | failure e b =>
    simp only [encStatus, decAbqStatus, variant, Option.bind_some, if_true, decFailure_enc, Option.map_some]
  | error e b =>
    simp only [encStatus, decAbqStatus, variant, Option.bind_some, decFailure_enc, Option.map_some]
    rfl
  | _ => rfl

theorem fit_failure (f : Floats) (e : Option String) (b : Option (List String)) (k : Nat) (hk : b.isSome → 1 ≤ k) :
    Fit f (k + 1) (encFailure e b) :=
  fit_struct ⟨opt_fit fun a _ => fit_str f k a, opt_fit fun a ha => (fit_strs f a).mono (hk (by rw [ha]; rfl)), trivial⟩

theorem fit_status (f : Floats) (s : AbqStatus) : Fit f (statusHeight s - 1) (encStatus s) := by
  cases s with
  | failure e b =>
    cases b with
    | none => exact fit_obj1 (fit_failure f e none 0 (by intro h; cases h))
    | some b => exact fit_obj1 (fit_failure f e (some b) 1 (by intro h; exact Nat.le_refl _))
  | error e b =>
    cases b with
    | none => exact fit_obj1 (fit_failure f e none 0 (by intro h; cases h))
    | some b => exact fit_obj1 (fit_failure f e (some b) 1 (by intro h; exact Nat.le_refl _))
  | _ => exact fit_str ..

theorem failure_depth (e : Option String) (b : Option (List String)) : (if b.isSome then 2 else 1) ≤ depth (encFailure e b) := by
  cases b with
  | none => exact struct_depth _
  | some b =>
    exact Nat.le_trans (by have := strs_depth b; show 2 ≤ 1 + depth (encStrs b); omega)
      (member_depth (name := "backtrace") (j := encStrs b) (by find))

theorem runtime_depth (t : Runtime) : depth (encRuntime t) = 1 := by cases t <;> rfl

/-- Beside the status there is a runtime, which is an object. -/
theorem status_depth (s : AbqStatus) : statusHeight s ≤ max 2 (1 + depth (encStatus s)) := by
  cases s with
  | failure e b =>
    have := failure_depth e b
    simp only [statusHeight, encStatus, obj1_depth]
    cases b <;> simp only [Option.isSome_none, Option.isSome_some, if_true, Bool.false_eq_true, if_false] at this ⊢ <;> omega
  | error e b =>
    have := failure_depth e b
    simp only [statusHeight, encStatus, obj1_depth]
    cases b <;> simp only [Option.isSome_none, Option.isSome_some, if_true, Bool.false_eq_true, if_false] at this ⊢ <;> omega
  | _ => exact Nat.le_max_left ..

theorem decRuntime_enc {f : Floats} {t : Runtime} (h : RuntimeOk f t) : decRuntime (encRuntime t) = some t := by
  cases t with
  | milliseconds r => rfl
  | nanoseconds n =>
    unfold decRuntime encRuntime
    rw [show variant (.obj [("Nanoseconds", .int n)]) = some ("Nanoseconds", .int n) from rfl, Option.bind_some,
      if_neg (show ¬ "Nanoseconds" = "Milliseconds" by decide), if_pos rfl, dec_enc_nat h, Option.map_some]

theorem decSpecFields_enc {f : Floats} {r : SpecFields} (h : FieldsOk f r) (past : Option Json) :
    decSpecFields (present (specMembers r past)) = some r := by
  obtain ⟨h1, h2, _, h4, h5⟩ := h
  unfold decSpecFields specMembers
  req decAbqStatus_enc
  req decStr_enc
  req decStr_enc
  opt r.output, fun a _ => decStr_enc a
  req (decRuntime_enc h1)
  req decMeta_enc
  opt r.location, fun a ha => decLocation_enc (h4 a ha)
  opt r.startedAt, fun a _ => decStr_enc a
  opt r.finishedAt, fun a _ => decStr_enc a
  opt r.lineage, fun a _ => decStrs_enc a
  opt r.otherErrors, fun es hes => mapM_enc fun e he => decOob_enc (h5 es hes e he)
  opt r.stderr, fun a _ => decU8s_enc a
  opt r.stdout, fun a _ => decU8s_enc a
  req (dec_enc_nat h2)

theorem decSpecPast_eq (ms : List (String × Json)) :
    decSpecPast ms = (ms.filter fun p => p.1 = "past_attempts").map fun p => decSpecAttempts p.2 := by
  induction ms with
  | nil => simp only [decSpecPast, List.filter_nil, List.map_nil]
  | cons p ms ih =>
    obtain ⟨k, j⟩ := p
    rw [decSpecPast]
    by_cases hk : k = "past_attempts"
    · rw [if_pos hk, List.filter_cons_of_pos (by simpa using hk), ih]
      rfl
    · rw [if_neg hk, List.filter_cons_of_neg (by simpa using hk), ih]

theorem specPast (r : SpecFields) (past : Option Json) :
    decSpecPast (present (specMembers r past)) = (past.map decSpecAttempts).toList := by
  rw [decSpecPast_eq, filter_present (specMembers r past) "past_attempts" past (by unfold specMembers; distinct)
    (by unfold specMembers; find)]
  cases past <;> rfl

mutual
theorem decSpec_enc {f : Floats} : ∀ r : ResultSpec, SpecOk f r → decSpec (encSpec r) = some r
  | .mk r none, h => by
    rw [encSpec, struct, decSpec, decSpecFields_enc (f := f) (r := r) (by rw [SpecOk] at h; exact h), specPast]
    rfl
  | .mk r (some past), h => by
    rw [SpecOk] at h
    rw [encSpec, struct, decSpec, decSpecFields_enc h.1, specPast]
    show (optOf [decSpecAttempts (.arr (encSpecs past))]).map _ = _
    rw [decSpecAttempts, decSpecAll_enc past h.2]
    rfl
theorem decSpecAll_enc {f : Floats} : ∀ rs : List ResultSpec, SpecsOk f rs → decSpecAll (encSpecs rs) = some rs
  | [], _ => by rw [encSpecs, decSpecAll]
  | r :: rs, h => by
    rw [SpecsOk] at h
    rw [encSpecs, decSpecAll, decSpec_enc r h.1, decSpecAll_enc rs h.2]
    rfl
end

theorem obj_depth (m : Metadata) : 1 ≤ depth (.obj m) := by
  show 1 ≤ 1 + memberDepths m
  omega

theorem status_ge (s : AbqStatus) : 2 ≤ statusHeight s := by
  cases s with
  | failure e b => cases b <;> simp [statusHeight]
  | error e b => cases b <;> simp [statusHeight]
  | _ => exact Nat.le_refl _

theorem fit_runtime (f : Floats) {t : Runtime} (h : RuntimeOk f t) : Fit f 1 (encRuntime t) := by
  cases t with
  | milliseconds r => exact fit_obj1 ⟨h, Nat.le_refl _⟩
  | nanoseconds n => exact fit_obj1 (fit_nat f 0 _ h)

theorem fit_specMembers (f : Floats) {r : SpecFields} (h : FieldsOk f r) {past : Option Json} {k : Nat}
    (hr : fieldsHeight r ≤ k + 1) (hp : ∀ j, past = some j → Fit f k j) : Fit f (k + 1) (struct (specMembers r past)) := by
  obtain ⟨h1, h2, h3, h4, h5⟩ := h
  have hs := status_ge r.status
  have hm : depth (.obj r.metadata) ≤ k ∧ statusHeight r.status - 1 ≤ k ∧ 1 ≤ k := by
    unfold fieldsHeight at hr
    omega
  have he : ∀ es, r.otherErrors = some es → errorsHeight es + 1 ≤ k := by
    intro es hes
    unfold fieldsHeight at hr
    rw [hes] at hr
    dsimp only at hr
    omega
  exact fit_struct ⟨some_fit ((fit_status f _).mono hm.2.1), some_fit (fit_str ..), some_fit (fit_str ..),
    opt_fit fun a _ => fit_str f k a, some_fit ((fit_runtime f h1).mono (by omega)),
    some_fit ⟨h3, hm.1⟩, opt_fit fun a ha => (fit_location f (h4 a ha)).mono (by omega), opt_fit fun a _ => fit_str f k a,
    opt_fit fun a _ => fit_str f k a, opt_fit fun a _ => (fit_strs f a).mono (by omega), hp,
    opt_fit fun es hes => (fit_oobs f (h5 es hes)).mono (he es hes),
    opt_fit fun a _ => (fit_u8s f a).mono (by omega), opt_fit fun a _ => (fit_u8s f a).mono (by omega),
    some_fit (fit_nat f k _ h2), trivial⟩

theorem fields_ge (r : SpecFields) : 2 ≤ fieldsHeight r := by
  have := status_ge r.status
  unfold fieldsHeight
  omega

mutual
theorem fit_spec (f : Floats) : ∀ r : ResultSpec, SpecOk f r → Fit f (height r) (encSpec r)
  | .mk r none, h => by
    rw [SpecOk] at h
    rw [encSpec, height]
    have := fields_ge r
    have e : fieldsHeight r = (fieldsHeight r - 1) + 1 := by omega
    rw [e]
    exact fit_specMembers f h (by omega) (by intro j hj; cases hj)
  | .mk r (some past), h => by
    rw [SpecOk] at h
    rw [encSpec, height]
    have hp := fit_specs f past h.2
    have := fields_ge r
    have e : max (fieldsHeight r) (2 + heights past) = max (fieldsHeight r - 1) (1 + heights past) + 1 := by omega
    rw [e]
    refine fit_specMembers f h.1 (by omega) (some_fit ((fit_arr hp).mono (by omega)))
theorem fit_specs (f : Floats) : ∀ rs : List ResultSpec, SpecsOk f rs → ∀ j ∈ encSpecs rs, Fit f (heights rs) j
  | [], _ => by intro j hj; rw [encSpecs] at hj; cases hj
  | r :: rs, h => by
    rw [SpecsOk] at h
    intro j hj
    rw [encSpecs] at hj
    rw [heights]
    rcases List.mem_cons.mp hj with rfl | hj
    · exact (fit_spec f r h.1).mono (by omega)
    · exact (fit_specs f rs h.2 j hj).mono (by omega)
end

theorem specMembers_depth (r : SpecFields) (past : Option Json) : fieldsHeight r ≤ depth (struct (specMembers r past)) := by
  have h1 : 1 + depth (encStatus r.status) ≤ depth (struct (specMembers r past)) :=
    member_depth (name := "status") (by unfold specMembers; find)
  have h2 : 1 + depth (encRuntime r.runtime) ≤ depth (struct (specMembers r past)) :=
    member_depth (name := "runtime") (by unfold specMembers; find)
  have h3 : 1 + depth (.obj r.metadata) ≤ depth (struct (specMembers r past)) :=
    member_depth (name := "meta") (by unfold specMembers; find)
  have h4 := status_depth r.status
  rw [runtime_depth] at h2
  refine Nat.max_le.mpr ⟨by omega, ?_⟩
  split
  · exact Nat.zero_le _
  · rename_i es hes
    have h5 : 1 + depth (.arr (es.map encOob)) ≤ depth (struct (specMembers r past)) := by
      refine member_depth (name := "other_errors") ?_
      unfold specMembers
      rw [hes]
      find
    have := oobs_depth es
    omega

mutual
theorem spec_depth : ∀ r : ResultSpec, height r ≤ depth (encSpec r)
  | .mk r none => by
    rw [encSpec, height]
    exact specMembers_depth r none
  | .mk r (some past) => by
    rw [encSpec, height]
    refine Nat.max_le.mpr ⟨specMembers_depth r _, ?_⟩
    have h : 1 + depth (.arr (encSpecs past)) ≤ depth (struct (specMembers r (some (.arr (encSpecs past))))) :=
      member_depth (name := "past_attempts") (by unfold specMembers; find)
    have h2 := specs_depth past
    have h3 : depth (.arr (encSpecs past)) = 1 + depths (encSpecs past) := by rw [depth]
    omega
theorem specs_depth : ∀ rs : List ResultSpec, heights rs ≤ depths (encSpecs rs)
  | [] => by rw [heights]; exact Nat.zero_le _
  | r :: rs => by
    have h1 := spec_depth r
    have h2 := specs_depth rs
    rw [heights, encSpecs, depths]
    omega
end

theorem decResult_enc {f : Floats} {r : Result} (h : ResultOk f r) : decResult (encResult r) = some r := by
  unfold encResult struct decResult
  dsimp only
  req (decRunnerMeta_enc h.1 h.2.1)
  req (decSpec_enc r.result h.2.2)

theorem height_ge (r : ResultSpec) : 2 ≤ height r := by
  cases r with
  | mk r past =>
    have := fields_ge r
    cases past with
    | none => rw [height]; exact this
    | some past => rw [height]; omega

theorem fit_result (f : Floats) {r : Result} (h : ResultOk f r) : Fit f (height r.result + 1) (encResult r) :=
  fit_struct ⟨some_fit ((fit_runnerMeta f h.1 h.2.1).mono (height_ge _)), some_fit (fit_spec f _ h.2.2), trivial⟩

theorem result_depth (r : Result) : 1 + height r.result ≤ depth (encResult r) :=
  Nat.le_trans (by have := spec_depth r.result; omega) (member_depth (name := "result") (j := encSpec r.result) (by find))

theorem decStdio_enc (o : Stdio) : decStdio (encStdio o) = some o := by
  unfold encStdio struct decStdio
  dsimp only
  req decU8s_enc
  req decU8s_enc

theorem fit_stdio (f : Floats) (o : Stdio) : Fit f 2 (encStdio o) :=
  fit_struct ⟨some_fit (fit_u8s ..), some_fit (fit_u8s ..), trivial⟩

theorem decAssociated_enc {f : Floats} {a : Associated} (h : AssociatedOk f a) : decAssociated (encAssociated a) = some a := by
  unfold encAssociated struct decAssociated
  dsimp only
  req (decBytes_enc h.1)
  req (dec_enc_u32 h.2.1)
  req (decArr_enc fun r hr => decResult_enc (h.2.2 r hr))
  req decStdio_enc
  rw [opt_present_enc a.afterAllTests (by distinct) (by find) (by intro a h; cases h) fun o _ => decStdio_enc o, Option.map_some]

theorem fit_associated (f : Floats) {a : Associated} {k : Nat} (h : AssociatedOk f a) (hk : ∀ r ∈ a.results, height r.result ≤ k) :
    Fit f (max k 2 + 3) (encAssociated a) :=
  fit_struct ⟨some_fit ((fit_bytes f h.1).mono (by omega)), some_fit (fit_nat f _ _ (u32_u64 h.2.1)),
    some_fit ((fit_map (k := k + 1) fun r hr => (fit_result f (h.2.2 r hr)).mono (by have := hk r hr; omega)).mono (by omega)),
    some_fit ((fit_stdio f _).mono (by omega)), some_fit ((fit_opt f fun o _ => fit_stdio f o).mono (by omega)), trivial⟩

theorem associated_depth {a : Associated} {r : Result} (hr : r ∈ a.results) : 3 + height r.result ≤ depth (encAssociated a) := by
  have h1 := result_depth r
  have h2 := arr_depth (List.mem_map_of_mem (f := encResult) hr)
  have h3 : 1 + depth (.arr (a.results.map encResult)) ≤ depth (encAssociated a) := member_depth (name := "results") (by find)
  omega

/-! ## Manifests -/

theorem decMembers_eq (ms : List (String × Json)) :
    decMembers ms = (ms.filter fun p => p.1 = "members").map fun p => decTrees p.2 := by
  induction ms with
  | nil => simp only [decMembers, List.filter_nil, List.map_nil]
  | cons p ms ih =>
    obtain ⟨k, j⟩ := p
    rw [decMembers]
    by_cases hk : k = "members"
    · rw [if_pos hk, List.filter_cons_of_pos (by simpa using hk), ih]
      rfl
    · rw [if_neg hk, List.filter_cons_of_neg (by simpa using hk), ih]

theorem decVariant_enc {names : List String} {name : String} (h : name ∈ names) : decVariant names (.str name) = some name := if_pos h

mutual
theorem decTree_enc : ∀ t : TestOrGroup, decTestOrGroup (encTree t) = some t
  | .test id tags m => by
    rw [encTree, struct, decTestOrGroup]
    req (decVariant_enc (by decide))
    rw [if_pos rfl]
    req decStr_enc
    req decStrs_enc
    req decMeta_enc
  | .group name members tags m => by
    rw [encTree, struct, decTestOrGroup]
    req (decVariant_enc (by decide))
    rw [if_neg (by decide), if_pos rfl]
    req decStr_enc
    req decStrs_enc
    req decMeta_enc
    rw [decMembers_eq, filter_present _ "members" (some (.arr (encForest members))) (by distinct) (by find)]
    show (match [decTrees (.arr (encForest members))] with
      | [some members] => some (TestOrGroup.group name members tags m)
      | _ => none) = _
    rw [decTrees, decForest_enc members]
theorem decForest_enc : ∀ ts : List TestOrGroup, decForest (encForest ts) = some ts
  | [] => by rw [encForest, decForest]
  | t :: ts => by
    rw [encForest, decForest, decTree_enc t, decForest_enc ts]
    rfl
end

mutual
theorem fit_tree (f : Floats) : ∀ t : TestOrGroup, TreeOk f t → Fit f (treeHeight t) (encTree t)
  | .test id tags m, h => by
    rw [TreeOk] at h
    rw [encTree, treeHeight, Nat.add_comm]
    have := obj_depth m
    exact fit_struct ⟨some_fit (fit_str ..), some_fit (fit_str ..), some_fit ((fit_strs f tags).mono this),
      some_fit ⟨h, Nat.le_refl _⟩, trivial⟩
  | .group name members tags m, h => by
    rw [TreeOk] at h
    rw [encTree, treeHeight]
    have := obj_depth m
    have e : max (1 + depth (.obj m)) (2 + forestHeight members) = max (depth (.obj m)) (1 + forestHeight members) + 1 := by omega
    rw [e]
    exact fit_struct ⟨some_fit (fit_str ..), some_fit (fit_str ..),
      some_fit ((fit_arr (fit_forest f members h.1)).mono (by omega)), some_fit ((fit_strs f tags).mono (by omega)),
      some_fit ⟨h.2, by omega⟩, trivial⟩
theorem fit_forest (f : Floats) : ∀ ts : List TestOrGroup, ForestOk f ts → ∀ j ∈ encForest ts, Fit f (forestHeight ts) j
  | [], _ => by intro j hj; rw [encForest] at hj; cases hj
  | t :: ts, h => by
    rw [ForestOk] at h
    intro j hj
    rw [encForest] at hj
    rw [forestHeight]
    rcases List.mem_cons.mp hj with rfl | hj
    · exact (fit_tree f t h.1).mono (by omega)
    · exact (fit_forest f ts h.2 j hj).mono (by omega)
end

mutual
theorem tree_depth : ∀ t : TestOrGroup, treeHeight t ≤ depth (encTree t)
  | .test id tags m => by
    rw [encTree, treeHeight]
    exact member_depth (name := "meta") (by find)
  | .group name members tags m => by
    rw [encTree, treeHeight]
    refine Nat.max_le.mpr ⟨member_depth (name := "meta") (by find), ?_⟩
    refine Nat.le_trans ?_ (member_depth (name := "members") (j := .arr (encForest members)) (by find))
    have h2 := forest_depth members
    have h3 : depth (.arr (encForest members)) = 1 + depths (encForest members) := by rw [depth]
    omega
theorem forest_depth : ∀ ts : List TestOrGroup, forestHeight ts ≤ depths (encForest ts)
  | [] => by rw [forestHeight]; exact Nat.zero_le _
  | t :: ts => by
    have h1 := tree_depth t
    have h2 := forest_depth ts
    rw [forestHeight, encForest, depths]
    omega
end

theorem decManifest_enc (m : Manifest) : decManifest (encManifest m) = some m := by
  unfold encManifest struct decManifest
  simp only [members, Option.bind_some]
  req (show decTrees (.arr (encForest m.members)) = some m.members by rw [decTrees]; exact decForest_enc m.members)
  req decMeta_enc

theorem fit_manifest (f : Floats) {m : Manifest} (h : ForestOk f m.members) (h' : MetadataOk f m.initMeta) :
    Fit f (manifestHeight m) (encManifest m) := by
  have := obj_depth m.initMeta
  have e : manifestHeight m = max (depth (.obj m.initMeta)) (1 + forestHeight m.members) + 1 := by
    unfold manifestHeight
    omega
  rw [e]
  exact fit_struct ⟨some_fit ((fit_arr (fit_forest f _ h)).mono (by omega)), some_fit ⟨h', by omega⟩, trivial⟩

theorem manifest_depth (m : Manifest) : manifestHeight m ≤ depth (encManifest m) := by
  refine Nat.max_le.mpr ⟨member_depth (name := "init_meta") (by find), ?_⟩
  refine Nat.le_trans ?_ (member_depth (name := "members") (j := .arr (encForest m.members)) (by find))
  have h2 := forest_depth m.members
  have h3 : depth (.arr (encForest m.members)) = 1 + depths (encForest m.members) := by rw [depth]
  omega

theorem manifest_ge (m : Manifest) : 2 ≤ manifestHeight m := by
  have := obj_depth m.initMeta
  unfold manifestHeight
  omega

theorem decReported_enc {r : Reported} (h : VersionOk r.protocol) : decReported (encReported r) = some r := by
  unfold encReported struct decReported
  dsimp only
  req decManifest_enc
  req (decVersion_enc h)
  req decSpecification_enc

theorem decManifestResult_manifest (x : Json) : decManifestResult (.obj [("Manifest", x)]) = (decReported x).map .manifest := rfl
theorem decManifestResult_error (x : Json) : decManifestResult (.obj [("TestRunnerError", x)]) = decRunnerError x := rfl

theorem decManifestResult_enc {f : Floats} {r : ManifestResult} (h : ManifestResultOk f r) :
    decManifestResult (encManifestResult r) = some r := by
  cases r with
  | manifest r =>
    unfold encManifestResult
    dsimp only
    rw [decManifestResult_manifest, decReported_enc h.2.2]
    rfl
  | runnerError e o =>
    unfold encManifestResult
    dsimp only
    rw [decManifestResult_error]
    unfold struct decRunnerError
    dsimp only
    req decStr_enc
    req decStdio_enc

/-- How deep the report of a manifest is. -/
def reportHeight : ManifestResult → Nat
  | .manifest r => 2 + manifestHeight r.manifest
  | .runnerError .. => 4

theorem fit_manifestResult (f : Floats) {r : ManifestResult} (h : ManifestResultOk f r) :
    Fit f (reportHeight r) (encManifestResult r) := by
  cases r with
  | manifest r =>
    have := manifest_ge r.manifest
    show Fit f (2 + manifestHeight r.manifest) _
    rw [Nat.add_comm]
    exact fit_obj1 (fit_struct ⟨some_fit (fit_manifest f h.1 h.2.1), some_fit ((fit_version f h.2.2).mono (by omega)),
      some_fit ((fit_specification f _).mono (by omega)), trivial⟩)
  | runnerError e o => exact fit_obj1 (fit_struct ⟨some_fit (fit_str ..), some_fit (fit_stdio f o), trivial⟩)

theorem reported_depth (r : Reported) : 2 + manifestHeight r.manifest ≤ depth (encManifestResult (.manifest r)) := by
  unfold encManifestResult
  dsimp only
  rw [obj1_depth]
  have h1 := manifest_depth r.manifest
  have h2 : 1 + depth (encManifest r.manifest) ≤ depth (encReported r) := member_depth (name := "manifest") (by find)
  omega

/-! ## Requests -/

theorem decMessage_negotiator (x : Json) : decMessage (.obj [("NegotiatorInfo", x)]) = decNegotiatorInfo x := rfl
theorem decMessage_manifest (x : Json) : decMessage (.obj [("ManifestResult", x)]) =
    (decPair decStr decManifestResult x).map fun p => .manifestResult p.1 p.2 := rfl
theorem decMessage_results (x : Json) : decMessage (.obj [("WorkerResult", x)]) =
    (decPair decStr (decArr decAssociated) x).map fun p => .workerResult p.1 p.2 := rfl

theorem decPair_enc {α β : Type} {dec : Json → Option α} {dec' : Json → Option β} {i j : Json} {a : α} {b : β} (h : dec i = some a)
    (h' : dec' j = some b) : decPair dec dec' (.arr [i, j]) = some (a, b) := by
  unfold decPair
  dsimp only
  rw [h, Option.bind_some, h', Option.map_some]

theorem decMessage_enc {f : Floats} {m : Message} (h : MessageOk f m) : decMessage (encMessage m) = some m := by
  cases m with
  | manifestResult run r =>
    unfold encMessage
    dsimp only
    rw [decMessage_manifest, decPair_enc (decStr_enc run) (decManifestResult_enc (f := f) h)]
    rfl
  | workerResult run rs =>
    unfold encMessage
    dsimp only
    rw [decMessage_results, decPair_enc (decStr_enc run) (decArr_enc fun a ha => decAssociated_enc (f := f) (h a ha))]
    rfl
  | negotiatorInfo run =>
    unfold encMessage
    dsimp only
    rw [decMessage_negotiator]
    unfold struct decNegotiatorInfo
    dsimp only
    req decStr_enc
    req (show decDeprecations (.arr []) = some () from rfl)
  | _ => rfl

theorem decRequest_enc {f : Floats} {r : Request} (h : RequestOk f r) : decRequest (encRequest r) = some r := by
  unfold encRequest struct decRequest
  dsimp only
  req (decEntity_enc h.1)
  req (decMessage_enc h.2)

theorem fit_manifestMessage (f : Floats) {run : String} {r : ManifestResult} (h : ManifestResultOk f r) :
    Fit f (reportHeight r + 2) (encMessage (.manifestResult run r)) := by
  refine fit_obj1 (fit_arr ?_)
  simp only [List.mem_cons, List.not_mem_nil, or_false]
  rintro j (rfl | rfl)
  · exact fit_str ..
  · exact fit_manifestResult f h

theorem fit_associateds (f : Floats) {rs : List Associated} {k : Nat} (h : ∀ a ∈ rs, AssociatedOk f a)
    (hk : ∀ a ∈ rs, ∀ r ∈ a.results, height r.result ≤ k) : Fit f (max k 2 + 4) (.arr (rs.map encAssociated)) :=
  fit_map fun a ha => fit_associated f (h a ha) (hk a ha)

theorem fit_resultsMessage (f : Floats) {run : String} {rs : List Associated} {k : Nat} (h : ∀ a ∈ rs, AssociatedOk f a)
    (hk : ∀ a ∈ rs, ∀ r ∈ a.results, height r.result ≤ k) : Fit f (max k 2 + 6) (encMessage (.workerResult run rs)) := by
  refine fit_obj1 (fit_arr ?_)
  simp only [List.mem_cons, List.not_mem_nil, or_false]
  rintro j (rfl | rfl)
  · exact fit_str ..
  · exact fit_associateds f h hk

theorem fit_request (f : Floats) {e : RunStateDoc.Entity} {m : Message} {k : Nat} (he : EntityOk e) (hm : Fit f k (encMessage m)) :
    Fit f (max k 3 + 1) (encRequest ⟨e, m⟩) :=
  fit_struct ⟨some_fit ((fit_entity f he).mono (by omega)), some_fit (hm.mono (by omega)), trivial⟩

theorem request_depth (e : RunStateDoc.Entity) (m : Message) : 1 + depth (encMessage m) ≤ depth (encRequest ⟨e, m⟩) :=
  member_depth (name := "message") (by find)

theorem resultsMessage_depth {run : String} {rs : List Associated} {a : Associated} {r : Result} (ha : a ∈ rs) (hr : r ∈ a.results) :
    6 + height r.result ≤ depth (encMessage (.workerResult run rs)) := by
  unfold encMessage
  dsimp only
  rw [obj1_depth]
  have h1 := associated_depth hr
  have h2 := arr_depth (List.mem_map_of_mem (f := encAssociated) ha)
  have h3 : 1 + depth (.arr (rs.map encAssociated)) ≤ depth (.arr [.str run, .arr (rs.map encAssociated)]) :=
    arr_depth (List.mem_cons_of_mem _ (List.mem_cons_self ..))
  omega

theorem manifestMessage_depth (run : String) (r : Reported) :
    4 + manifestHeight r.manifest ≤ depth (encMessage (.manifestResult run (.manifest r))) := by
  unfold encMessage
  dsimp only
  rw [obj1_depth]
  have h1 := reported_depth r
  have h3 : 1 + depth (encManifestResult (.manifest r)) ≤ depth (.arr [.str run, encManifestResult (.manifest r)]) :=
    arr_depth (List.mem_cons_of_mem _ (List.mem_cons_self ..))
  omega

/-- The messages without metadata. -/
theorem fit_plain (f : Floats) {m : Message} (h1 : ∀ run r, m ≠ .manifestResult run r) (h2 : ∀ run rs, m ≠ .workerResult run rs) :
    Fit f 3 (encMessage m) := by
  cases m with
  | healthCheck => exact fit_str ..
  | activeTestRuns => exact fit_str ..
  | negotiatorInfo run =>
    exact (fit_obj1 (fit_struct (k := 1) ⟨some_fit (fit_str ..), some_fit (fit_arr (by intro j hj; cases hj)), trivial⟩))
  | cancelRun run => exact fit_obj1 (fit_str ..)
  | manifestResult run r => exact absurd rfl (h1 run r)
  | workerResult run rs => exact absurd rfl (h2 run rs)
  | workerRanAllTests run => exact fit_obj1 (fit_str ..)
  | testResults run => exact fit_obj1 (fit_str ..)
  | runStatus run => exact fit_obj1 (fit_str ..)

/-! ## What the queue stores and hands out -/

theorem decLine_results (x : Json) : decLine (.obj [("Results", x)]) = (decArr decAssociated x).map .results := rfl
theorem decLine_summary (x : Json) : decLine (.obj [("Summary", x)]) = decSummary x := rfl

theorem decLine_enc {f : Floats} {l : Line} (h : LineOk f l) : decLine (encLine l) = some l := by
  cases l with
  | results rs =>
    unfold encLine
    dsimp only
    rw [decLine_results, decArr_enc fun a ha => decAssociated_enc (f := f) (h a ha)]
    rfl
  | summary n v s =>
    unfold encLine
    dsimp only
    rw [decLine_summary]
    have e : decRunnerInfo (struct [("protocol_version", some (encVersion v)), ("specification", some (encSpecification s))]) =
        some (v, s) := by
      unfold struct decRunnerInfo
      dsimp only
      req (decVersion_enc h.2)
      req decSpecification_enc
    have e' : ∀ ms, decSummary (.obj ms) = (reqField "manifest_size_nonce" ms decU64).bind fun n =>
      (reqField "native_runner_info" ms decRunnerInfo).map fun p => .summary n p.1 p.2 := fun _ => rfl
    rw [encSummary, struct, e']
    req (dec_enc_nat h.1)
    req e

theorem fit_lineResults (f : Floats) {rs : List Associated} {k : Nat} (h : ∀ a ∈ rs, AssociatedOk f a)
    (hk : ∀ a ∈ rs, ∀ r ∈ a.results, height r.result ≤ k) : Fit f (max k 2 + 5) (encLine (.results rs)) :=
  fit_obj1 (fit_associateds f h hk)

theorem fit_summary (f : Floats) {n : Nat} {v : Version} {s : Specification} (h : LineOk f (.summary n v s)) :
    Fit f 4 (encLine (.summary n v s)) :=
  fit_obj1 (fit_struct ⟨some_fit (fit_nat f 2 _ h.1),
    some_fit (fit_struct ⟨some_fit (fit_version f h.2), some_fit (fit_specification f s), trivial⟩), trivial⟩)

theorem decTestCase_enc (t : TestCase) : decTestCase (encTestCase t) = some t := by
  unfold encTestCase struct decTestCase
  dsimp only
  req decStr_enc
  req decMeta_enc
  have e : ∀ ids : List String, decFocus (.obj (present [("test_ids", some (encStrs ids))])) = some ids := by
    intro ids
    unfold decFocus
    dsimp only
    rw [req_present (by distinct) (by find), decStrs_enc]
  opt t.focus, fun ids _ => e ids

/-- How deep a test is. -/
def testHeight (t : Test) : Nat := max (depth (.obj t.testCase.metadata)) 2

theorem fit_focus (f : Floats) (ids : List String) : Fit f 2 (.obj (present [("test_ids", some (encStrs ids))])) :=
  fit_struct ⟨some_fit (fit_strs f ids), trivial⟩

theorem fit_testCase (f : Floats) {t : Test} (h : TestOk f t) : Fit f (testHeight t + 1) (encTestCase t.testCase) :=
  fit_struct ⟨some_fit (fit_str ..), some_fit ⟨h.2.2, by unfold testHeight; omega⟩,
    opt_fit fun ids _ => (fit_focus f ids).mono (by unfold testHeight; omega), trivial⟩

theorem decTest_enc {f : Floats} {t : Test} (h : TestOk f t) : decTest (encTest t) = some t := by
  have e : decTestSpec (encTestSpec t) = some (t.workId, t.testCase) := by
    unfold encTestSpec struct decTestSpec
    dsimp only
    req (decBytes_enc h.1)
    req decTestCase_enc
  unfold encTest struct decTest
  dsimp only
  req e
  req (dec_enc_u32 h.2.1)

theorem fit_test (f : Floats) {t : Test} (h : TestOk f t) : Fit f (testHeight t + 3) (encTest t) :=
  fit_struct ⟨some_fit (fit_struct ⟨some_fit ((fit_bytes f h.1).mono (by omega)), some_fit (fit_testCase f h), trivial⟩),
    some_fit (fit_nat f _ _ (u32_u64 h.2.1)), trivial⟩

theorem decBundle_enc {f : Floats} {b : Bundle} (h : ∀ t ∈ b.work, TestOk f t) : decBundle (encBundle b) = some b := by
  unfold encBundle struct decBundle
  dsimp only
  req (decArr_enc fun t ht => decTest_enc (h t ht))
  req decBool_enc

theorem fit_bundle (f : Floats) {b : Bundle} {k : Nat} (h : ∀ t ∈ b.work, TestOk f t) (hk : ∀ t ∈ b.work, testHeight t ≤ k) :
    Fit f (k + 5) (encBundle b) :=
  fit_struct ⟨some_fit (fit_map fun t ht => (fit_test f (h t ht)).mono (by have := hk t ht; omega)), some_fit (fit_bool ..), trivial⟩

theorem decNextTests_bundle (x : Json) : decNextTests (.obj [("Bundle", x)]) = decBundle x := rfl

theorem decNextTests_enc {f : Floats} {b : Bundle} (h : ∀ t ∈ b.work, TestOk f t) : decNextTests (encNextTests b) = some b := by
  unfold encNextTests
  rw [decNextTests_bundle]
  exact decBundle_enc h

theorem decRetryManifest_manifest (x : Json) : decRetryManifest (.obj [("Manifest", x)]) = (decBundle x).map .manifest := rfl

theorem decRetryManifest_enc {f : Floats} {r : RetryManifest} (h : ∀ b, r = .manifest b → ∀ t ∈ b.work, TestOk f t) :
    decRetryManifest (encRetryManifest r) = some r := by
  cases r with
  | manifest b =>
    unfold encRetryManifest
    dsimp only
    rw [decRetryManifest_manifest, decBundle_enc (f := f) (h b rfl)]
    rfl
  | notYetPersisted => rfl
  | error e => cases e <;> rfl

theorem decContext_init (x : Json) : decContext (.obj [("InitContext", x)]) = (decInit x).map .init := rfl
theorem decContext_completed (x : Json) :
    decContext (.obj [("RunAlreadyCompleted", x)]) = (decCompleted x).map .runAlreadyCompleted := rfl

theorem decContext_enc (c : Context) : decContext (encContext c) = some c := by
  cases c with
  | waitingForManifest => rfl
  | init m =>
    unfold encContext
    dsimp only
    rw [decContext_init]
    unfold struct decInit
    dsimp only
    req decMeta_enc
  | runAlreadyCompleted b =>
    unfold encContext
    dsimp only
    rw [decContext_completed]
    unfold struct decCompleted
    dsimp only
    req decBool_enc

theorem decView_enc {f : Floats} {v : View} (h : ∀ t ∈ v.items, TestOk f t) (h' : ∀ t ∈ v.assigned, TagOk t) :
    decView (encView v) = some v := by
  unfold encView struct decView
  dsimp only
  req (decArr_enc fun t ht => decTest_enc (h t ht))
  req (decArr_enc fun t ht => decTag_enc (h' t ht))

theorem fit_view (f : Floats) {v : View} {k : Nat} (h : ∀ t ∈ v.items, TestOk f t) (h' : ∀ t ∈ v.assigned, TagOk t)
    (hk : ∀ t ∈ v.items, testHeight t ≤ k) : Fit f (k + 5) (encView v) :=
  fit_struct ⟨some_fit (fit_map fun t ht => (fit_test f (h t ht)).mono (by have := hk t ht; omega)),
    some_fit ((fit_map fun t ht => fit_tag f (h' t ht)).mono (by omega)), trivial⟩

/-! ## Requests of runners, and negotiation -/

theorem decWorkMessage_init (x : Json) : decWorkMessage (.obj [("InitContext", x)]) = decInitContext x := rfl
theorem decWorkMessage_retry (x : Json) : decWorkMessage (.obj [("RetryManifestPartition", x)]) = decPartition x := rfl

theorem decWorkMessage_enc {m : WorkMessage} (h : ∀ run e, m = .retryManifest run e → EntityOk e) :
    decWorkMessage (encWorkMessage m) = some m := by
  cases m with
  | healthCheck => rfl
  | nextTests run => rfl
  | initContext run =>
    unfold encWorkMessage
    dsimp only
    rw [decWorkMessage_init]
    unfold struct decInitContext
    dsimp only
    req decStr_enc
  | retryManifest run e =>
    unfold encWorkMessage
    dsimp only
    rw [decWorkMessage_retry]
    unfold struct decPartition
    dsimp only
    req decStr_enc
    req (decEntity_enc (h run e rfl))

theorem fit_workMessage (f : Floats) {m : WorkMessage} (h : ∀ run e, m = .retryManifest run e → EntityOk e) :
    Fit f 5 (encWorkMessage m) := by
  cases m with
  | healthCheck => exact fit_str ..
  | nextTests run => exact fit_obj1 (fit_str ..)
  | initContext run => exact fit_obj1 (fit_struct ⟨some_fit (fit_str ..), trivial⟩)
  | retryManifest run e => exact fit_obj1 (fit_struct ⟨some_fit (fit_str ..), some_fit (fit_entity f (h run e rfl)), trivial⟩)

theorem decWorkRequest_enc {r : WorkRequest} (he : EntityOk r.entity) (h : ∀ run e, r.message = .retryManifest run e → EntityOk e) :
    decWorkRequest (encWorkRequest r) = some r := by
  unfold encWorkRequest struct decWorkRequest
  dsimp only
  req (decEntity_enc he)
  req (decWorkMessage_enc h)

theorem fit_workRequest (f : Floats) {r : WorkRequest} (he : EntityOk r.entity)
    (h : ∀ run e, r.message = .retryManifest run e → EntityOk e) : Fit f 6 (encWorkRequest r) :=
  fit_struct ⟨some_fit ((fit_entity f he).mono (by decide)), some_fit (fit_workMessage f h), trivial⟩

theorem decStrategy_enc (s : Strategy) : decStrategy (encStrategy s) = some s := by cases s <;> rfl

theorem decNonZero_enc {n : Nat} (h : 0 < n) (h' : U64 n) : decNonZero (.int n) = some n := by
  unfold decNonZero
  rw [dec_enc_nat h', Option.bind_some, if_neg (by omega)]

theorem decInvoke_enc {w : Invoke} (h : InvokeOk w) : decInvoke (encInvoke w) = some w := by
  have e : ∀ ms, decInvoke (.obj ms) = (reqField "run_id" ms decStr).bind fun run =>
    (reqField "batch_size_hint" ms decNonZero).bind fun hint =>
    (reqField "test_strategy" ms decStrategy).bind fun strategy =>
    (reqField "test_command_hash" ms (decBytes 32)).map fun hash => ⟨run, hint, strategy, hash⟩ := fun _ => rfl
  unfold encInvoke struct
  rw [e]
  req decStr_enc
  req (decNonZero_enc h.1 h.2.1)
  req decStrategy_enc
  req (decBytes_enc h.2.2)

theorem fit_invoke (f : Floats) {w : Invoke} (h : InvokeOk w) : Fit f 2 (encInvoke w) :=
  fit_struct ⟨some_fit (fit_str ..), some_fit (fit_nat f 1 _ h.2.1), some_fit (by cases w.strategy <;> exact fit_str ..),
    some_fit (fit_bytes f h.2.2), trivial⟩

theorem decToNegotiator_attach (x : Json) : decToNegotiator (.obj [("WantsToAttach", x)]) = (decAttach x).map some := rfl

theorem decNegotiation_enc {n : Negotiation} (he : EntityOk n.entity) (h : ∀ w, n.invoke = some w → InvokeOk w) :
    decNegotiation (encNegotiation n) = some n := by
  obtain ⟨e, w⟩ := n
  cases w with
  | none =>
    unfold encNegotiation struct decNegotiation
    dsimp only
    req (decEntity_enc he)
    req (show decToNegotiator (.str "HealthCheck") = some none from rfl)
  | some w =>
    have hd : decToNegotiator (.obj [("WantsToAttach", .obj (present [("invoke_data", some (encInvoke w))]))]) = some (some w) := by
      rw [decToNegotiator_attach]
      unfold decAttach
      dsimp only
      req (decInvoke_enc (h w rfl))
    unfold encNegotiation struct decNegotiation
    dsimp only
    req (decEntity_enc he)
    req hd

theorem fit_negotiation (f : Floats) {n : Negotiation} (he : EntityOk n.entity) (h : ∀ w, n.invoke = some w → InvokeOk w) :
    Fit f 5 (encNegotiation n) := by
  obtain ⟨e, w⟩ := n
  cases w with
  | none => exact fit_struct ⟨some_fit ((fit_entity f he).mono (by decide)), some_fit (fit_str ..), trivial⟩
  | some w =>
    exact fit_struct ⟨some_fit ((fit_entity f he).mono (by decide)),
      some_fit (fit_obj1 (fit_struct ⟨some_fit (fit_invoke f (h w rfl)), trivial⟩)), trivial⟩

theorem decNegotiated_completed (x : Json) :
    decNegotiated (.obj [("RunAlreadyCompleted", x)]) = (decExitCode x).map .runAlreadyCompleted := rfl
theorem decNegotiated_cancelled (x : Json) : decNegotiated (.obj [("RunCancelled", x)]) = (decCancelled x).map .runCancelled := rfl
theorem decNegotiated_context (x : Json) : decNegotiated (.obj [("ExecutionContext", x)]) = decExecution x := rfl

theorem decReason_enc (r : Reason) : decReason (encReason r) = some r := by cases r <;> rfl

theorem decRunKind_fresh (x : Json) : decRunKind (.obj [("Fresh", x)]) = decFresh x := rfl

theorem decRunKind_enc (k : RunKind) : decRunKind (encRunKind k) = some k := by
  cases k with
  | fresh b =>
    unfold encRunKind
    dsimp only
    rw [decRunKind_fresh]
    unfold struct decFresh
    dsimp only
    req decBool_enc
  | retryAndContinue => rfl

theorem decAssigned_enc (k : RunKind) (d : Bool) : decAssigned (encAssigned k d) = some (k, d) := by
  unfold encAssigned struct decAssigned
  dsimp only
  req decRunKind_enc
  req decBool_enc

theorem decAddr_enc {a : Address.Sock} (h : Spec.Messages.AddrOk a) : decAddr (encAddr a) = some a := by
  have := (Address.parse_iff _ _).2 (Address.write_says h.1)
  rw [h.2] at this
  show Address.parse (String.ofList (Address.write a)).toList = some a
  rw [String.toList_ofList]
  exact this

theorem decNegotiated_enc {n : Negotiated} (h : ∀ c, n = .runAlreadyCompleted c → -2 ^ 31 ≤ c ∧ c < 2 ^ 31)
    (ha : ∀ w q k d, n = .context w q k d → Spec.Messages.AddrOk w ∧ Spec.Messages.AddrOk q) :
    decNegotiated (encNegotiated n) = some n := by
  cases n with
  | runAlreadyCompleted c =>
    have hc : decI32 (.int c) = some c := by
      have := h c rfl
      simp only [decI32, this, and_self, if_true]
    unfold encNegotiated
    dsimp only
    rw [decNegotiated_completed]
    unfold struct decExitCode
    dsimp only
    req hc
  | runCancelled r =>
    unfold encNegotiated
    dsimp only
    rw [decNegotiated_cancelled]
    unfold struct decCancelled
    dsimp only
    req decReason_enc
  | context w q k d =>
    unfold encNegotiated
    dsimp only
    rw [decNegotiated_context]
    unfold struct decExecution
    dsimp only
    obtain ⟨hw, hq⟩ := ha w q k d rfl
    req (decAddr_enc hw)
    req (decAddr_enc hq)
    req decAssigned_enc
  | runUnknown => rfl
  | fatalError e => rfl

theorem fit_negotiated (f : Floats) {n : Negotiated} (h : ∀ c, n = .runAlreadyCompleted c → -2 ^ 31 ≤ c ∧ c < 2 ^ 31) :
    Fit f 5 (encNegotiated n) := by
  cases n with
  | runAlreadyCompleted c =>
    have hc : Fit f 3 (.int c) := by
      have := h c rfl
      exact ⟨by simp only [Holdable]; omega, by simp only [depth]; omega⟩
    exact fit_obj1 (fit_struct ⟨some_fit hc, trivial⟩)
  | runCancelled r =>
    exact fit_obj1 (fit_struct ⟨some_fit (by cases r <;> exact fit_str ..), trivial⟩)
  | context w q k d =>
    have hk : Fit f 2 (encRunKind k) := by
      cases k with
      | fresh b => exact fit_obj1 (fit_struct ⟨some_fit (fit_bool ..), trivial⟩)
      | retryAndContinue => exact fit_str ..
    exact fit_obj1 (fit_struct ⟨some_fit (fit_str ..), some_fit (fit_str ..),
      some_fit (fit_struct ⟨some_fit hk, some_fit (fit_bool ..), trivial⟩), trivial⟩)
  | runUnknown => exact fit_str ..
  | fatalError e => exact fit_obj1 (fit_str ..)

end Abq.Messages
