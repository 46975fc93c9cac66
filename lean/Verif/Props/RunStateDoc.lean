import Verif.Model.RunStateDoc

/-! # Run state survives the remote store; incompatible versions are not misread (C24) -/

namespace Abq.Props
open Abq.RunStateDoc

/-- `name` is a member of the object exactly once, with this value. -/
def HasMember (ms : List (String × Json)) (name : String) (j : Json) : Prop :=
  ms.filter (fun p => p.1 = name) = [(name, j)]

theorem decNat_ofNat (bound n : Nat) (h : n < bound) : decNat bound (.int (n : Nat)) = some n := by
  have : (0 : Int) ≤ n ∧ (n : Int) < bound := by omega
  simp only [decNat, this, and_self, if_true, Int.toNat_natCast]

theorem decU32_ofNat (n : Nat) (h : n < u32Bound) : decU32 (.int (n : Nat)) = some n :=
  decNat_ofNat _ n h

theorem mapM_bytes (l : List Nat) (h : ∀ b ∈ l, byte b) :
    (l.map (fun b : Nat => Json.int b)).mapM (decNat 256) = some l := by
  induction l with
  | nil => rfl
  | cons b l ih =>
    simp only [List.map_cons, List.mapM_cons, decNat_ofNat 256 b (h b (by simp)),
      ih (fun x hx => h x (by simp [hx]))]
    rfl

theorem decBytes_enc (n : Nat) (l : List Nat) (hn : l.length = n) (h : ∀ b ∈ l, byte b) :
    decBytes n (encBytes l) = some l := by
  simp [decBytes, encBytes, hn, mapM_bytes l h]

theorem decTag_enc (t : Tag) (h : RunStateDoc.Tag.InRange t) : decTag (encTag t) = some t := by
  cases t with
  | runner r =>
    simp only [RunStateDoc.Tag.InRange] at h
    simp only [encTag, decTag, decWorkerRunner, decU32_ofNat _ h.1, decU32_ofNat _ h.2,
      if_true, Option.bind_some, Option.map_some]
  | localClient => simp [encTag, decTag]
  | externalClient => simp [encTag, decTag]

theorem decEntity_enc (e : RunStateDoc.Entity) (h : e.InRange) : decEntity (encEntity e) = some e := by
  obtain ⟨h1, h2, h3⟩ := h
  simp [encEntity, decEntity, reqField, field, decBytes_enc 16 e.id h1 h2, decTag_enc e.tag h3]

theorem decEntities_enc (l : List RunStateDoc.Entity) (h : ∀ e ∈ l, e.InRange) :
    (l.map encEntity).mapM decEntity = some l := by
  induction l with
  | nil => rfl
  | cons e l ih =>
    simp [List.mapM_cons, decEntity_enc e (h e (by simp)), ih (fun x hx => h x (by simp [hx]))]

theorem decDoc_enc {m : Meta} (version : Nat) (hv : version < u32Bound) (s : RunStateDoc.RunState m)
    (h : s.InRange) : decDoc m (encDoc version s) = some (version, s) := by
  obtain ⟨h1, h2, h3⟩ := h
  obtain ⟨c, md, ws, hash⟩ := s
  dsimp only at h1 h2 h3
  have hc : decI32 (.int c) = some c := by simp only [decI32, h1, and_self, if_true]
  have hw : decEntities (.arr (ws.map encEntity)) = some ws := decEntities_enc ws h2
  cases hash with
  | none =>
    simp [encDoc, decDoc, reqField, optField, field, decU32_ofNat _ hv, hc, m.roundtrip, hw]
  | some b =>
    have hb := h3 b rfl
    have hdec := decBytes_enc 32 b hb.1 hb.2
    have hne : ∀ j, encBytes b = j → j ≠ .null := by rintro j rfl; simp [encBytes]
    have ho : ∀ ms, field "test_command_hash" ms = some (some (encBytes b)) →
        optField "test_command_hash" ms (decBytes 32) = some (some b) := by
      intro ms hf
      unfold optField
      rw [hf]
      split
      · simp_all
      · simp_all
      · rename_i heq
        simp [encBytes] at heq
      · rename_i heq
        simp only [Option.some.injEq] at heq
        rw [← heq, hdec]
        rfl
    have ho' := ho [("schema_version", .int version), ("new_worker_exit_code", .int c),
      ("init_metadata", m.enc md), ("seen_workers", .arr (ws.map encEntity)),
      ("test_command_hash", encBytes b)] (by simp [field])
    simp only [encDoc, decDoc, List.cons_append, List.nil_append, ho']
    simp [reqField, field, decU32_ofNat _ hv, hc, m.roundtrip, hw]

/-- C24: a run state stored by the queue is found, and is the one stored. -/
theorem C24_round_trip (m : Meta) (t : Text) (s : RunStateDoc.RunState m) (h : s.InRange)
    (ht : t.ok (encDoc 1 s)) : tryLoad m t (.bytes (serialize t s)) = .found s := by
  have ht := t.roundtrip _ ht
  simp [tryLoad, deserialize, serialize, currentVersion, ht, decDoc_enc 1 (by decide) s h]

/-- C24: a document of another version that lacks a part of the state, or has one twice or of another
shape, is incompatible. -/
theorem C24_other_version_incompatible (m : Meta) (t : Text) (b : List UInt8)
    (ms : List (String × Json)) (v : Nat) (hp : t.parse b = some (.obj ms))
    (hv : HasMember ms "schema_version" (.int v)) (hrange : v < 2 ^ 32) (hother : v ≠ 1)
    (hshape : (∀ j, HasMember ms "new_worker_exit_code" j → decI32 j = none) ∨
      (∀ j, HasMember ms "init_metadata" j → m.dec j = none) ∨
      (∀ j, HasMember ms "seen_workers" j → decEntities j = none)) :
    tryLoad m t (.bytes b) = .incompatible v := by
  have hreq : ∀ {α : Type} (name : String) (dec : Json → Option α),
      (∀ j, HasMember ms name j → dec j = none) → reqField name ms dec = none := by
    intro α name dec hd
    unfold reqField field
    split
    · rename_i j heq
      split at heq
      · simp at heq
      · rename_i p hf
        simp only [Option.some.injEq] at heq
        subst heq
        have hmem : p ∈ ms.filter (fun p => p.1 = name) := by simp [hf]
        simp only [List.mem_filter, decide_eq_true_eq] at hmem
        refine hd p.2 ?_
        rw [HasMember, hf, ← hmem.2]
      · simp at heq
    · rfl
  have hdoc : decDoc m (.obj ms) = none := by
    unfold decDoc
    rcases hshape with h | h | h <;>
      simp only [hreq _ _ h, Option.bind_none, Option.bind_fun_none]
  have hver : decVersion (.obj ms) = some v := by
    unfold HasMember at hv
    simp [decVersion, reqField, field, hv, decU32_ofNat _ hrange]
  simp [tryLoad, deserialize, hp, hdoc, hver, currentVersion, hother]

/-- C24: what is found is what the members of the document say: a document is never taken for a run that
lacks one of them. -/
theorem C24_found_has_all_parts (m : Meta) (t : Text) (b : List UInt8) (s : RunStateDoc.RunState m)
    (h : tryLoad m t (.bytes b) = .found s) :
    ∃ ms, t.parse b = some (.obj ms) ∧
      (∃ v, v < 2 ^ 32 ∧ HasMember ms "schema_version" (.int v)) ∧
      HasMember ms "new_worker_exit_code" (.int s.newWorkerExitCode) ∧
      (∃ j, HasMember ms "init_metadata" j ∧ m.dec j = some s.initMetadata) ∧
      (∃ l, HasMember ms "seen_workers" (.arr l) ∧ l.map decEntity = s.seenWorkers.map some) ∧
      (∀ hash, s.testCommandHash = some hash →
        ∃ l, HasMember ms "test_command_hash" (.arr l) ∧ l.map (decNat 256) = hash.map some ∧
          l.length = 32) := by
  have hfield : ∀ (name : String) (ms : List (String × Json)) (j : Json),
      field name ms = some (some j) → HasMember ms name j := by
    intro name ms j hf
    unfold field at hf
    split at hf
    · simp at hf
    · rename_i p hp
      simp only [Option.some.injEq] at hf
      subst hf
      have hmem : p ∈ ms.filter (fun p => p.1 = name) := by simp [hp]
      simp only [List.mem_filter, decide_eq_true_eq] at hmem
      rw [HasMember, hp, ← hmem.2]
    · simp at hf
  have hreq : ∀ {α : Type} (name : String) (ms : List (String × Json)) (dec : Json → Option α) (x : α),
      reqField name ms dec = some x → ∃ j, HasMember ms name j ∧ dec j = some x := by
    intro α name ms dec x hr
    unfold reqField at hr
    split at hr
    · rename_i j hf
      exact ⟨j, hfield _ _ _ hf, hr⟩
    · simp at hr
  have hmapM : ∀ {α : Type} (dec : Json → Option α) (l : List Json) (r : List α),
      l.mapM dec = some r → l.map dec = r.map some := by
    intro α dec l
    induction l with
    | nil => intro r hr; simp at hr; simp [← hr]
    | cons a l ih =>
      intro r hr
      simp only [List.mapM_cons, Option.bind_eq_bind, Option.pure_def, Option.bind_eq_some_iff] at hr
      obtain ⟨x, hx, xs, hxs, hr⟩ := hr
      simp only [Option.some.injEq] at hr
      subst hr
      simp [hx, ih _ hxs]
  simp only [tryLoad, deserialize] at h
  cases hp : t.parse b with
  | none => simp [hp] at h
  | some j =>
    simp only [hp] at h
    cases hd : decDoc m j with
    | none =>
      simp only [hd] at h
      cases hv : decVersion j with
      | none => simp [hv] at h
      | some v =>
        simp only [hv] at h
        by_cases hcur : v ≠ currentVersion <;> simp [hcur] at h
    | some p =>
      obtain ⟨v, s'⟩ := p
      simp only [hd, Loaded.found.injEq] at h
      subst h
      cases j with
      | obj ms =>
        refine ⟨ms, rfl, ?_⟩
        simp only [decDoc] at hd
        simp only [Option.bind_eq_some_iff, Option.map_eq_some_iff, Prod.mk.injEq] at hd
        · obtain ⟨v', hv, c, hc, md, hm, ws, hw, hh, ho, -, rfl⟩ := hd
          obtain ⟨jv, hv1, hv2⟩ := hreq _ _ _ _ hv
          obtain ⟨jc, hc1, hc2⟩ := hreq _ _ _ _ hc
          obtain ⟨jw, hw1, hw2⟩ := hreq _ _ _ _ hw
          refine ⟨?_, ?_, hreq _ _ _ _ hm, ?_, ?_⟩
          · cases jv <;> simp [decU32, decNat] at hv2
            rename_i n
            have hb : (u32Bound : Int) = 4294967296 := rfl
            refine ⟨n.toNat, by omega, ?_⟩
            have : ((n.toNat : Nat) : Int) = n := by omega
            rw [this]
            exact hv1
          · cases jc <;> simp [decI32] at hc2
            obtain ⟨-, rfl⟩ := hc2
            exact hc1
          · cases jw <;> simp [decEntities] at hw2
            exact ⟨_, hw1, hmapM _ _ _ hw2⟩
          · intro hash hhash
            dsimp only at hhash
            subst hhash
            unfold optField at ho
            split at ho
            · simp at ho
            · simp at ho
            · simp at ho
            · rename_i jh hne hf
              simp only [Option.map_eq_some_iff, Option.some.injEq, exists_eq_right] at ho
              cases jh <;> simp [decBytes] at ho
              exact ⟨_, hfield _ _ _ hf, hmapM _ _ _ ho.2, ho.1⟩
      | _ => simp [decDoc] at hd

theorem decNat_lt {n : Nat} {j : Json} {x : Nat} (h : decNat n j = some x) : x < n := by
  unfold decNat at h
  split at h
  · split at h
    · cases h; omega
    · cases h
  · cases h

theorem mapM_all {α : Type} {p : α → Prop} {dec : Json → Option α} (hp : ∀ j x, dec j = some x → p x) :
    ∀ (l : List Json) (r : List α), l.mapM dec = some r → ∀ x ∈ r, p x := by
  intro l
  induction l with
  | nil => intro r hr x hx; simp at hr; subst hr; cases hx
  | cons a l ih =>
    intro r hr x hx
    simp only [List.mapM_cons, Option.bind_eq_bind, Option.pure_def, Option.bind_eq_some_iff] at hr
    obtain ⟨y, hy, ys, hys, hr⟩ := hr
    cases hr
    rcases List.mem_cons.mp hx with rfl | hx
    · exact hp _ _ hy
    · exact ih _ hys _ hx

theorem mapM_len {α : Type} {dec : Json → Option α} : ∀ (l : List Json) (r : List α), l.mapM dec = some r → r.length = l.length := by
  intro l
  induction l with
  | nil => intro r hr; simp at hr; simp [← hr]
  | cons a l ih =>
    intro r hr
    simp only [List.mapM_cons, Option.bind_eq_bind, Option.pure_def, Option.bind_eq_some_iff] at hr
    obtain ⟨y, hy, ys, hys, hr⟩ := hr
    cases hr
    simp [ih _ hys]

theorem decBytes_range {n : Nat} {j : Json} {x : List Nat} (h : decBytes n j = some x) : x.length = n ∧ ∀ b ∈ x, b < 256 := by
  unfold decBytes at h
  split at h
  · split at h
    · rename_i hl
      exact ⟨(mapM_len _ _ h).trans hl, mapM_all (fun _ _ => decNat_lt) _ _ h⟩
    · cases h
  · cases h

theorem decTag_range {j : Json} {t : Tag} (h : decTag j = some t) :
    ∀ r, t = .runner r → r.worker < 2 ^ 32 ∧ r.runner < 2 ^ 32 := by
  rintro r rfl
  unfold decTag at h
  split at h
  · repeat (split at h; · cases h)
    cases h
  · split at h
    · simp only [Option.map_eq_some_iff, Tag.runner.injEq, exists_eq_right] at h
      unfold decWorkerRunner at h
      split at h
      · simp only [Option.bind_eq_some_iff, Option.map_eq_some_iff] at h
        obtain ⟨w, hw, r', hr, rfl⟩ := h
        exact ⟨decNat_lt hw, decNat_lt hr⟩
      · cases h
    · split at h
      · repeat (split at h; · cases h)
        cases h
      · cases h
  · cases h

theorem decEntity_range {j : Json} {e : RunStateDoc.Entity} (h : decEntity j = some e) :
    (e.id.length = 16 ∧ ∀ b ∈ e.id, b < 256) ∧ ∀ r, e.tag = .runner r → r.worker < 2 ^ 32 ∧ r.runner < 2 ^ 32 := by
  have key : ∀ (x : Option (List Nat)) (y : Option Tag), (∀ i, x = some i → i.length = 16 ∧ ∀ b ∈ i, b < 256) →
      (∀ t, y = some t → ∀ r, t = .runner r → r.worker < 2 ^ 32 ∧ r.runner < 2 ^ 32) →
      (match x, y with
        | some id, some tag => some (RunStateDoc.Entity.mk id tag)
        | _, _ => none) = some e →
      (e.id.length = 16 ∧ ∀ b ∈ e.id, b < 256) ∧ ∀ r, e.tag = .runner r → r.worker < 2 ^ 32 ∧ r.runner < 2 ^ 32 := by
    intro x y hx hy h
    cases x with
    | none => cases h
    | some i =>
      cases y with
      | none => cases h
      | some t => cases h; exact ⟨hx _ rfl, hy _ rfl⟩
  have hreq : ∀ {α : Type} {name : String} {ms : List (String × Json)} {dec : Json → Option α} {x : α},
      reqField name ms dec = some x → ∃ j, dec j = some x := by
    intro α name ms dec x hr
    unfold reqField at hr
    split at hr
    · exact ⟨_, hr⟩
    · cases hr
  unfold decEntity at h
  split at h
  · exact key _ _ (fun i hi => decBytes_range (hreq hi).choose_spec) (fun t ht => decTag_range (hreq ht).choose_spec) h
  · exact key _ _ (fun i hi => decBytes_range hi) (fun t ht => decTag_range ht) h
  · cases h

/-- C24: what is found is a state that a run can have: an exit code of 32 bits, workers with identifiers of 16 bytes and numbers
of 32 bits, and a hash of 32 bytes. -/
theorem C24_found_in_range (m : Meta) (t : Text) (b : List UInt8) (s : RunStateDoc.RunState m)
    (h : tryLoad m t (.bytes b) = .found s) :
    (-2 ^ 31 ≤ s.newWorkerExitCode ∧ s.newWorkerExitCode < 2 ^ 31) ∧
    (∀ e ∈ s.seenWorkers, (e.id.length = 16 ∧ ∀ b ∈ e.id, b < 256) ∧
      ∀ r, e.tag = .runner r → r.worker < 2 ^ 32 ∧ r.runner < 2 ^ 32) ∧
    (∀ hash, s.testCommandHash = some hash → hash.length = 32 ∧ ∀ b ∈ hash, b < 256) := by
  have hreq : ∀ {α : Type} {name : String} {ms : List (String × Json)} {dec : Json → Option α} {x : α},
      reqField name ms dec = some x → ∃ j, dec j = some x := by
    intro α name ms dec x hr
    unfold reqField at hr
    split at hr
    · exact ⟨_, hr⟩
    · cases hr
  simp only [tryLoad, deserialize] at h
  cases hp : t.parse b with
  | none => simp [hp] at h
  | some j =>
    simp only [hp] at h
    cases hd : decDoc m j with
    | none =>
      simp only [hd] at h
      cases hv : decVersion j with
      | none => simp [hv] at h
      | some v =>
        simp only [hv] at h
        by_cases hcur : v ≠ currentVersion <;> simp [hcur] at h
    | some p =>
      obtain ⟨v, s'⟩ := p
      simp only [hd, Loaded.found.injEq] at h
      subst h
      cases j with
      | obj ms =>
        simp only [decDoc] at hd
        simp only [Option.bind_eq_some_iff, Option.map_eq_some_iff, Prod.mk.injEq] at hd
        obtain ⟨v', hv, c, hc, md, hm, ws, hw, hh, ho, -, rfl⟩ := hd
        obtain ⟨jc, hc2⟩ := hreq hc
        obtain ⟨jw, hw2⟩ := hreq hw
        refine ⟨?_, ?_, ?_⟩
        · cases jc <;> simp [decI32] at hc2
          obtain ⟨h, rfl⟩ := hc2
          exact ⟨by simpa using h.1, by simpa using h.2⟩
        · cases jw <;> simp [decEntities] at hw2
          exact mapM_all (fun _ _ => decEntity_range) _ _ hw2
        · intro hash hhash
          dsimp only at hhash
          subst hhash
          unfold optField at ho
          split at ho
          · simp at ho
          · simp at ho
          · simp at ho
          · simp only [Option.map_eq_some_iff, Option.some.injEq, exists_eq_right] at ho
            exact decBytes_range ho
      | _ => simp [decDoc] at hd

/-- C24: what was found can be written and found again. -/
theorem C24_found_again (m : Meta) (t : Text) (b : List UInt8) (s : RunStateDoc.RunState m)
    (h : tryLoad m t (.bytes b) = .found s) (ht : t.ok (encDoc 1 s)) : tryLoad m t (.bytes (serialize t s)) = .found s := by
  obtain ⟨h1, h2, h3⟩ := C24_found_in_range m t b s h
  refine C24_round_trip m t s ⟨h1, fun e he => ?_, h3⟩ ht
  obtain ⟨⟨h4, h5⟩, h6⟩ := h2 e he
  refine ⟨h4, h5, ?_⟩
  obtain ⟨id, tag⟩ := e
  cases tag with
  | runner r => exact h6 r rfl
  | _ => exact trivial

/-! A run state of two workers, for a text format that is given. -/

namespace Sample
/-- Metadata that is an object with any members. -/
def noMeta : Meta where
  M := List (String × Json)
  enc := .obj
  dec := fun | .obj ms => some ms | _ => none
  roundtrip := by intro m; rfl
def state : RunStateDoc.RunState noMeta :=
  { newWorkerExitCode := -3, initMetadata := [("k", .bool true)]
    seenWorkers := [⟨List.replicate 16 7, .runner ⟨0, 4294967295⟩⟩, ⟨List.replicate 16 255, .localClient⟩]
    testCommandHash := some (List.replicate 32 9) }
end Sample

theorem Sample.state_inRange : Sample.state.InRange := by
  refine ⟨by decide, ?_, ?_⟩
  · intro e he
    simp [Sample.state] at he
    rcases he with rfl | rfl <;> refine ⟨by decide, ?_, ?_⟩ <;>
      simp [byte, RunStateDoc.Tag.InRange, u32Bound]
  · intro h hh
    simp only [Sample.state, Option.some.injEq] at hh
    subst hh
    refine ⟨by decide, ?_⟩
    simp [byte]

/-- A document of version 2 whose workers are called otherwise. -/
def Sample.otherVersion : Json := .obj [("schema_version", .int 2), ("new_worker_exit_code", .int 0), ("init_metadata", .obj []),
  ("workers", .arr [])]

example (t : Text) (ht : t.ok Sample.otherVersion) :
    tryLoad Sample.noMeta t (.bytes (t.print Sample.otherVersion)) = .incompatible 2 :=
  C24_other_version_incompatible _ _ _ _ 2 (t.roundtrip _ ht) (by simp [HasMember]) (by decide) (by decide)
    (.inr (.inr (by intro j h; simp [HasMember] at h)))

/-- A document of a later version that has all the known members is read: the code ignores the version
then (`run_state.rs:85-89`). -/
theorem C24_understood_other_version_found (m : Meta) (t : Text) (version : Nat)
    (s : RunStateDoc.RunState m) (hv : version < 2 ^ 32) (h : s.InRange)
    (ht : t.ok (encDoc version s)) : tryLoad m t (.bytes (t.print (encDoc version s))) = .found s := by
  have ht := t.roundtrip _ ht
  simp [tryLoad, deserialize, ht, decDoc_enc version hv s h]

/-- C24: a missing document is not an error, and a store that fails is never taken for one. -/
theorem C24_not_found_iff (m : Meta) (t : Text) (o : Object) :
    tryLoad m t o = .notFound ↔ o = .noSuchKey := by
  cases o with
  | noSuchKey => simp [tryLoad]
  | fails => simp [tryLoad]
  | bytes b => simp only [tryLoad]; split <;> simp

end Abq.Props
