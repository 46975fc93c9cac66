import Verif.Spec.Protocol
/-!
# Reading is what the document says
-/

namespace Abq.Protocol
open RunStateDoc (Json field reqField optField decNat)

variable {α : Type}

/-- `dec` reads exactly what is said. -/
def Reads (dec : Json → Option α) (says : α → Json → Prop) : Prop := ∀ j a, dec j = some a ↔ says a j

theorem filter_singleton {ms : Members} {name : String} {p : String × Json} (h : ms.filter (fun m => m.1 = name) = [p]) :
    p.1 = name := by
  have : p ∈ ms.filter (fun m => m.1 = name) := by rw [h]; exact List.mem_singleton_self _
  simpa using (List.mem_filter.1 this).2

theorem field_given {ms : Members} {name : String} {j : Json} : field name ms = some (some j) ↔ Only ms name j := by
  unfold field Only
  constructor
  · intro h
    split at h
    · cases h
    · rename_i p hp
      cases h
      rw [hp]
      have := filter_singleton hp
      obtain ⟨k, v⟩ := p
      cases this
      rfl
    · cases h
  · intro h
    rw [h]

theorem field_absent {ms : Members} {name : String} : field name ms = some none ↔ Absent ms name := by
  unfold field Absent
  constructor
  · intro h
    split at h
    · rename_i hp
      intro m hm hk
      have : m ∈ ms.filter (fun m => m.1 = name) := List.mem_filter.2 ⟨hm, by simpa using hk⟩
      rw [hp] at this
      cases this
    · cases h
    · cases h
  · intro h
    have : ms.filter (fun m => m.1 = name) = [] := by
      rw [List.filter_eq_nil_iff]
      intro m hm
      simpa using h m hm
    rw [this]

theorem reqField_iff {dec : Json → Option α} {says : α → Json → Prop} (h : Reads dec says) {ms : Members} {name : String} {a : α} :
    reqField name ms dec = some a ↔ Given ms name says a := by
  unfold reqField Given
  constructor
  · intro hd
    split at hd
    · rename_i j hj
      exact ⟨j, field_given.1 hj, (h j a).1 hd⟩
    · cases hd
  · rintro ⟨j, hj, ha⟩
    rw [field_given.2 hj]
    exact (h j a).2 ha

theorem optField_iff {dec : Json → Option α} {says : α → Json → Prop} (h : Reads dec says) (hn : dec .null = none)
    {ms : Members} {name : String} {o : Option α} : optField name ms dec = some o ↔ Maybe ms name says o := by
  unfold optField
  constructor
  · intro hd
    split at hd
    · cases hd
    · rename_i hf
      cases hd
      exact .inl (field_absent.1 hf)
    · rename_i hf
      cases hd
      exact .inr (field_given.1 hf)
    · rename_i j _ hf
      cases hj : dec j with
      | none => rw [hj] at hd; cases hd
      | some a =>
        rw [hj] at hd
        cases hd
        exact ⟨j, field_given.1 hf, (h j a).1 hj⟩
  · intro hm
    cases o with
    | none =>
      rcases hm with hm | hm
      · rw [field_absent.2 hm]
      · rw [field_given.2 hm]
    | some a =>
      obtain ⟨j, hj, ha⟩ := hm
      rw [field_given.2 hj]
      have hd := (h j a).2 ha
      cases j with
      | null => rw [hn] at hd; cases hd
      | _ => simp only [hd, Option.map_some]

theorem reads_str : Reads decStr SaysStr := by
  intro j a
  cases j <;> simp [decStr, SaysStr]

theorem reads_meta : Reads decMeta SaysMeta := by
  intro j a
  cases j <;> simp [decMeta, SaysMeta]

theorem reads_nat : Reads decU64 SaysNat := by
  intro j a
  cases j with
  | int n =>
    unfold decU64 decNat SaysNat u64Bound
    dsimp only
    constructor
    · intro h
      split at h
      · rename_i hn
        cases h
        refine ⟨by congr 1; omega, by omega⟩
      · cases h
    · rintro ⟨h, hb⟩
      cases h
      rw [if_pos ⟨by omega, by omega⟩]
      simp
  | _ => simp [decU64, decNat, SaysNat]

theorem mapM_iff {dec : Json → Option α} {says : α → Json → Prop} (h : Reads dec says) (l : List Json) (as : List α) :
    l.mapM dec = some as ↔ Pairs says as l := by
  induction l generalizing as with
  | nil =>
    cases as <;> simp [Pairs]
  | cons j l ih =>
    rw [List.mapM_cons]
    cases as with
    | nil =>
      simp only [Pairs, iff_false]
      cases hj : dec j <;> simp
      cases l.mapM dec <;> simp
    | cons a as =>
      simp only [Pairs, ← ih, ← h j a]
      cases hj : dec j <;> simp
      cases hl : l.mapM dec <;> simp

theorem reads_strs : Reads decStrs SaysStrs := by
  intro j a
  cases j with
  | arr l => simp [decStrs, SaysStrs, Each, mapM_iff reads_str]
  | _ => simp [decStrs, SaysStrs, Each]

theorem members_iff {keys : List String} {j : Json} {ms : Members} : members keys j = some ms ↔ Written .loose keys j ms := by
  unfold Written
  cases j with
  | obj ms' => simp [members]
  | arr l =>
    simp only [members, reduceCtorEq, false_or, true_and, Json.arr.injEq, exists_eq_left']
    constructor
    · intro h
      split at h
      · next hl => cases h; exact ⟨hl, rfl⟩
      · cases h
    · rintro ⟨hl, rfl⟩
      rw [if_pos hl]
  | _ => simp [members]

theorem decVariant_iff {names : List String} {t : Json} {name : String} :
    decVariant names t = some name ↔ name ∈ names ∧ Named .loose names name t := by
  unfold Named
  cases t with
  | str s =>
    simp only [decVariant, Json.str.injEq, reduceCtorEq, false_and, exists_false, and_false, or_false]
    constructor
    · intro h
      split at h
      · next hs => cases h; exact ⟨hs, rfl⟩
      · cases h
    · rintro ⟨h, rfl⟩
      rw [if_pos h]
  | int n =>
    simp only [decVariant, reduceCtorEq, false_or, true_and, Json.int.injEq]
    constructor
    · intro h
      split at h
      · next hn => exact ⟨List.mem_of_getElem? h, n.toNat, by omega, h⟩
      · cases h
    · rintro ⟨-, k, rfl, h⟩
      rw [if_pos (by omega), Int.toNat_natCast]
      exact h
  | _ => simp [decVariant]

theorem reads_tag (names : List String) : Reads (decVariant names) (fun name t => name ∈ names ∧ Named .loose names name t) :=
  fun _ _ => decVariant_iff

theorem tagged_iff {variants : List (String × List String)} {j : Json} {name : String} {ms : Members} :
    tagged variants j = some (name, ms) ↔ name ∈ variants.map (·.1) ∧
      Variant .loose (variants.map (·.1)) name ((variants.lookup name).getD []) j ms := by
  unfold Variant
  cases j with
  | obj ms' =>
    simp only [tagged, Option.map_eq_some_iff, reqField_iff (reads_tag _), Prod.mk.injEq, Given, Json.obj.injEq, reduceCtorEq,
      false_and, exists_false, and_false, or_false]
    constructor
    · rintro ⟨_, ⟨t, ht, hm, hn⟩, rfl, rfl⟩
      exact ⟨hm, rfl, t, ht, hn⟩
    · rintro ⟨hm, rfl, t, ht, hn⟩
      exact ⟨_, ⟨t, ht, hm, hn⟩, rfl, rfl⟩
  | arr l =>
    cases l with
    | nil => simp [tagged]
    | cons t l =>
      simp only [tagged, Option.bind_eq_some_iff, Option.map_eq_some_iff, decVariant_iff, members_iff, Written, Prod.mk.injEq, reduceCtorEq,
        false_and, false_or, true_and, Json.arr.injEq, List.cons.injEq, exists_eq_left']
      constructor
      · rintro ⟨_, ⟨hm, hn⟩, _, ⟨hl, rfl⟩, rfl, rfl⟩
        exact ⟨hm, t, l, ⟨rfl, rfl⟩, hn, hl, rfl⟩
      · rintro ⟨hm, _, _, ⟨rfl, rfl⟩, hn, hl, rfl⟩
        exact ⟨_, ⟨hm, hn⟩, _, ⟨hl, rfl⟩, rfl, rfl⟩
  | _ => simp [tagged]

theorem reads_version : Reads decVersion (SaysVersion .loose) := by
  intro j a
  obtain ⟨x, y⟩ := a
  simp only [decVersion, SaysVersion, Option.bind_eq_some_iff, Option.map_eq_some_iff, members_iff, reqField_iff reads_nat,
    Version.mk.injEq]
  constructor
  · rintro ⟨ms, hw, a1, h1, a2, h2, rfl, rfl⟩
    exact ⟨ms, hw, h1, h2⟩
  · rintro ⟨ms, hw, h1, h2⟩
    exact ⟨ms, hw, _, h1, _, h2, rfl, rfl⟩

theorem reads_specification : Reads decSpecification (SaysSpecification .loose) := by
  intro j a
  obtain ⟨x1, x2, x3, x4, x5, x6, x7⟩ := a
  simp only [decSpecification, SaysSpecification, Option.bind_eq_some_iff, Option.map_eq_some_iff, members_iff, reqField_iff reads_str,
    Specification.mk.injEq]
  constructor
  · rintro ⟨ms, hw, a1, h1, a2, h2, a3, h3, a4, h4, a5, h5, a6, h6, a7, h7, rfl, rfl, rfl, rfl, rfl, rfl, rfl⟩
    exact ⟨ms, hw, h1, h2, h3, h4, h5, h6, h7⟩
  · rintro ⟨ms, hw, h1, h2, h3, h4, h5, h6, h7⟩
    exact ⟨ms, hw, _, h1, _, h2, _, h3, _, h4, _, h5, _, h6, _, h7, rfl, rfl, rfl, rfl, rfl, rfl, rfl⟩

theorem reads_spawned : Reads decSpawned (SaysSpawned .loose) := by
  intro j a
  obtain ⟨x, y⟩ := a
  simp only [decSpawned, SaysSpawned, Option.bind_eq_some_iff, Option.map_eq_some_iff, members_iff, reqField_iff reads_version,
    reqField_iff reads_specification, Spawned.mk.injEq]
  constructor
  · rintro ⟨ms, hw, a1, h1, a2, h2, rfl, rfl⟩
    exact ⟨ms, hw, h1, h2⟩
  · rintro ⟨ms, hw, h1, h2⟩
    exact ⟨ms, hw, _, h1, _, h2, rfl, rfl⟩

theorem reads_location : Reads decLocation (SaysLocation .loose) := by
  intro j a
  obtain ⟨x, y, z⟩ := a
  simp only [decLocation, SaysLocation, Option.bind_eq_some_iff, Option.map_eq_some_iff, members_iff, reqField_iff reads_str,
    optField_iff reads_nat rfl, Location.mk.injEq]
  constructor
  · rintro ⟨ms, hw, a1, h1, a2, h2, a3, h3, rfl, rfl, rfl⟩
    exact ⟨ms, hw, h1, h2, h3⟩
  · rintro ⟨ms, hw, h1, h2, h3⟩
    exact ⟨ms, hw, _, h1, _, h2, _, h3, rfl, rfl, rfl⟩

theorem reads_oob : Reads decOob (SaysOob .loose) := by
  intro j a
  obtain ⟨x1, x2, x3, x4, x5⟩ := a
  simp only [decOob, SaysOob, Option.bind_eq_some_iff, Option.map_eq_some_iff, members_iff, reqField_iff reads_str,
    optField_iff reads_strs rfl, optField_iff reads_str rfl, optField_iff reads_location rfl, optField_iff reads_meta rfl,
    OutOfBandError.mk.injEq]
  constructor
  · rintro ⟨ms, hw, a1, h1, a2, h2, a3, h3, a4, h4, a5, h5, rfl, rfl, rfl, rfl, rfl⟩
    exact ⟨ms, hw, h1, h2, h3, h4, h5⟩
  · rintro ⟨ms, hw, h1, h2, h3, h4, h5⟩
    exact ⟨ms, hw, _, h1, _, h2, _, h3, _, h4, _, h5, rfl, rfl, rfl, rfl, rfl⟩

theorem reads_oobs : Reads decOobs (Each (SaysOob .loose)) := by
  intro j a
  cases j with
  | arr l => simp [decOobs, Each, mapM_iff reads_oob]
  | _ => simp [decOobs, Each]

theorem given_str {ms : Members} {name s : String} : Given ms name SaysStr s ↔ Only ms name (.str s) := by
  unfold Given SaysStr
  constructor
  · rintro ⟨j, h, rfl⟩; exact h
  · intro h; exact ⟨_, h, rfl⟩

theorem tagged_some {variants : List (String × List String)} {j : Json} {α : Type} {k : String × Members → Option α} {a : α} :
    (tagged variants j).bind k = some a ↔ ∃ name ms, (name ∈ variants.map (·.1) ∧
      Variant .loose (variants.map (·.1)) name ((variants.lookup name).getD []) j ms) ∧ k (name, ms) = some a := by
  rw [Option.bind_eq_some_iff]
  constructor
  · rintro ⟨⟨name, ms⟩, h, hk⟩
    exact ⟨name, ms, tagged_iff.1 h, hk⟩
  · rintro ⟨name, ms, h, hk⟩
    exact ⟨⟨name, ms⟩, tagged_iff.2 h, hk⟩

theorem reads_status : Reads decStatus (SaysStatus .loose) := by
  intro j a
  unfold decStatus
  rw [tagged_some]
  constructor
  · rintro ⟨name, ms, ⟨-, hv⟩, h⟩
    dsimp only at h
    repeat' (split at h)
    all_goals first
      | (rename_i h0; subst h0
         simp only [Option.bind_eq_some_iff, Option.map_eq_some_iff, optField_iff reads_str rfl,
           optField_iff reads_strs rfl] at h
         obtain ⟨e, he, b, hb, rfl⟩ := h
         exact ⟨ms, hv, he, hb⟩)
      | (rename_i h0; subst h0; cases h; exact ⟨ms, hv⟩)
      | cases h
  · intro h
    cases a with
    | failure e b =>
      obtain ⟨ms, hv, he, hb⟩ := h
      refine ⟨"failure", ms, ⟨by decide, hv⟩, ?_⟩
      simp only [if_true, Option.bind_eq_some_iff, Option.map_eq_some_iff, optField_iff reads_str rfl,
        optField_iff reads_strs rfl]
      exact ⟨e, he, b, hb, rfl⟩
    | error e b =>
      obtain ⟨ms, hv, he, hb⟩ := h
      refine ⟨"error", ms, ⟨by decide, hv⟩, ?_⟩
      dsimp only
      rw [if_neg (by decide)]
      simp only [if_true, Option.bind_eq_some_iff, Option.map_eq_some_iff, optField_iff reads_str rfl,
        optField_iff reads_strs rfl]
      exact ⟨e, he, b, hb, rfl⟩
    | success => obtain ⟨ms, hv⟩ := h; exact ⟨"success", ms, ⟨by decide, hv⟩, by rfl⟩
    | pending => obtain ⟨ms, hv⟩ := h; exact ⟨"pending", ms, ⟨by decide, hv⟩, by rfl⟩
    | skipped => obtain ⟨ms, hv⟩ := h; exact ⟨"skipped", ms, ⟨by decide, hv⟩, by rfl⟩
    | todo => obtain ⟨ms, hv⟩ := h; exact ⟨"todo", ms, ⟨by decide, hv⟩, by rfl⟩
    | timedOut => obtain ⟨ms, hv⟩ := h; exact ⟨"timed_out", ms, ⟨by decide, hv⟩, by rfl⟩

theorem reads_fields (ms : Members) (f : Fields) : decFields ms = some f ↔ SaysFields .loose f ms := by
  obtain ⟨x1, x2, x3, x4, x5, x6, x7, x8, x9, x10, x11⟩ := f
  simp only [decFields, SaysFields, Option.bind_eq_some_iff, Option.map_eq_some_iff, reqField_iff reads_str,
    reqField_iff reads_status, reqField_iff reads_nat, reqField_iff reads_meta,
    optField_iff reads_strs rfl, optField_iff reads_str rfl, optField_iff reads_location rfl, optField_iff reads_oobs rfl,
    Fields.mk.injEq]
  constructor
  · rintro ⟨a1, h1, a2, h2, a3, h3, a4, h4, a5, h5, a6, h6, a7, h7, a8, h8, a9, h9, a10, h10, a11, h11,
      rfl, rfl, rfl, rfl, rfl, rfl, rfl, rfl, rfl, rfl, rfl⟩
    exact ⟨h1, h2, h3, h4, h5, h6, h7, h8, h9, h10, h11⟩
  · rintro ⟨h1, h2, h3, h4, h5, h6, h7, h8, h9, h10, h11⟩
    exact ⟨_, h1, _, h2, _, h3, _, h4, _, h5, _, h6, _, h7, _, h8, _, h9, _, h10, _, h11,
      rfl, rfl, rfl, rfl, rfl, rfl, rfl, rfl, rfl, rfl, rfl⟩

theorem decMembers_eq (ms : Members) :
    decMembers ms = (ms.filter (fun m => m.1 = "members")).map (fun m => decTrees m.2) := by
  induction ms with
  | nil => rfl
  | cons m ms ih =>
    obtain ⟨k, j⟩ := m
    unfold decMembers
    by_cases h : k = "members"
    · rw [if_pos h, ih, List.filter_cons_of_pos (by simpa using h)]; rfl
    · rw [if_neg h, ih, List.filter_cons_of_neg (by simpa using h)]

theorem decMembers_iff (ms : Members) (ts : List TestOrGroup) :
    decMembers ms = [some ts] ↔ ∃ l, Only ms "members" (.arr l) ∧ decForest l = some ts := by
  rw [decMembers_eq]
  constructor
  · intro h
    obtain ⟨p, hp, hd⟩ := List.map_eq_singleton_iff.1 h
    have hk := filter_singleton hp
    obtain ⟨k, j⟩ := p
    cases hk
    cases j with
    | arr l => exact ⟨l, hp, hd⟩
    | _ => cases hd
  · rintro ⟨l, hl, hd⟩
    rw [hl]
    show [decForest l] = _
    rw [hd]

/-- What is made of the members of a test or group. -/
def treeOf (type : String) (ms : Members) : Option TestOrGroup :=
  if type = "test" then
    (reqField "id" ms decStr).bind fun id =>
    (reqField "tags" ms decStrs).bind fun tags =>
    (reqField "meta" ms decMeta).map fun metadata => .test id tags metadata
  else if type = "group" then
    (reqField "name" ms decStr).bind fun name =>
    (reqField "tags" ms decStrs).bind fun tags =>
    (reqField "meta" ms decMeta).bind fun metadata =>
    match decMembers ms with
    | [some members] => some (.group name members tags metadata)
    | _ => none
  else none

/-- The variants of what a manifest is made of. -/
def treeVariants : List (String × List String) := [("test", ["id", "tags", "meta"]), ("group", ["name", "members", "tags", "meta"])]

theorem decMembers_zip {l : List Json} (h : l.length = 4) :
    decMembers (["name", "members", "tags", "meta"].zip l) = [decTreesAt l 1] := by
  match l, h with
  | [a, b, c, d], _ =>
    simp [decMembers, decTreesAt]

theorem decTree_eq (j : Json) : decTestOrGroup j = (tagged treeVariants j).bind fun x => treeOf x.1 x.2 := by
  cases j with
  | obj ms =>
    unfold decTestOrGroup
    simp only [tagged]
    show _ = Option.bind (Option.map _ (reqField "type" ms (decVariant ["test", "group"]))) _
    cases reqField "type" ms (decVariant ["test", "group"]) <;> rfl
  | arr l =>
    cases l with
    | nil => simp [decTestOrGroup, tagged]
    | cons t l =>
      unfold decTestOrGroup
      simp only [tagged]
      show _ = Option.bind (Option.bind (decVariant ["test", "group"] t) _) _
      cases ht : decVariant ["test", "group"] t with
      | none => rfl
      | some type =>
        have hm := (decVariant_iff.1 ht).1
        simp only [List.mem_cons, List.not_mem_nil, or_false] at hm
        rcases hm with rfl | rfl
        · simp only [Option.bind_some, if_true]
          show _ = ((members ["id", "tags", "meta"] (.arr l)).map _).bind _
          cases members ["id", "tags", "meta"] (.arr l) <;> rfl
        · simp only [Option.bind_some, if_true]
          rw [if_neg (by decide)]
          show _ = ((members ["name", "members", "tags", "meta"] (.arr l)).map _).bind _
          cases hms : members ["name", "members", "tags", "meta"] (.arr l) with
          | none => rfl
          | some ms =>
            have hz : decMembers ms = [decTreesAt l 1] := by
              rcases members_iff.1 hms with e | ⟨-, l', e, hl, rfl⟩
              · cases e
              · cases e
                exact decMembers_zip hl
            simp only [Option.map_some, Option.bind_some, treeOf, if_true]
            rw [if_neg (by decide), hz]
            cases reqField "name" ms decStr <;> try rfl
            cases reqField "tags" ms decStrs <;> try rfl
            cases reqField "meta" ms decMeta <;> try rfl
            cases decTreesAt l 1 <;> rfl
  | _ => simp [decTestOrGroup, tagged]

mutual
theorem reads_tree : ∀ (t : TestOrGroup) (j : Json), decTestOrGroup j = some t ↔ SaysTree .loose t j
  | .test id tags metadata, j => by
    rw [decTree_eq, tagged_some]
    unfold SaysTree
    constructor
    · rintro ⟨ty, ms, ⟨-, hv⟩, h⟩
      dsimp only [treeOf] at h
      split at h
      · rename_i h0; subst h0
        simp only [Option.bind_eq_some_iff, Option.map_eq_some_iff, reqField_iff reads_str,
          reqField_iff reads_strs, reqField_iff reads_meta, TestOrGroup.test.injEq] at h
        obtain ⟨_, h1, _, h2, _, h3, rfl, rfl, rfl⟩ := h
        exact ⟨ms, hv, h1, h2, h3⟩
      · split at h
        · simp only [Option.bind_eq_some_iff] at h
          obtain ⟨_, -, _, -, _, -, h⟩ := h
          split at h <;> cases h
        · cases h
    · rintro ⟨ms, hv, h1, h2, h3⟩
      refine ⟨"test", ms, ⟨by decide, hv⟩, ?_⟩
      dsimp only [treeOf]
      rw [if_pos rfl]
      simp only [Option.bind_eq_some_iff, Option.map_eq_some_iff, reqField_iff reads_str,
        reqField_iff reads_strs, reqField_iff reads_meta, TestOrGroup.test.injEq]
      exact ⟨_, h1, _, h2, _, h3, rfl, rfl, rfl⟩
  | .group name members tags metadata, j => by
    rw [decTree_eq, tagged_some]
    unfold SaysTree
    have hm : ∀ ms, decMembers ms = [some members] ↔ ∃ l, Only ms "members" (.arr l) ∧ SaysForest .loose members l := by
      intro ms
      rw [decMembers_iff]
      exact exists_congr fun l => and_congr_right fun _ => reads_forest members l
    constructor
    · rintro ⟨ty, ms, ⟨-, hv⟩, h⟩
      dsimp only [treeOf] at h
      split at h
      · simp only [Option.bind_eq_some_iff, Option.map_eq_some_iff] at h
        obtain ⟨_, -, _, -, _, -, h⟩ := h
        cases h
      · split at h
        · rename_i h0; subst h0
          simp only [Option.bind_eq_some_iff, reqField_iff reads_str,
            reqField_iff reads_strs, reqField_iff reads_meta] at h
          obtain ⟨_, h1, _, h2, _, h3, h⟩ := h
          split at h
          · rename_i hd
            cases h
            exact ⟨ms, hv, h1, (hm ms).1 hd, h2, h3⟩
          · cases h
        · cases h
    · rintro ⟨ms, hv, h1, h4, h2, h3⟩
      refine ⟨"group", ms, ⟨by decide, hv⟩, ?_⟩
      dsimp only [treeOf]
      rw [if_neg (by decide), if_pos rfl]
      simp only [Option.bind_eq_some_iff, reqField_iff reads_str,
        reqField_iff reads_strs, reqField_iff reads_meta]
      refine ⟨_, h1, _, h2, _, h3, ?_⟩
      rw [(hm ms).2 h4]
theorem reads_forest : ∀ (ts : List TestOrGroup) (l : List Json), decForest l = some ts ↔ SaysForest .loose ts l
  | [], [] => by simp [decForest, SaysForest]
  | [], j :: l => by
    unfold decForest SaysForest
    cases decTestOrGroup j <;> simp
  | t :: ts, [] => by simp [decForest, SaysForest]
  | t :: ts, j :: l => by
    unfold decForest SaysForest
    rw [← reads_tree t j, ← reads_forest ts l]
    simp only [Option.bind_eq_some_iff, Option.map_eq_some_iff, List.cons.injEq]
    constructor
    · rintro ⟨_, h1, _, h2, rfl, rfl⟩; exact ⟨h1, h2⟩
    · rintro ⟨h1, h2⟩; exact ⟨_, h1, _, h2, rfl, rfl⟩
end

theorem reads_trees : Reads decTrees (fun ts j => ∃ l, j = .arr l ∧ SaysForest .loose ts l) := by
  intro j ts
  cases j with
  | arr l => simp [decTrees, reads_forest]
  | _ => simp [decTrees]

theorem reads_manifest : Reads decManifest (SaysManifest .loose) := by
  intro j a
  obtain ⟨x, y⟩ := a
  simp only [decManifest, SaysManifest, Option.bind_eq_some_iff, Option.map_eq_some_iff, members_iff, reqField_iff reads_trees,
    reqField_iff reads_meta, Manifest.mk.injEq]
  constructor
  · rintro ⟨ms, hw, _, ⟨j, h1, l, rfl, h2⟩, _, h3, rfl, rfl⟩
    exact ⟨ms, hw, ⟨l, h1, h2⟩, h3⟩
  · rintro ⟨ms, hw, ⟨l, h1, h2⟩, h3⟩
    exact ⟨ms, hw, _, ⟨_, h1, l, rfl, h2⟩, _, h3, rfl, rfl⟩

theorem decPast_eq (ms : Members) :
    decPast ms = (ms.filter (fun m => m.1 = "past_attempts")).map (fun m => decAttempts m.2) := by
  induction ms with
  | nil => rfl
  | cons m ms ih =>
    obtain ⟨k, j⟩ := m
    unfold decPast
    by_cases h : k = "past_attempts"
    · rw [if_pos h, ih, List.filter_cons_of_pos (by simpa using h)]; rfl
    · rw [if_neg h, ih, List.filter_cons_of_neg (by simpa using h)]

theorem optOf_some {l : List (Option (Option α))} {o : Option α} : optOf l = some o ↔ (l = [] ∧ o = none) ∨ l = [some o] := by
  match l with
  | [] => simp [optOf, eq_comm]
  | [x] => simp [optOf]
  | x :: y :: l => simp [optOf]

theorem filter_absent {ms : Members} {name : String} : ms.filter (fun m => m.1 = name) = [] ↔ Absent ms name := by
  rw [List.filter_eq_nil_iff]
  unfold Absent
  simp

theorem past_none (ms : Members) :
    optOf (decPast ms) = some none ↔ (Absent ms "past_attempts" ∨ Only ms "past_attempts" .null) := by
  rw [optOf_some, decPast_eq, List.map_eq_nil_iff, filter_absent]
  simp only [and_true]
  refine or_congr Iff.rfl ?_
  rw [List.map_eq_singleton_iff]
  constructor
  · rintro ⟨⟨k, j⟩, hp, hd⟩
    have hk := filter_singleton hp
    cases hk
    cases j with
    | null => exact hp
    | arr l =>
      dsimp only [decAttempts] at hd
      cases hl : decAll l <;> rw [hl] at hd <;> cases hd
    | _ => cases hd
  · intro h
    exact ⟨_, h, rfl⟩

theorem past_some (ms : Members) (rs : List TestResult) :
    optOf (decPast ms) = some (some rs) ↔ ∃ l, Only ms "past_attempts" (.arr l) ∧ decAll l = some rs := by
  rw [optOf_some, decPast_eq]
  simp only [reduceCtorEq, and_false, false_or]
  rw [List.map_eq_singleton_iff]
  constructor
  · rintro ⟨⟨k, j⟩, hp, hd⟩
    have hk := filter_singleton hp
    cases hk
    cases j with
    | arr l =>
      dsimp only [decAttempts] at hd
      cases hl : decAll l with
      | none => rw [hl] at hd; cases hd
      | some rs' => rw [hl] at hd; cases hd; exact ⟨l, hp, hl⟩
    | _ => cases hd
  · rintro ⟨l, hl, hd⟩
    refine ⟨_, hl, ?_⟩
    dsimp only [decAttempts]
    rw [hd]; rfl

theorem decPast_zip {l : List Json} (h : l.length = 12) : decPast (resultKeys.zip l) = [decAttemptsAt l 10] := by
  match l, h with
  | [a, b, c, d, e, f, g, h, i, j, k, m], _ =>
    simp [resultKeys, decPast, decAttemptsAt]

theorem decResult_eq (j : Json) : decResult j = (members resultKeys j).bind fun ms => (decFields ms).bind fun f =>
    (optOf (decPast ms)).map fun past => .mk f past := by
  cases j with
  | obj ms => unfold decResult; rfl
  | arr l =>
    unfold decResult
    cases hms : members resultKeys (.arr l) with
    | none => rfl
    | some ms =>
      have hz : decPast ms = [decAttemptsAt l 10] := by
        rcases members_iff.1 hms with e | ⟨-, l', e, hl, rfl⟩
        · cases e
        · cases e
          exact decPast_zip hl
      simp only [Option.bind_some]
      rw [hz]
      rfl
  | _ => unfold decResult; rfl

theorem decResult_iff (j : Json) (f : Fields) (past : Option (List TestResult)) :
    decResult j = some (.mk f past) ↔ ∃ ms, Written .loose resultFields j ms ∧ SaysFields .loose f ms ∧ optOf (decPast ms) = some past := by
  rw [decResult_eq]
  simp only [Option.bind_eq_some_iff, Option.map_eq_some_iff, members_iff, reads_fields, TestResult.mk.injEq]
  constructor
  · rintro ⟨ms, hw, _, h1, _, h2, rfl, rfl⟩; exact ⟨ms, hw, h1, h2⟩
  · rintro ⟨ms, hw, h1, h2⟩; exact ⟨ms, hw, _, h1, _, h2, rfl, rfl⟩

mutual
theorem reads_result : ∀ (r : TestResult) (j : Json), decResult j = some r ↔ SaysResult .loose r j
  | .mk f none, j => by
    unfold SaysResult
    rw [decResult_iff]
    simp only [past_none]
  | .mk f (some past), j => by
    unfold SaysResult
    rw [decResult_iff]
    simp only [past_some, reads_results past]
theorem reads_results : ∀ (rs : List TestResult) (l : List Json), decAll l = some rs ↔ SaysResults .loose rs l
  | [], [] => by simp [decAll, SaysResults]
  | [], j :: l => by
    unfold decAll SaysResults
    cases decResult j <;> simp
  | t :: ts, [] => by simp [decAll, SaysResults]
  | t :: ts, j :: l => by
    unfold decAll SaysResults
    rw [← reads_result t j, ← reads_results ts l]
    simp only [Option.bind_eq_some_iff, Option.map_eq_some_iff, List.cons.injEq]
    constructor
    · rintro ⟨_, h1, _, h2, rfl, rfl⟩; exact ⟨h1, h2⟩
    · rintro ⟨h1, h2⟩; exact ⟨_, h1, _, h2, rfl, rfl⟩
end

theorem reads_results' : Reads decResults (fun rs j => ∃ l, j = .arr l ∧ SaysResults .loose rs l) := by
  intro j rs
  cases j with
  | arr l => simp [decResults, reads_results]
  | _ => simp [decResults]

theorem reads_result' : Reads decResult (SaysResult .loose) := fun j r => reads_result r j

theorem reads_manifest_success (j : Json) (m : Manifest) (e : Option (List OutOfBandError)) :
    decManifestSuccess j = some (.success m e) ↔ SaysManifestMessage .loose (.success m e) j := by
  simp only [decManifestSuccess, SaysManifestMessage, Option.bind_eq_some_iff, Option.map_eq_some_iff, members_iff,
    reqField_iff reads_manifest, optField_iff reads_oobs rfl, ManifestMessage.success.injEq]
  constructor
  · rintro ⟨ms, hw, _, h1, _, h2, rfl, rfl⟩; exact ⟨ms, hw, h1, h2⟩
  · rintro ⟨ms, hw, h1, h2⟩; exact ⟨ms, hw, _, h1, _, h2, rfl, rfl⟩

theorem reads_manifest_failure (j : Json) (x : OutOfBandError) (e : Option (List OutOfBandError)) :
    decManifestFailure j = some (.failure x e) ↔ SaysManifestMessage .loose (.failure x e) j := by
  simp only [decManifestFailure, SaysManifestMessage, Option.bind_eq_some_iff, Option.map_eq_some_iff, members_iff,
    reqField_iff reads_oob, optField_iff reads_oobs rfl, ManifestMessage.failure.injEq]
  constructor
  · rintro ⟨ms, hw, _, h1, _, h2, rfl, rfl⟩; exact ⟨ms, hw, h1, h2⟩
  · rintro ⟨ms, hw, h1, h2⟩; exact ⟨ms, hw, _, h1, _, h2, rfl, rfl⟩

theorem decManifestSuccess_success {j : Json} {m : ManifestMessage} (h : decManifestSuccess j = some m) :
    ∃ x e, m = .success x e := by
  simp only [decManifestSuccess, Option.bind_eq_some_iff, Option.map_eq_some_iff] at h
  obtain ⟨ms, -, x, -, e, -, rfl⟩ := h
  exact ⟨x, e, rfl⟩

theorem decManifestFailure_failure {j : Json} {m : ManifestMessage} (h : decManifestFailure j = some m) :
    ∃ x e, m = .failure x e := by
  simp only [decManifestFailure, Option.bind_eq_some_iff, Option.map_eq_some_iff] at h
  obtain ⟨ms, -, x, -, e, -, rfl⟩ := h
  exact ⟨x, e, rfl⟩

theorem only_unique {ms : Members} {name : String} {j j' : Json} (h : Only ms name j) (h' : Only ms name j') : j = j' := by
  unfold Only at h h'
  rw [h] at h'
  injection h' with h' _
  injection h'

theorem reads_incremental : Reads decIncremental (fun m j => SaysResultMessage .loose (.incremental m) j) := by
  intro j m
  unfold decIncremental
  rw [tagged_some]
  constructor
  · rintro ⟨name, ms, ⟨-, hv⟩, h⟩
    dsimp only at h
    split at h
    · rename_i h0; subst h0
      simp only [Option.map_eq_some_iff, reqField_iff reads_result'] at h
      obtain ⟨r, hr, rfl⟩ := h
      exact ⟨ms, hv, hr⟩
    · split at h
      · rename_i h0; subst h0
        simp only [Option.map_eq_some_iff, optField_iff reads_result' rfl] at h
        obtain ⟨r, hr, rfl⟩ := h
        exact ⟨ms, hv, hr⟩
      · cases h
  · intro h
    cases m with
    | one r =>
      obtain ⟨ms, hv, hr⟩ := h
      refine ⟨"incremental_result", ms, ⟨by decide, hv⟩, ?_⟩
      dsimp only
      rw [if_pos rfl]
      simp only [Option.map_eq_some_iff, reqField_iff reads_result']
      exact ⟨r, hr, rfl⟩
    | done r =>
      obtain ⟨ms, hv, hr⟩ := h
      refine ⟨"incremental_result_done", ms, ⟨by decide, hv⟩, ?_⟩
      dsimp only
      rw [if_neg (by decide), if_pos rfl]
      simp only [Option.map_eq_some_iff, optField_iff reads_result' rfl]
      exact ⟨r, hr, rfl⟩

theorem reads_single : Reads decSingle (fun r j => SaysResultMessage .loose (.single r) j) := by
  intro j r
  simp only [decSingle, SaysResultMessage, Option.bind_eq_some_iff, members_iff, reqField_iff reads_result']

theorem reads_multiple : Reads decMultiple (fun rs j => SaysResultMessage .loose (.multiple rs) j) := by
  intro j r
  simp only [decMultiple, SaysResultMessage, Option.bind_eq_some_iff, members_iff, reqField_iff reads_results', Given]
  constructor
  · rintro ⟨ms, hw, _, h, l, rfl, h'⟩; exact ⟨ms, l, hw, h, h'⟩
  · rintro ⟨ms, l, hw, h, h'⟩; exact ⟨ms, hw, _, h, l, rfl, h'⟩

/-! ## What is written as in the protocol is taken -/

section
variable {w : Form}

theorem written_loose {keys : List String} {j : Json} {ms : Members} (h : Written w keys j ms) : Written .loose keys j ms := by
  rcases h with h | ⟨-, h⟩
  · exact .inl h
  · exact .inr ⟨rfl, h⟩

theorem named_loose {names : List String} {name : String} {t : Json} (h : Named w names name t) : Named .loose names name t := by
  rcases h with h | ⟨-, h⟩
  · exact .inl h
  · exact .inr ⟨rfl, h⟩

theorem variant_loose {names keys : List String} {name : String} {j : Json} {ms : Members} (h : Variant w names name keys j ms) :
    Variant .loose names name keys j ms := by
  rcases h with ⟨e, t, ht, hn⟩ | ⟨-, t, l, e, hn, h⟩
  · exact .inl ⟨e, t, ht, named_loose hn⟩
  · exact .inr ⟨rfl, t, l, e, named_loose hn, h⟩

theorem given_mono {p q : α → Json → Prop} (h : ∀ a j, p a j → q a j) {ms : Members} {name : String} {a : α} (hg : Given ms name p a) :
    Given ms name q a := by
  obtain ⟨j, hj, ha⟩ := hg
  exact ⟨j, hj, h a j ha⟩

theorem maybe_mono {p q : α → Json → Prop} (h : ∀ a j, p a j → q a j) {ms : Members} {name : String} {o : Option α}
    (hm : Maybe ms name p o) : Maybe ms name q o := by
  cases o with
  | none => exact hm
  | some a => exact given_mono h hm

theorem each_mono {p q : α → Json → Prop} (h : ∀ a j, p a j → q a j) (as : List α) (j : Json) (he : Each p as j) : Each q as j := by
  obtain ⟨js, rfl, hp⟩ := he
  refine ⟨js, rfl, ?_⟩
  induction as generalizing js with
  | nil => cases js <;> exact hp
  | cons a as ih =>
    cases js with
    | nil => exact hp
    | cons j js => exact ⟨h a j hp.1, ih js hp.2⟩

theorem version_loose (v : Version) (j : Json) (h : SaysVersion w v j) : SaysVersion .loose v j := by
  obtain ⟨ms, hw, h⟩ := h
  exact ⟨ms, written_loose hw, h⟩

theorem specification_loose (s : Specification) (j : Json) (h : SaysSpecification w s j) : SaysSpecification .loose s j := by
  obtain ⟨ms, hw, h⟩ := h
  exact ⟨ms, written_loose hw, h⟩

theorem spawned_loose (s : Spawned) (j : Json) (h : SaysSpawned w s j) : SaysSpawned .loose s j := by
  obtain ⟨ms, hw, h1, h2⟩ := h
  exact ⟨ms, written_loose hw, given_mono version_loose h1, given_mono specification_loose h2⟩

theorem location_loose (l : Location) (j : Json) (h : SaysLocation w l j) : SaysLocation .loose l j := by
  obtain ⟨ms, hw, h⟩ := h
  exact ⟨ms, written_loose hw, h⟩

theorem oob_loose (e : OutOfBandError) (j : Json) (h : SaysOob w e j) : SaysOob .loose e j := by
  obtain ⟨ms, hw, h1, h2, h3, h4, h5⟩ := h
  exact ⟨ms, written_loose hw, h1, h2, h3, maybe_mono location_loose h4, h5⟩

mutual
theorem tree_loose : ∀ (t : TestOrGroup) (j : Json), SaysTree w t j → SaysTree .loose t j
  | .test id tags metadata, j, h => by
    unfold SaysTree at h ⊢
    obtain ⟨ms, hw, h⟩ := h
    exact ⟨ms, variant_loose hw, h⟩
  | .group name members tags metadata, j, h => by
    unfold SaysTree at h ⊢
    obtain ⟨ms, hw, h1, ⟨l, hl, h2⟩, h3⟩ := h
    exact ⟨ms, variant_loose hw, h1, ⟨l, hl, forest_loose members l h2⟩, h3⟩
theorem forest_loose : ∀ (ts : List TestOrGroup) (l : List Json), SaysForest w ts l → SaysForest .loose ts l
  | [], [], _ => by unfold SaysForest; trivial
  | [], _ :: _, h => by unfold SaysForest at h; exact h.elim
  | _ :: _, [], h => by unfold SaysForest at h; exact h.elim
  | t :: ts, j :: js, h => by
    unfold SaysForest at h ⊢
    exact ⟨tree_loose t j h.1, forest_loose ts js h.2⟩
end

theorem manifest_loose (m : Manifest) (j : Json) (h : SaysManifest w m j) : SaysManifest .loose m j := by
  obtain ⟨ms, hw, ⟨l, hl, h1⟩, h2⟩ := h
  exact ⟨ms, written_loose hw, ⟨l, hl, forest_loose _ l h1⟩, h2⟩

theorem manifestMessage_loose (m : ManifestMessage) (j : Json) (h : SaysManifestMessage w m j) : SaysManifestMessage .loose m j := by
  cases m with
  | success m e =>
    obtain ⟨ms, hw, h1, h2⟩ := h
    exact ⟨ms, written_loose hw, given_mono manifest_loose h1, maybe_mono (each_mono oob_loose) h2⟩
  | failure x e =>
    obtain ⟨ms, hw, h1, h2⟩ := h
    exact ⟨ms, written_loose hw, given_mono oob_loose h1, maybe_mono (each_mono oob_loose) h2⟩

theorem status_loose (s : Status) (j : Json) (h : SaysStatus w s j) : SaysStatus .loose s j := by
  cases s <;>
    · obtain ⟨ms, h⟩ := h
      first
        | exact ⟨ms, variant_loose h.1, h.2⟩
        | exact ⟨ms, variant_loose h⟩

theorem fields_loose (f : Fields) (ms : Members) (h : SaysFields w f ms) : SaysFields .loose f ms := by
  obtain ⟨h1, h2, h3, h4, h5, h6, h7, h8, h9, h10, h11⟩ := h
  exact ⟨given_mono status_loose h1, h2, h3, h4, h5, h6, maybe_mono location_loose h7, h8, h9, h10, maybe_mono (each_mono oob_loose) h11⟩

mutual
theorem result_loose : ∀ (r : TestResult) (j : Json), SaysResult w r j → SaysResult .loose r j
  | .mk f none, j, h => by
    unfold SaysResult at h ⊢
    obtain ⟨ms, hw, h1, h2⟩ := h
    exact ⟨ms, written_loose hw, fields_loose f ms h1, h2⟩
  | .mk f (some past), j, h => by
    unfold SaysResult at h ⊢
    obtain ⟨ms, hw, h1, l, hl, h2⟩ := h
    exact ⟨ms, written_loose hw, fields_loose f ms h1, l, hl, results_loose past l h2⟩
theorem results_loose : ∀ (rs : List TestResult) (l : List Json), SaysResults w rs l → SaysResults .loose rs l
  | [], [], _ => by unfold SaysResults; trivial
  | [], _ :: _, h => by unfold SaysResults at h; exact h.elim
  | _ :: _, [], h => by unfold SaysResults at h; exact h.elim
  | r :: rs, j :: js, h => by
    unfold SaysResults at h ⊢
    exact ⟨result_loose r j h.1, results_loose rs js h.2⟩
end

theorem resultMessage_loose (m : ResultMessage) (j : Json) (h : SaysResultMessage w m j) : SaysResultMessage .loose m j := by
  match m with
  | .incremental (.one r) =>
    obtain ⟨ms, hw, h1⟩ := h
    exact ⟨ms, variant_loose hw, given_mono result_loose h1⟩
  | .incremental (.done r) =>
    obtain ⟨ms, hw, h1⟩ := h
    exact ⟨ms, variant_loose hw, maybe_mono result_loose h1⟩
  | .single r =>
    obtain ⟨ms, hw, h1⟩ := h
    exact ⟨ms, written_loose hw, given_mono result_loose h1⟩
  | .multiple rs =>
    obtain ⟨ms, l, hw, hl, h1⟩ := h
    exact ⟨ms, l, written_loose hw, hl, results_loose rs l h1⟩

end

end Abq.Protocol
