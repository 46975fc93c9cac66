import Verif.Proof.Protocol
import Verif.Props.Flatten
/-!
# C95: what a native runner says is understood as it was said

For every document, with any members in any order. `SaysX .protocol x j`: the document says `x` in the form of the protocol;
`SaysX .loose x j`: it does in any form that is taken. What holds of every form `w` holds of both.
-/

namespace Abq.Props
open Abq.Protocol
open Abq.RunStateDoc (Json)

/-- **C95.** What is taken for a spawn message is one, and what is one is taken for it. -/
theorem C95_spawned (j : Json) (s : Spawned) : decSpawned j = some s ↔ SaysSpawned .loose s j := reads_spawned j s

/-- **C95.** A document that is written as in the protocol is one that is taken. -/
theorem C95_forms (w : Form) (j : Json) :
    (∀ s, SaysSpawned w s j → SaysSpawned .loose s j) ∧ (∀ m, SaysManifestMessage w m j → SaysManifestMessage .loose m j) ∧
    (∀ m, SaysResultMessage w m j → SaysResultMessage .loose m j) :=
  ⟨fun s => spawned_loose s j, fun m => manifestMessage_loose m j, fun m => resultMessage_loose m j⟩

/-- **C95.** A runner that says what the protocol has it say when it is spawned is understood. -/
theorem C95_spawned_read (w : Form) (j : Json) (s : Spawned) (h : SaysSpawned w s j) : decSpawned j = some s :=
  (C95_spawned j s).2 (spawned_loose s j h)

/-- **C95.** A manifest message is understood only as something it says. -/
theorem C95_manifest_said (j : Json) (m : ManifestMessage) (h : decManifestMessage j = some m) : SaysManifestMessage .loose m j := by
  unfold decManifestMessage at h
  split at h
  · rename_i m' hm
    cases h
    obtain ⟨x, e, rfl⟩ := decManifestSuccess_success hm
    exact (reads_manifest_success j x e).1 hm
  · obtain ⟨x, e, rfl⟩ := decManifestFailure_failure h
    exact (reads_manifest_failure j x e).1 h

/-- **C95.** A manifest is understood. -/
theorem C95_manifest_read (w : Form) (j : Json) (m : Manifest) (e : Option (List OutOfBandError))
    (h : SaysManifestMessage w (.success m e) j) : decManifestMessage j = some (.success m e) := by
  unfold decManifestMessage
  rw [(reads_manifest_success j m e).2 (manifestMessage_loose _ j h)]

/-- **C95.** A failure to make a manifest is understood exactly if the message does not say a manifest as well. -/
theorem C95_failure_exact (j : Json) (x : OutOfBandError) (e : Option (List OutOfBandError)) :
    decManifestMessage j = some (.failure x e) ↔
      SaysManifestMessage .loose (.failure x e) j ∧ ∀ m e', ¬SaysManifestMessage .loose (.success m e') j := by
  constructor
  · intro h
    refine ⟨C95_manifest_said j _ h, fun m e' hs => ?_⟩
    rw [C95_manifest_read .loose j m e' hs] at h
    cases h
  · rintro ⟨h, hn⟩
    unfold decManifestMessage
    cases hs : decManifestSuccess j with
    | none => exact (reads_manifest_failure _ x e).2 h
    | some m =>
      obtain ⟨y, e', rfl⟩ := decManifestSuccess_success hs
      exact absurd ((reads_manifest_success _ y e').1 hs) (hn y e')

theorem absent_only {ms : Members} {name : String} {j : Json} (h : Absent ms name) (hj : Only ms name j) : False := by
  rw [Only, filter_absent.2 h] at hj
  cases hj

theorem written_obj {w : Form} {keys : List String} {ms ms' : Members} (h : Written w keys (.obj ms) ms') : ms' = ms := by
  rcases h with e | ⟨-, l, e, -⟩
  · cases e; rfl
  · cases e

/-- **C95, part.** A failure to make a manifest is understood, if the message has no manifest. Missing: that it is understood whatever
else it has. -/
theorem C95_failure_read_partial (w : Form) (ms : Members) (x : OutOfBandError) (e : Option (List OutOfBandError))
    (h : SaysManifestMessage w (.failure x e) (.obj ms)) (hm : Absent ms "manifest") :
    decManifestMessage (.obj ms) = some (.failure x e) := by
  refine (C95_failure_exact _ x e).2 ⟨manifestMessage_loose _ _ h, ?_⟩
  rintro y e' ⟨ms', hw, ⟨j, hj, -⟩, -⟩
  cases written_obj hw
  exact absent_only hm hj

/-- **C95.** A message that says nothing known is refused, and no other. -/
theorem C95_manifest_refused (j : Json) : decManifestMessage j = none ↔ ∀ m, ¬SaysManifestMessage .loose m j := by
  constructor
  · intro h m hm
    unfold decManifestMessage at h
    split at h
    · cases h
    · rename_i hs
      cases m with
      | success x e => rw [(reads_manifest_success j x e).2 hm] at hs; cases hs
      | failure x e => rw [(reads_manifest_failure j x e).2 hm] at h; cases h
  · intro h
    cases hd : decManifestMessage j with
    | none => rfl
    | some m => exact absurd (C95_manifest_said j m hd) (h m)

/-- **C95.** A message with results is understood only as something it says. -/
theorem C95_results_said (j : Json) (m : ResultMessage) (h : decResultMessage j = some m) : SaysResultMessage .loose m j := by
  unfold decResultMessage at h
  split at h
  · rename_i m' hm
    cases h
    exact (reads_incremental j m').1 hm
  · split at h
    · rename_i r hr
      cases h
      exact (reads_single j r).1 hr
    · cases hm : decMultiple j with
      | none => rw [hm] at h; cases h
      | some rs => rw [hm] at h; cases h; exact (reads_multiple j rs).1 hm

/-- **C95.** A message with a result that is to be followed by more, or with the last of them, is understood. -/
theorem C95_incremental_read (w : Form) (j : Json) (m : Incremental) (h : SaysResultMessage w (.incremental m) j) :
    decResultMessage j = some (.incremental m) := by
  unfold decResultMessage
  rw [(reads_incremental j m).2 (resultMessage_loose _ j h)]

theorem unsaid {α : Type} {dec : Json → Option α} {says : α → Json → Prop} (hr : Reads dec says) {j : Json} (h : ∀ a, ¬says a j) :
    dec j = none := by
  cases hd : dec j with
  | none => rfl
  | some a => exact absurd ((hr j a).1 hd) (h a)

/-- **C95.** A message with one result is understood exactly if it is not one of several messages for a test as well. -/
theorem C95_single_exact (j : Json) (r : TestResult) :
    decResultMessage j = some (.single r) ↔
      SaysResultMessage .loose (.single r) j ∧ ∀ m, ¬SaysResultMessage .loose (.incremental m) j := by
  constructor
  · intro h
    refine ⟨C95_results_said j _ h, fun m hm => ?_⟩
    rw [C95_incremental_read .loose j m hm] at h
    cases h
  · rintro ⟨h, hn⟩
    unfold decResultMessage
    rw [unsaid reads_incremental hn, (reads_single j r).2 h]

/-- **C95.** A message with several results is understood exactly if it is neither of the other two as well. -/
theorem C95_multiple_exact (j : Json) (rs : List TestResult) :
    decResultMessage j = some (.multiple rs) ↔
      SaysResultMessage .loose (.multiple rs) j ∧ (∀ m, ¬SaysResultMessage .loose (.incremental m) j) ∧
        ∀ r, ¬SaysResultMessage .loose (.single r) j := by
  constructor
  · intro h
    have hi : ∀ m, ¬SaysResultMessage .loose (.incremental m) j := fun m hm => by
      rw [C95_incremental_read .loose j m hm] at h
      cases h
    refine ⟨C95_results_said j _ h, hi, fun r hr => ?_⟩
    rw [(C95_single_exact j r).2 ⟨hr, hi⟩] at h
    cases h
  · rintro ⟨h, hn, hs⟩
    unfold decResultMessage
    rw [unsaid reads_incremental hn, unsaid reads_single hs, (reads_multiple j rs).2 h]
    rfl

theorem not_incremental {ms : Members} (h : Absent ms "type") (m : Incremental) : ¬SaysResultMessage .loose (.incremental m) (.obj ms) := by
  intro hs
  have : ∀ name keys ms', ¬Variant .loose incrementalNames name keys (.obj ms) ms' := by
    rintro name keys ms' (⟨e, t, ht, -⟩ | ⟨-, t, l, e, -⟩)
    · cases e; exact absent_only h ht
    · cases e
  cases m with
  | one r => obtain ⟨ms', hv, -⟩ := hs; exact this _ _ _ hv
  | done r => obtain ⟨ms', hv, -⟩ := hs; exact this _ _ _ hv

/-- **C95, part.** A message with one result is understood, if it has no type. -/
theorem C95_single_read_partial (w : Form) (ms : Members) (r : TestResult) (h : SaysResultMessage w (.single r) (.obj ms))
    (ht : Absent ms "type") : decResultMessage (.obj ms) = some (.single r) :=
  (C95_single_exact _ r).2 ⟨resultMessage_loose _ _ h, not_incremental ht⟩

/-- **C95, part.** A message with several results is understood, if it has no type and none with one result. -/
theorem C95_multiple_read_partial (w : Form) (ms : Members) (rs : List TestResult) (h : SaysResultMessage w (.multiple rs) (.obj ms))
    (ht : Absent ms "type") (hs : Absent ms "test_result") : decResultMessage (.obj ms) = some (.multiple rs) := by
  refine (C95_multiple_exact _ rs).2 ⟨resultMessage_loose _ _ h, not_incremental ht, ?_⟩
  rintro r ⟨ms', hw, j, hj, -⟩
  cases written_obj hw
  exact absent_only hs hj

/-- **C95.** A message that says nothing known is refused, and no other. -/
theorem C95_results_refused (j : Json) : decResultMessage j = none ↔ ∀ m, ¬SaysResultMessage .loose m j := by
  constructor
  · intro h m hm
    unfold decResultMessage at h
    split at h
    · cases h
    · rename_i hi
      split at h
      · cases h
      · rename_i hs
        cases m with
        | incremental m => rw [(reads_incremental j m).2 hm] at hi; cases hi
        | single r => rw [(reads_single j r).2 hm] at hs; cases hs
        | multiple rs => rw [(reads_multiple j rs).2 hm] at h; cases h
  · intro h
    cases hd : decResultMessage j with
    | none => rfl
    | some m => exact absurd (C95_results_said j m hd) (h m)

/-- **C95.** What a native runner says once it is initialized is only that it is: any object will do, and an empty array. -/
theorem C95_init_success (j : Json) : (decInitSuccess j).isSome = true ↔ (∃ ms, j = .obj ms) ∨ j = .arr [] := by
  cases j with
  | arr l => cases l <;> simp [decInitSuccess, members]
  | _ => simp [decInitSuccess, members]

/-! ## What is made of it -/

theorem same_fields (now : Nat) (f : Fields) : SameFields f (f.spec now) := by
  obtain ⟨s, _, _, _, _, _, _, _, _, _, _⟩ := f
  refine ⟨?_, rfl, rfl, rfl, rfl, rfl, rfl, rfl, rfl, rfl, rfl⟩
  cases s <;> first | exact ⟨rfl, rfl⟩ | exact trivial

mutual
/-- **C95.** A result is reported as it was said, field by field, with all its past attempts. -/
theorem C95_reported (now : Nat) : ∀ r : TestResult, Same r (r.spec now)
  | .mk f none => by unfold TestResult.spec Same; exact same_fields now f
  | .mk f (some past) => by unfold TestResult.spec Same; exact ⟨same_fields now f, C95_reported_all now past⟩
theorem C95_reported_all (now : Nat) : ∀ rs : List TestResult, SameAll rs (specs now rs)
  | [] => trivial
  | r :: rs => by unfold specs SameAll; exact ⟨C95_reported now r, C95_reported_all now rs⟩
end

/-- **C95.** A result counts as failing exactly if the native runner said failure, error or timed out. -/
theorem C95_failing (s : Status) : s.abq.isFailLike = true ↔ (∃ e b, s = .failure e b) ∨ (∃ e b, s = .error e b) ∨ s = .timedOut := by
  cases s <;> simp [Status.abq, AbqStatus.isFailLike]

/-- **C95.** Of the results that abq makes up itself, because the native runner failed, all count as failing. -/
theorem C95_made_up_failing (s : AbqStatus) (h : ∀ x : Status, s ≠ x.abq) : s.isFailLike = true := by
  cases s with
  | failure e b => exact absurd rfl (h (.failure e b))
  | success => exact absurd rfl (h .success)
  | error e b => exact absurd rfl (h (.error e b))
  | pending => exact absurd rfl (h .pending)
  | todo => exact absurd rfl (h .todo)
  | skipped => exact absurd rfl (h .skipped)
  | timedOut => rfl
  | privateNativeRunnerError => rfl

/-- There is one. -/
example : ∀ x : Status, AbqStatus.privateNativeRunnerError ≠ x.abq := by intro x; cases x <;> simp [Status.abq]

/-- **C95.** All results of a message are reported once, in their order, as coming from this runner; the worker goes on reading
exactly if the message says that there is more to come. -/
theorem C95_all {S : Type} (now : Nat) (source : S) (m : ResultMessage) :
    match m with
    | .single r => ∃ s, m.set now source = .all [(source, s)] ∧ Same r s
    | .multiple rs => ∃ ss : List ResultSpec, m.set now source = .all (ss.map fun s => (source, s)) ∧ SameAll rs ss
    | .incremental (.one r) => ∃ s, m.set now source = .one (source, s) ∧ Same r s
    | .incremental (.done none) => m.set now source = .done none
    | .incremental (.done (some r)) => ∃ s, m.set now source = .done (some (source, s)) ∧ Same r s := by
  match m with
  | .single r => exact ⟨_, rfl, C95_reported now r⟩
  | .multiple rs =>
    refine ⟨specs now rs, ?_, C95_reported_all now rs⟩
    show ResultSet.all (rs.map fun r => (source, r.spec now)) = _
    congr 1
    induction rs with
    | nil => rfl
    | cons r rs ih => unfold specs; simp [ih]
  | .incremental (.one r) => exact ⟨_, rfl, C95_reported now r⟩
  | .incremental (.done none) => rfl
  | .incremental (.done (some r)) => exact ⟨_, rfl, C95_reported now r⟩

mutual
theorem tree_ids (enc : Metadata → String) : ∀ t : TestOrGroup, (t.tree enc).tests.map (·.id) = t.ids
  | .test id tags metadata => by simp [TestOrGroup.tree, Flatten.Tree.tests, TestOrGroup.ids]
  | .group name members tags metadata => by
    simp only [TestOrGroup.tree, Flatten.Tree.tests, TestOrGroup.ids]
    exact forest_ids enc members
theorem forest_ids (enc : Metadata → String) : ∀ ts : List TestOrGroup,
    (Flatten.testsL (forest enc ts)).map (·.id) = TestOrGroup.ids.idsL ts
  | [] => rfl
  | t :: ts => by
    simp only [forest, Flatten.testsL, TestOrGroup.ids.idsL, List.map_append]
    rw [tree_ids enc t, forest_ids enc ts]
end

/-- **C95.** The tests of a run are those of the document its manifest was read from, in the order of the document. -/
theorem C95_tests (enc : Metadata → String) (j : Json) (m : Manifest) (e : Option (List OutOfBandError))
    (h : decManifestMessage j = some (.success m e)) :
    SaysManifestMessage .loose (.success m e) j ∧
    (Flatten.flatten (forest enc m.members)).map (·.id) = TestOrGroup.ids.idsL m.members := by
  refine ⟨C95_manifest_said j _ h, ?_⟩
  rw [← forest_ids enc, ← (C39_tests_in_order (forest enc m.members)).1, List.map_map]
  rfl

/-! ## What is said to it -/

theorem says_strs (l : List String) : SaysStrs l (encStrs l) := by
  refine ⟨_, rfl, ?_⟩
  induction l with
  | nil => trivial
  | cons s l ih => exact ⟨rfl, ih⟩

/-- **C95.** What is sent to a native runner says which test to run, with its metadata, and narrowed to what. -/
theorem C95_sent (t : TestCase) : SaysTestCase t (encTestCaseMessage t) := by
  obtain ⟨id, m, focus⟩ := t
  cases focus with
  | none => exact ⟨_, _, rfl, rfl, ⟨_, rfl, rfl⟩, ⟨_, rfl, rfl⟩, by intro m hm; simp at hm; rcases hm with rfl | rfl <;> simp⟩
  | some ids => exact ⟨_, _, rfl, rfl, ⟨_, rfl, rfl⟩, ⟨_, rfl, rfl⟩, _, rfl, _, rfl, says_strs ids⟩

/-- **C95.** It is initialized with the metadata of the manifest. -/
theorem C95_init (m : Metadata) (fast : Bool) : SaysInit m fast (encInitMessage m fast) :=
  ⟨_, rfl, ⟨_, rfl, rfl⟩, rfl⟩

/-! ## Where the type of a message is not looked at -/

/-- A message that says that no manifest could be made, and has the part that could be made. -/
def failureWithManifest : Members :=
  [("type", .str "manifest_failure"), ("error", .obj [("message", .str "syntax error")]),
    ("manifest", .obj [("members", .arr []), ("init_meta", .obj [])])]

/-- **C95, full statement fails.** A message whose type is that of a failure, and that says which, is taken for a success if
it has a member `manifest`: the type of the message is not looked at. -/
theorem C95_full_statement_fails : ∃ ms x,
    Only ms "type" (.str "manifest_failure") ∧ SaysManifestMessage .protocol (.failure x none) (.obj ms) ∧
    ∃ m, decManifestMessage (.obj ms) = some (.success m none) :=
  ⟨failureWithManifest, ⟨"syntax error", none, none, none, none⟩, rfl,
    ⟨_, .inl rfl, ⟨_, rfl, _, .inl rfl, ⟨_, rfl, rfl⟩, .inl (filter_absent.1 rfl), .inl (filter_absent.1 rfl), .inl (filter_absent.1 rfl), .inl (filter_absent.1 rfl)⟩,
      .inl (filter_absent.1 rfl)⟩, ⟨[], []⟩, rfl⟩

/-- A document with members in any order, some of them unknown. -/
def aResult : Json :=
  .obj [("id", .str "t"), ("color", .str "red"), ("status", .obj [("exception", .str "E"), ("type", .str "failure")]),
    ("runtime", .int 5), ("meta", .obj []), ("display_name", .str "T"), ("output", .null)]

def aResultSaid : TestResult :=
  .mk ⟨.failure (some "E") none, "t", "T", none, 5, [], none, none, none, none, none⟩ none

example : decResultMessage (.obj [("test_result", aResult)]) = some (.single aResultSaid) := rfl
example : SaysResultMessage .loose (.single aResultSaid) (.obj [("test_result", aResult)]) := (C95_results_said _ _ rfl)
example : decResultMessage (.obj [("type", .str "incremental_result"), ("one_test_result", aResult)]) =
    some (.incremental (.one aResultSaid)) := rfl
example : decResultMessage (.obj [("test_results", .arr [aResult, aResult])]) = some (.multiple [aResultSaid, aResultSaid]) := rfl
example : decManifestMessage (.obj [("manifest", .obj [("init_meta", .obj []), ("members", .arr [.obj [("type", .str "group"),
    ("name", .str "g"), ("tags", .arr []), ("meta", .obj []), ("members", .arr [.obj [("type", .str "test"), ("id", .str "a"),
      ("tags", .arr []), ("meta", .obj [])]])]])])]) =
    some (.success ⟨[.group "g" [.test "a" [] []] [] []], []⟩ none) := rfl

/-- The same result as an array of its fields, its status by number: it is taken, though it is not written as in the protocol. -/
def aResultArray : Json :=
  .arr [.arr [.int 0, .str "E", .null], .str "t", .str "T", .null, .int 5, .obj [], .null, .null, .null, .null, .null, .null]

example : decResultMessage (.arr [aResultArray]) = some (.single aResultSaid) := rfl
example : decResultMessage (.arr [.int 1, aResultArray]) = some (.incremental (.done (some aResultSaid))) := rfl
example : ∀ m, ¬SaysResultMessage .protocol m (.arr [aResultArray]) := by
  have hw : ∀ keys l ms, ¬Written .protocol keys (.arr l) ms := by rintro keys l ms (h | ⟨h, -⟩) <;> cases h
  have hv : ∀ names name keys l ms, ¬Variant .protocol names name keys (.arr l) ms := by
    rintro names name keys l ms (⟨h, -⟩ | ⟨h, -⟩) <;> cases h
  intro m h
  match m with
  | .incremental (.one r) => obtain ⟨ms, h, -⟩ := h; exact hv _ _ _ _ _ h
  | .incremental (.done r) => obtain ⟨ms, h, -⟩ := h; exact hv _ _ _ _ _ h
  | .single r => obtain ⟨ms, h, -⟩ := h; exact hw _ _ _ h
  | .multiple r => obtain ⟨ms, l, h, -⟩ := h; exact hw _ _ _ h
example : decManifestMessage (.arr [.arr [.arr [.arr [.str "group", .str "g", .arr [.arr [.int 0, .str "a", .arr [], .obj []]], .arr [],
    .obj []]], .obj []], .null]) = some (.success ⟨[.group "g" [.test "a" [] []] [] []], []⟩ none) := rfl
/-- All fields must be there, and nothing else. -/
example : decManifestMessage (.arr [.arr [.arr [], .obj []]]) = none := rfl
example : decManifestMessage (.arr [.arr [.arr [], .obj []], .null, .null]) = none := rfl
example : (decInitSuccess (.obj [("ready", .bool true)])).isSome = true := rfl
example : decInitSuccess (.arr [.null]) = none := rfl

end Abq.Props
