import Verif.Proof.MessagesNative
import Verif.Props.JsonText
import Verif.Props.Protocol
/-!
# Messages arrive as they were sent (C101)

Every message between the workers and the queue, and every file of the queue with them, is written as JSON and read back by the
functions `serde` derives for its type. `send` and `receive` are with the text of `Model/JsonText.lean`.
-/

namespace Abq.Props
open Abq.Messages Abq.Protocol Abq.Spec.JsonText Abq.Spec.Messages Abq.JsonText
open RunStateDoc (Json)

theorem received {T : Type} {enc : T → Json} {dec : Json → Option T} {f : Floats} {k : Nat} {m : T} (hb : dec (enc m) = some m)
    (hf : Fit f k (enc m)) (hk : k < 128) : receive dec f (send enc m) = some m := by
  unfold receive send
  rw [C100_text_roundtrip_partial f _ hf.1 (Nat.lt_of_le_of_lt hf.2 hk)]
  exact hb

theorem unreadable {T : Type} {enc : T → Json} {dec : Json → Option T} {f : Floats} {k : Nat} {m : T} (hf : Fit f k (enc m))
    (hk : 128 ≤ depth (enc m)) : receive dec f (send enc m) = none := by
  unfold receive send
  rw [C100_too_deep f _ hf.1 hk]
  rfl

/-- C101: a request of a worker or reporter is received as it was sent, if its results or its manifest are not nested too deep.

Missing for the full statement, which is false (`C101_full_statement_fails`): those that are too deep. -/
theorem C101_request_received_partial (f : Floats) (r : Request) (h : RequestOk f r) (hd : Shallow r.message) :
    receive decRequest f (send encRequest r) = some r := by
  obtain ⟨e, m⟩ := r
  have hb := decRequest_enc h
  by_cases h1 : ∃ run x, m = .manifestResult run x
  · obtain ⟨run, x, rfl⟩ := h1
    refine received hb (fit_request f h.1 (fit_manifestMessage f h.2)) ?_
    cases x with
    | manifest r =>
      have : manifestHeight r.manifest ≤ 122 := hd
      show max (2 + manifestHeight r.manifest + 2) 3 + 1 < 128
      omega
    | runnerError e o =>
      show max (4 + 2) 3 + 1 < 128
      decide
  · by_cases h2 : ∃ run rs, m = .workerResult run rs
    · obtain ⟨run, rs, rfl⟩ := h2
      exact received hb (fit_request f h.1 (fit_resultsMessage f h.2 hd)) (by decide)
    · exact received hb (fit_request f h.1 (fit_plain f (fun run x e => h1 ⟨run, x, e⟩) (fun run rs e => h2 ⟨run, rs, e⟩))) (by decide)

/-- C101: and the deeper ones are sent, but cannot be read by the queue. -/
theorem C101_too_deep (f : Floats) (r : Request) (h : RequestOk f r) (hd : ¬ Shallow r.message) :
    receive decRequest f (send encRequest r) = none := by
  obtain ⟨e, m⟩ := r
  cases m with
  | manifestResult run x =>
    cases x with
    | manifest r =>
      refine unreadable (fit_request f h.1 (fit_manifestMessage f h.2)) ?_
      have h1 : ¬ manifestHeight r.manifest ≤ 122 := hd
      have h2 := manifestMessage_depth run r
      have h3 := request_depth e (.manifestResult run (.manifest r))
      omega
    | runnerError e o => exact absurd trivial hd
  | workerResult run rs =>
    have hd' : ∃ a ∈ rs, ∃ r ∈ a.results, ¬ height r.result ≤ 120 := by
      apply Classical.byContradiction
      intro hn
      refine hd fun a ha r hr => ?_
      apply Classical.byContradiction
      intro hh
      exact hn ⟨a, ha, r, hr, hh⟩
    obtain ⟨a, ha, r, hr, hh⟩ := hd'
    have hk : ∀ a ∈ rs, ∀ r ∈ a.results, height r.result ≤ heights (rs.flatMap fun a => a.results.map (·.result)) := by
      intro a ha r hr
      have : ∀ (l : List ResultSpec) (x : ResultSpec), x ∈ l → height x ≤ heights l := by
        intro l
        induction l with
        | nil => intro x hx; cases hx
        | cons y l ih =>
          intro x hx
          rw [heights]
          rcases List.mem_cons.mp hx with rfl | hx
          · omega
          · have := ih x hx
            omega
      exact this _ _ (List.mem_flatMap.mpr ⟨a, ha, List.mem_map_of_mem (f := (·.result)) hr⟩)
    refine unreadable (fit_request f h.1 (fit_resultsMessage f h.2 hk)) ?_
    have h2 := resultsMessage_depth (run := run) ha hr
    have h3 := request_depth e (.workerResult run rs)
    omega
  | _ => exact absurd trivial hd

/-- C101: what was received is in the file of results, too: the line with it is read back. -/
theorem C101_line_read_back (f : Floats) (e : RunStateDoc.Entity) (run : String) (rs : List Associated)
    (h : RequestOk f ⟨e, .workerResult run rs⟩)
    (hr : receive decRequest f (send encRequest ⟨e, .workerResult run rs⟩) = some ⟨e, .workerResult run rs⟩) :
    receive decLine f (send encLine (.results rs)) = some (.results rs) := by
  have hs : Shallow (.workerResult run rs) := by
    apply Classical.byContradiction
    intro hn
    rw [C101_too_deep f _ h hn] at hr
    cases hr
  exact received (decLine_enc (f := f) h.2) (fit_lineResults f h.2 hs) (by decide)

theorem C101_summary_read_back (f : Floats) (n : Nat) (v : Version) (s : Specification) (hn : n < 2 ^ 64) (hv : VersionOk v) :
    receive decLine f (send encLine (.summary n v s)) = some (.summary n v s) :=
  received (decLine_enc (f := f) ⟨hn, hv⟩) (fit_summary f ⟨hn, hv⟩) (by decide)

/-- The tests are tests of the manifest. -/
theorem tests_shallow {m : Manifest} {id : String} {md : Metadata} (h : (id, md) ∈ testsOfAll m.members) :
    3 + depth (.obj md) ≤ manifestHeight m := by
  have key : ∀ ts : List TestOrGroup, (id, md) ∈ testsOfAll ts → 1 + depth (.obj md) ≤ forestHeight ts := by
    intro ts
    induction ts using testsOfAll.induct (motive_1 := fun t => (id, md) ∈ testsOf t → 1 + depth (.obj md) ≤ treeHeight t) with
    | case1 i tags m =>
      rename_i h
      rw [testsOf] at h
      cases List.mem_singleton.mp h
      rw [treeHeight]
      omega
    | case2 name members tags m ih =>
      rename_i h
      rw [testsOf] at h
      have := ih h
      rw [treeHeight]
      omega
    | case3 =>
      intro h
      rw [testsOfAll] at h
      cases h
    | case4 t ts ih1 ih2 =>
      intro h
      rw [testsOfAll] at h
      rw [forestHeight]
      rcases List.mem_append.mp h with h | h
      · have := ih1 h
        omega
      · have := ih2 h
        omega
  have := key _ h
  unfold manifestHeight
  omega

/-- C101: once the queue has received a manifest, every message with its tests and its metadata can be read by the workers, and the
files with them by the queue. -/
theorem C101_tests_received (f : Floats) (e : RunStateDoc.Entity) (run : String) (r : Reported)
    (h : RequestOk f ⟨e, .manifestResult run (.manifest r)⟩)
    (hr : receive decRequest f (send encRequest ⟨e, .manifestResult run (.manifest r)⟩) = some ⟨e, .manifestResult run (.manifest r)⟩)
    (work : List Messages.Test) (hw : ∀ t ∈ work, TestOk f t ∧ (t.testCase.id, t.testCase.metadata) ∈ testsOfAll r.manifest.members) :
    (∀ eow, receive decNextTests f (send encNextTests ⟨work, eow⟩) = some ⟨work, eow⟩) ∧
    (∀ eow, receive decRetryManifest f (send encRetryManifest (.manifest ⟨work, eow⟩)) = some (.manifest ⟨work, eow⟩)) ∧
    (∀ assigned, (∀ t ∈ assigned, TagOk t) → receive decView f (send encView ⟨work, assigned⟩) = some ⟨work, assigned⟩) ∧
    receive decContext f (send encContext (.init r.manifest.initMeta)) = some (.init r.manifest.initMeta) := by
  have hs : Shallow (.manifestResult run (.manifest r)) := by
    apply Classical.byContradiction
    intro hn
    rw [C101_too_deep f _ h hn] at hr
    cases hr
  replace hs : manifestHeight r.manifest ≤ 122 := hs
  have hok : ∀ t ∈ work, TestOk f t := fun t ht => (hw t ht).1
  have hd : ∀ t ∈ work, testHeight t ≤ 119 := by
    intro t ht
    have := tests_shallow (hw t ht).2
    unfold testHeight
    omega
  refine ⟨fun eow => ?_, fun eow => ?_, fun assigned ha => ?_, ?_⟩
  · exact received (decNextTests_enc (f := f) (b := ⟨work, eow⟩) hok) (fit_obj1 (fit_bundle f (b := ⟨work, eow⟩) hok hd)) (by decide)
  · exact received (decRetryManifest_enc (f := f) (fun b hb => by cases hb; exact hok))
      (show Fit f (119 + 5 + 1) (encRetryManifest _) from fit_obj1 (fit_bundle f (b := ⟨work, eow⟩) hok hd)) (by decide)
  · exact received (decView_enc (f := f) (v := ⟨work, assigned⟩) hok ha) (fit_view f (v := ⟨work, assigned⟩) hok ha hd) (by decide)
  · have hm : Fit f 121 (.obj r.manifest.initMeta) := by
      refine ⟨h.2.2.1, ?_⟩
      unfold manifestHeight at hs
      omega
    exact received (decContext_enc _) (show Fit f (121 + 1 + 1) (encContext _) from fit_obj1 (fit_struct ⟨some_fit hm, trivial⟩)) (by decide)

/-- C101: answers without tests. -/
theorem C101_other_answers_received (f : Floats) :
    (∀ c : Context, (∀ m, c ≠ .init m) → receive decContext f (send encContext c) = some c) ∧
    (∀ r : RetryManifest, (∀ b, r ≠ .manifest b) → receive decRetryManifest f (send encRetryManifest r) = some r) := by
  refine ⟨fun c hc => ?_, fun r hr => ?_⟩
  · refine received (k := 3) (decContext_enc c) ?_ (by decide)
    cases c with
    | waitingForManifest => exact fit_str ..
    | init m => exact absurd rfl (hc m)
    | runAlreadyCompleted b => exact fit_obj1 (fit_struct ⟨some_fit (fit_bool ..), trivial⟩)
  · refine received (k := 3) (decRetryManifest_enc (f := f) fun b e => absurd e (hr b)) ?_ (by decide)
    cases r with
    | manifest b => exact absurd rfl (hr b)
    | notYetPersisted => exact fit_str ..
    | error x => exact fit_obj1 (by cases x <;> exact fit_str ..)

/-- C101: requests of runners for tests. -/
theorem C101_work_request_received (f : Floats) (r : WorkRequest) (he : EntityOk r.entity)
    (h : ∀ run e, r.message = .retryManifest run e → EntityOk e) : receive decWorkRequest f (send encWorkRequest r) = some r :=
  received (decWorkRequest_enc he h) (fit_workRequest f he h) (by decide)

/-- C101: what workers say when they start, and what they are answered. -/
theorem C101_negotiation_received (f : Floats) :
    (∀ n : Negotiation, EntityOk n.entity → (∀ w, n.invoke = some w → InvokeOk w) →
      receive decNegotiation f (send encNegotiation n) = some n) ∧
    (∀ n : Negotiated, (∀ c, n = .runAlreadyCompleted c → -2 ^ 31 ≤ c ∧ c < 2 ^ 31) →
      (∀ w q k d, n = .context w q k d → AddrOk w ∧ AddrOk q) →
      receive decNegotiated f (send encNegotiated n) = some n) :=
  ⟨fun _ he h => received (decNegotiation_enc he h) (fit_negotiation f he h) (by decide),
   fun _ h ha => received (decNegotiated_enc h ha) (fit_negotiated f h) (by decide)⟩

/-! ## From the native runner to the queue -/

theorem withOutput_height (x o : Option (List UInt8)) (r : ResultSpec) : height (withOutput x o r) = height r := by
  obtain ⟨r, past⟩ := r
  cases past <;> simp only [withOutput, height] <;> rfl

theorem withOutput_ok {f : Floats} (x o : Option (List UInt8)) {r : ResultSpec} (h : SpecOk f r) : SpecOk f (withOutput x o r) := by
  obtain ⟨r, past⟩ := r
  cases past with
  | none =>
    rw [SpecOk] at h
    rw [withOutput, SpecOk]
    exact h
  | some past =>
    rw [SpecOk] at h
    rw [withOutput, SpecOk]
    exact h

/-- C101: the results that native runners report reach the queue: whatever text a message of theirs is, if it is nested at most 120
deep, a request with the results of such messages is received as it was sent.

Missing for the full statement: messages which are nested 121 to 127 deep. -/
theorem C101_native_results_received_partial (f : Floats) (e : RunStateDoc.Entity) (he : EntityOk e) (run : String) (now : Nat)
    (hn : now < 2 ^ 64) (rs : List Associated)
    (h : ∀ a ∈ rs, Bytes 16 a.workId ∧ a.runNumber < 2 ^ 32 ∧ ∀ r ∈ a.results,
      r.source.runner.worker < 2 ^ 32 ∧ r.source.runner.runner < 2 ^ 32 ∧
      ∃ (t : List JsonText.Byte) (j : Json) (m : ResultMessage) (stderr stdout : Option (List UInt8)),
        parse f t = some j ∧ Holdable f j ∧ depth j ≤ 120 ∧ decResultMessage j = some m ∧
        ∃ s ∈ resultsIn (m.set now ()), r.result = withOutput stderr stdout s) :
    receive decRequest f (send encRequest ⟨e, .workerResult run rs⟩) = some ⟨e, .workerResult run rs⟩ := by
  refine C101_request_received_partial f _ ⟨he, fun a ha => ⟨(h a ha).1, (h a ha).2.1, fun r hr => ?_⟩⟩ fun a ha r hr => ?_
  · obtain ⟨h1, h2, t, j, m, x, o, _, hj, _, hm, s, hs, e⟩ := (h a ha).2.2 r hr
    refine ⟨h1, h2, ?_⟩
    rw [e]
    exact withOutput_ok x o (message_said hn (C95_results_said j m hm) hj s hs).1
  · obtain ⟨h1, h2, t, j, m, x, o, _, hj, hd, hm, s, hs, e⟩ := (h a ha).2.2 r hr
    rw [e, withOutput_height]
    exact Nat.le_trans (message_said hn (C95_results_said j m hm) hj s hs).2 hd

/-- C101: manifests, likewise, if the message is nested at most 123 deep. -/
theorem C101_native_manifest_received_partial (f : Floats) (e : RunStateDoc.Entity) (he : EntityOk e) (run : String) (r : Reported)
    (hv : VersionOk r.protocol) (t : List JsonText.Byte) (j : Json) (ht : parse f t = some j) (hj : Holdable f j) (hd : depth j ≤ 123)
    (errors : Option (List OutOfBandError)) (hm : decManifestMessage j = some (.success r.manifest errors)) :
    receive decRequest f (send encRequest ⟨e, .manifestResult run (.manifest r)⟩) = some ⟨e, .manifestResult run (.manifest r)⟩ := by
  obtain ⟨ms, hw, ⟨i, hi, hs⟩, _⟩ := C95_manifest_said j _ hm
  obtain ⟨hj, hd'⟩ := written_under hw hj
  have h1 := only_under hi hj
  have h2 := manifest_said hs h1.1
  refine C101_request_received_partial f _ ⟨he, h2.1, h2.2.1, hv⟩ ?_
  have h3 := h1.2
  have h4 := h2.2.2
  show manifestHeight r.manifest ≤ 122
  omega

/-! ## What is lost -/

namespace Deep

/-- A result with this in its metadata. -/
def result (x : Json) : Json :=
  .obj [("status", .obj [("type", .str "success")]), ("id", .str "t"), ("display_name", .str "t"), ("runtime", .int 1),
    ("meta", .obj [("a", x)])]

def message (x : Json) : Json := .obj [("test_result", result x)]

def fields (x : Json) : Fields := ⟨.success, "t", "t", none, 1, [("a", x)], none, none, none, none, none⟩

def entity : RunStateDoc.Entity := ⟨List.replicate 16 7, .runner ⟨0, 1⟩⟩

def associated (x : Json) : Associated :=
  ⟨List.replicate 16 3, 1, [⟨⟨⟨0, 1⟩, false, false⟩, (TestResult.mk (fields x) none).spec 1⟩], ⟨[], []⟩, none⟩

theorem message_holdable {f : Floats} {x : Json} (h : Holdable f x) : Holdable f (message x) := by
  simp only [message, result, Holdable, HoldableMembers]
  exact ⟨⟨⟨trivial, trivial⟩, trivial, trivial, ⟨by omega, by omega⟩, ⟨h, trivial⟩, trivial⟩, trivial⟩

theorem entity_ok : EntityOk entity := ⟨⟨rfl, by decide⟩, ⟨by unfold U32; decide, by unfold U32; decide⟩⟩

theorem message_depth (x : Json) : depth (message x) = 3 + depth x := by
  simp only [message, result, depth, memberDepths]
  omega

theorem message_decoded (x : Json) : decResultMessage (message x) = some (.single (.mk (fields x) none)) := rfl

theorem fields_height (x : Json) : 2 + depth x ≤ fieldsHeight ((fields x).spec 1) := by
  have h : 1 + depth (.obj [("a", x)]) ≤ fieldsHeight ((fields x).spec 1) := by
    unfold fieldsHeight
    show _ ≤ max (max _ (1 + depth (.obj [("a", x)]))) _
    omega
  rw [obj1_depth] at h
  omega

theorem height_ge (x : Json) : 2 + depth x ≤ height ((TestResult.mk (fields x) none).spec 1) := by
  rw [TestResult.spec, height]
  exact fields_height x

theorem request_ok {f : Floats} {x : Json} (h : Holdable f x) : RequestOk f ⟨entity, .workerResult "run" [associated x]⟩ := by
  refine ⟨entity_ok, fun a ha => ?_⟩
  cases List.mem_singleton.mp ha
  refine ⟨⟨rfl, show ∀ b ∈ List.replicate 16 3, b < 256 by decide⟩, show 1 < 2 ^ 32 by decide, fun r hr => ?_⟩
  cases List.mem_singleton.mp hr
  refine ⟨show 0 < 2 ^ 32 by decide, show 1 < 2 ^ 32 by decide, ?_⟩
  exact (message_said (S := Unit) (now := 1) (source := ()) (by unfold U64; decide) (C95_results_said _ _ (message_decoded x))
    (message_holdable h) _ (List.mem_singleton_self _)).1

/-- A message that can be read is passed on in a request that cannot. -/
theorem lost {f : Floats} {x : Json} (h : Holdable f x) (h1 : 119 ≤ depth x) (h2 : depth x < 125) :
    parse f (print (message x)) = some (message x) ∧
    receive decRequest f (send encRequest ⟨entity, .workerResult "run" [associated x]⟩) = none := by
  refine ⟨C100_text_roundtrip_partial f _ (message_holdable h) (by rw [message_depth]; omega), ?_⟩
  refine C101_too_deep f _ (request_ok h) fun hs => ?_
  have h3 := hs _ (List.mem_singleton_self _) _ (List.mem_singleton_self _)
  have h4 := height_ge x
  have h5 := Nat.le_trans h4 h3
  omega

/-- A manifest with a test with this in its metadata. -/
def manifest (x : Json) : Manifest := ⟨[.test "t" ["slow"] [("a", x)], .group "g" [.test "u" [] []] [] []], [("seed", .int 7)]⟩

def reported (x : Json) : Reported := ⟨manifest x, ⟨0, 2⟩, ⟨"r", "1", "f", "2", "l", "3", "h"⟩⟩

theorem manifest_ok {f : Floats} {x : Json} (h : Holdable f x) :
    RequestOk f ⟨entity, .manifestResult "run" (.manifest (reported x))⟩ := by
  refine ⟨entity_ok, ?_, ?_, show 0 < 2 ^ 64 ∧ 2 < 2 ^ 64 by decide⟩
  · show ForestOk f (manifest x).members
    simp only [manifest, ForestOk, TreeOk, MetadataOk, Holdable, HoldableMembers]
    exact ⟨⟨h, trivial⟩, ⟨⟨trivial, trivial⟩, trivial⟩, trivial⟩
  · show Holdable f (.obj [("seed", .int 7)])
    simp only [Holdable, HoldableMembers]
    exact ⟨⟨by omega, by omega⟩, trivial⟩

end Deep

/-- **C101, full statement fails.** A native runner reports that a test passed, with metadata which is nested 121 deep: the worker
reads the message, but the queue cannot read the worker's request with the result. -/
theorem C101_full_statement_fails : ∃ (j : Json) (m : ResultMessage) (a : Associated),
    (∀ f, parse f (print j) = some j) ∧ decResultMessage j = some m ∧
    a.results.map (·.result) = resultsIn (m.set 1 ()) ∧
    ∀ f, RequestOk f ⟨Deep.entity, .workerResult "run" [a]⟩ ∧
      receive decRequest f (send encRequest ⟨Deep.entity, .workerResult "run" [a]⟩) = none :=
  ⟨Deep.message (nested 120), _, Deep.associated (nested 120),
    fun f => (Deep.lost (nested_holdable f 120) (by rw [nested_depth]; decide) (by rw [nested_depth]; decide)).1,
    Deep.message_decoded _, rfl,
    fun f => ⟨Deep.request_ok (nested_holdable f 120),
      (Deep.lost (nested_holdable f 120) (by rw [nested_depth]; decide) (by rw [nested_depth]; decide)).2⟩⟩

/-! ## Examples -/

/-- A result with metadata in it which is not too deep arrives. -/
example : receive decRequest SampleText.noFloats (send encRequest ⟨Deep.entity, .workerResult "run" [Deep.associated (nested 50)]⟩) =
    some ⟨Deep.entity, .workerResult "run" [Deep.associated (nested 50)]⟩ := by
  refine C101_native_results_received_partial _ _ Deep.entity_ok "run" 1 (by decide) _ fun a ha => ?_
  cases List.mem_singleton.mp ha
  refine ⟨⟨rfl, by decide⟩, by decide, fun r hr => ?_⟩
  cases List.mem_singleton.mp hr
  exact ⟨by decide, by decide, _, Deep.message (nested 50), _, none, none,
    C100_text_roundtrip_partial _ _ (Deep.message_holdable (nested_holdable _ _)) (by rw [Deep.message_depth, nested_depth]; decide),
    Deep.message_holdable (nested_holdable _ _), by rw [Deep.message_depth, nested_depth]; decide, Deep.message_decoded _,
    _, List.mem_singleton_self _, rfl⟩

/-- A manifest arrives, and its tests do. -/
example (f : Floats) : receive decNextTests f (send encNextTests ⟨[⟨List.replicate 16 9, ⟨"t", [("a", nested 50)], none⟩, 1⟩], true⟩) =
    some ⟨[⟨List.replicate 16 9, ⟨"t", [("a", nested 50)], none⟩, 1⟩], true⟩ := by
  have hs : Shallow (.manifestResult "run" (.manifest (Deep.reported (nested 50)))) := by
    show manifestHeight (Deep.manifest (nested 50)) ≤ 122
    simp only [Deep.manifest, manifestHeight, forestHeight, treeHeight, depth, memberDepths, nested_depth]
    decide
  refine (C101_tests_received f Deep.entity "run" (Deep.reported (nested 50)) (Deep.manifest_ok (nested_holdable f 50))
    (C101_request_received_partial f _ (Deep.manifest_ok (nested_holdable f 50)) hs) _ fun t ht => ?_).1 true
  cases List.mem_singleton.mp ht
  refine ⟨⟨⟨rfl, by decide⟩, by unfold U32; decide, ?_⟩, ?_⟩
  · show Holdable f (.obj [("a", nested 50)])
    simp only [Holdable, HoldableMembers]
    exact ⟨nested_holdable f 50, trivial⟩
  · show _ ∈ testsOfAll (Deep.manifest (nested 50)).members
    simp only [Deep.manifest, testsOfAll, testsOf]
    exact List.mem_cons_self ..

/-- The document of a request. -/
example : encRequest ⟨⟨[0, 1, 2, 3, 4, 5, 6, 7, 8, 9, 10, 11, 12, 13, 14, 15], .runner ⟨0, 1⟩⟩, .cancelRun "r"⟩ =
    .obj [("entity", .obj [("id", .arr [.int 0, .int 1, .int 2, .int 3, .int 4, .int 5, .int 6, .int 7, .int 8, .int 9, .int 10, .int 11,
      .int 12, .int 13, .int 14, .int 15]), ("tag", .obj [("Runner", .arr [.int 0, .int 1])])]), ("message", .obj [("CancelRun", .str "r")])] :=
  rfl

example : InvokeOk ⟨"run", 7, .byTest, List.replicate 32 1⟩ := ⟨by decide, by unfold U64; decide, rfl, by decide⟩

end Abq.Props
