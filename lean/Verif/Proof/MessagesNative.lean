import Verif.Proof.Messages
import Verif.Proof.Protocol
/-!
# How deep is what native runners say

The results and manifests read from a document are nested hardly deeper than the document.
-/

namespace Abq.Messages
open Abq.Protocol Abq.Spec.JsonText Abq.Spec.Messages
open RunStateDoc (Json)
open JsonText (Floats)

theorem only_mem {ms : Members} {name : String} {j : Json} (h : Only ms name j) : (name, j) ∈ ms :=
  (List.mem_filter.mp (h ▸ List.mem_singleton_self _ : (name, j) ∈ ms.filter fun m => m.1 = name)).1

theorem mem_depth {ms : Members} {name : String} {j : Json} (h : (name, j) ∈ ms) : 1 + depth j ≤ depth (.obj ms) := by
  show _ ≤ 1 + memberDepths ms
  induction ms with
  | nil => cases h
  | cons p ms ih =>
    obtain ⟨k, i⟩ := p
    rw [memberDepths]
    rcases List.mem_cons.mp h with e | h
    · cases e
      omega
    · have := ih h
      omega

theorem mem_holdable {f : Floats} {ms : Members} {name : String} {j : Json} (h : (name, j) ∈ ms) (hf : Holdable f (.obj ms)) :
    Holdable f j := by
  replace hf : HoldableMembers f ms := hf
  induction ms with
  | nil => cases h
  | cons p ms ih =>
    obtain ⟨k, i⟩ := p
    rw [HoldableMembers] at hf
    rcases List.mem_cons.mp h with e | h
    · cases e
      exact hf.1
    · exact ih h hf.2

theorem zip_depth : ∀ (keys : List String) (l : List Json), memberDepths (keys.zip l) ≤ depths l
  | [], l => Nat.zero_le _
  | _ :: _, [] => Nat.zero_le _
  | _ :: keys, j :: l => by
    have := zip_depth keys l
    rw [List.zip_cons_cons, memberDepths, depths]
    omega

theorem zip_holdable {f : Floats} : ∀ (keys : List String) (l : List Json), HoldableAll f l → HoldableMembers f (keys.zip l)
  | [], _, _ => by rw [List.zip_nil_left, HoldableMembers]; trivial
  | _ :: _, [], _ => by rw [List.zip_nil_right, HoldableMembers]; trivial
  | _ :: keys, j :: l, h => by
    rw [HoldableAll] at h
    rw [List.zip_cons_cons, HoldableMembers]
    exact ⟨h.1, zip_holdable keys l h.2⟩

/-- Members are hardly deeper than what they are the members of. -/
theorem written_under {f : Floats} {w : Form} {keys : List String} {j : Json} {ms : Members} (h : Written w keys j ms) (hf : Holdable f j) :
    Holdable f (.obj ms) ∧ depth (.obj ms) ≤ depth j := by
  rcases h with rfl | ⟨-, l, rfl, -, rfl⟩
  · exact ⟨hf, Nat.le_refl _⟩
  · refine ⟨zip_holdable keys l hf, ?_⟩
    show 1 + memberDepths _ ≤ 1 + depths l
    have := zip_depth keys l
    omega

theorem variant_under {f : Floats} {w : Form} {names keys : List String} {name : String} {j : Json} {ms : Members}
    (h : Variant w names name keys j ms) (hf : Holdable f j) : Holdable f (.obj ms) ∧ depth (.obj ms) ≤ depth j := by
  rcases h with ⟨rfl, -⟩ | ⟨-, t, l, rfl, -, -, rfl⟩
  · exact ⟨hf, Nat.le_refl _⟩
  · replace hf : HoldableAll f (t :: l) := hf
    rw [HoldableAll] at hf
    refine ⟨zip_holdable keys l hf.2, ?_⟩
    show 1 + memberDepths _ ≤ 1 + depths (t :: l)
    have := zip_depth keys l
    rw [depths]
    omega

/-- What is in the object is held, and less deep. -/
def Under (f : Floats) (k : Nat) (j : Json) : Prop := Holdable f j ∧ 1 + depth j ≤ k

theorem only_under {f : Floats} {ms : Members} {name : String} {j : Json} (h : Only ms name j) (hf : Holdable f (.obj ms)) :
    Under f (depth (.obj ms)) j := ⟨mem_holdable (only_mem h) hf, mem_depth (only_mem h)⟩

theorem meta_under {f : Floats} {ms : Members} {name : String} {m : Metadata} (h : Given ms name SaysMeta m) (hf : Holdable f (.obj ms)) :
    MetadataOk f m ∧ 1 + depth (.obj m) ≤ depth (.obj ms) := by
  obtain ⟨j, hj, hs⟩ := h
  rw [SaysMeta] at hs
  subst hs
  exact only_under hj hf

theorem strs_depth_ge {l : List String} {j : Json} (h : SaysStrs l j) : 1 ≤ depth j := by
  obtain ⟨js, rfl, _⟩ := h
  show 1 ≤ 1 + depths js
  omega

theorem location_said {w : Form} {l : Location} {j : Json} (h : SaysLocation w l j) : LocationOk l ∧ 1 ≤ depth j := by
  obtain ⟨ms, hw, _, hl, hc⟩ := h
  refine ⟨⟨?_, ?_⟩, ?_⟩
  · intro n hn
    rw [hn] at hl
    obtain ⟨j, _, hs⟩ := hl
    exact hs.2
  · intro n hn
    rw [hn] at hc
    obtain ⟨j, _, hs⟩ := hc
    exact hs.2
  · rcases hw with rfl | ⟨-, l, rfl, -, rfl⟩
    · exact obj_depth _
    · show 1 ≤ 1 + depths l
      omega

theorem oob_said {f : Floats} {w : Form} {e : OutOfBandError} {j : Json} (h : SaysOob w e j) (hf : Holdable f j) :
    ErrorOk f e ∧ errorHeight e ≤ depth j := by
  obtain ⟨ms, hw, _, hb, _, hl, hm⟩ := h
  obtain ⟨hf, hd⟩ := written_under hw hf
  have h1 := obj_depth ms
  refine ⟨⟨?_, ?_⟩, Nat.le_trans (Nat.max_le.mpr ⟨?_, ?_⟩) hd⟩
  · intro l e
    rw [e] at hl
    obtain ⟨j, _, hs⟩ := hl
    exact (location_said hs).1
  · intro m e
    rw [e] at hm
    exact (meta_under hm hf).1
  · split
    · rename_i hc
      rcases hc with hc | hc
      · obtain ⟨b, e⟩ := Option.isSome_iff_exists.mp hc
        rw [e] at hb
        obtain ⟨j, hj, hs⟩ := hb
        have := strs_depth_ge hs
        have := (only_under hj hf).2
        omega
      · obtain ⟨l, e⟩ := Option.isSome_iff_exists.mp hc
        rw [e] at hl
        obtain ⟨j, hj, hs⟩ := hl
        have := (location_said hs).2
        have := (only_under hj hf).2
        omega
    · exact h1
  · cases hm' : e.metadata with
    | none => exact Nat.zero_le _
    | some m =>
      rw [hm'] at hm
      exact (meta_under hm hf).2

theorem oobs_said {f : Floats} {w : Form} : ∀ {es : List OutOfBandError} {l : List Json}, Pairs (SaysOob w) es l → HoldableAll f l →
    (∀ e ∈ es, ErrorOk f e) ∧ errorsHeight es ≤ depths l
  | [], [], _, _ => ⟨(fun _ he => nomatch he), Nat.le_refl _⟩
  | e :: es, j :: l, h, hf => by
    rw [Pairs] at h
    rw [HoldableAll] at hf
    have h1 := oob_said h.1 hf.1
    have h2 := oobs_said h.2 hf.2
    refine ⟨?_, by rw [errorsHeight, depths]; omega⟩
    intro x hx
    rcases List.mem_cons.mp hx with rfl | hx
    · exact h1.1
    · exact h2.1 x hx
  | [], _ :: _, h, _ => absurd h (by simp only [Pairs, not_false_eq_true])
  | _ :: _, [], h, _ => absurd h (by simp only [Pairs, not_false_eq_true])

theorem status_said {f : Floats} {w : Form} {s : Status} {j : Json} (h : SaysStatus w s j) (hf : Holdable f j) :
    statusHeight s.abq ≤ depth j + 2 := by
  have hb : ∀ (name : String) (keys : List String) (ms : Members) (b : Option (List String)), Variant w statusNames name keys j ms →
      Maybe ms "backtrace" SaysStrs b → (if b.isSome then 4 else 3) ≤ depth j + 2 := by
    intro name keys ms b hw hb
    obtain ⟨hf, hd⟩ := variant_under hw hf
    have h1 := obj_depth ms
    cases b with
    | none =>
      show 3 ≤ _
      omega
    | some b =>
      obtain ⟨j, hj, hs⟩ := hb
      have := strs_depth_ge hs
      have := (only_under hj hf).2
      show 4 ≤ _
      omega
  cases s with
  | failure e b => obtain ⟨ms, hw, -, hm⟩ := h; exact hb _ _ ms b hw hm
  | error e b => obtain ⟨ms, hw, -, hm⟩ := h; exact hb _ _ ms b hw hm
  | _ =>
    show 2 ≤ _
    omega

theorem fields_said {f : Floats} {w : Form} {r : Fields} {ms : Members} {now : Nat} (h : SaysFields w r ms) (hf : Holdable f (.obj ms)) (hn : U64 now) :
    FieldsOk f (r.spec now) ∧ fieldsHeight (r.spec now) ≤ depth (.obj ms) + 1 := by
  obtain ⟨hs, _, _, _, hr, hm, hl, _, _, _, ho⟩ := h
  have hm' := meta_under hm hf
  refine ⟨⟨?_, hn, hm'.1, ?_, ?_⟩, Nat.max_le.mpr ⟨Nat.max_le.mpr ⟨?_, ?_⟩, ?_⟩⟩
  · obtain ⟨j, _, hj⟩ := hr
    exact hj.2
  · intro l e
    replace e : r.location = some l := e
    rw [e] at hl
    obtain ⟨j, _, hs⟩ := hl
    exact (location_said hs).1
  · intro es e
    replace e : r.otherErrors = some es := e
    rw [e] at ho
    obtain ⟨j, hj, js, rfl, hs⟩ := ho
    exact (oobs_said hs (only_under hj hf).1).1
  · obtain ⟨j, hj, hs⟩ := hs
    have h1 := only_under hj hf
    have h2 := status_said hs h1.1
    have h3 := h1.2
    show statusHeight r.status.abq ≤ _
    omega
  · have := hm'.2
    show 1 + depth (.obj r.metadata) ≤ _
    omega
  · show (match r.otherErrors with
      | none => 0
      | some es => 2 + errorsHeight es) ≤ _
    cases e : r.otherErrors with
    | none => exact Nat.zero_le _
    | some es =>
      rw [e] at ho
      obtain ⟨j, hj, js, rfl, hs⟩ := ho
      have h1 := only_under hj hf
      have h2 := (oobs_said hs h1.1).2
      have h3 := h1.2
      replace h3 : 1 + (1 + depths js) ≤ _ := h3
      show 2 + errorsHeight es ≤ _
      omega

mutual
theorem result_said {f : Floats} {w : Form} {now : Nat} (hn : U64 now) : ∀ (r : TestResult) (j : Json), SaysResult w r j → Holdable f j →
    SpecOk f (r.spec now) ∧ height (r.spec now) ≤ depth j + 1
  | .mk r none, j, h, hf => by
    rw [SaysResult] at h
    obtain ⟨ms, hw, h, _⟩ := h
    obtain ⟨hf, hd⟩ := written_under hw hf
    rw [TestResult.spec, SpecOk, height]
    have := fields_said h hf hn
    exact ⟨this.1, by omega⟩
  | .mk r (some past), j, h, hf => by
    rw [SaysResult] at h
    obtain ⟨ms, hw, h, l, hl, hp⟩ := h
    obtain ⟨hf, hd⟩ := written_under hw hf
    have h1 := fields_said h hf hn
    have h2 := only_under hl hf
    have h3 := results_said hn past l hp h2.1
    have h4 := h2.2
    replace h4 : 1 + (1 + depths l) ≤ _ := h4
    rw [TestResult.spec, SpecOk, height]
    exact ⟨⟨h1.1, h3.1⟩, by have := h1.2; have := h3.2; omega⟩
theorem results_said {f : Floats} {w : Form} {now : Nat} (hn : U64 now) : ∀ (rs : List TestResult) (l : List Json), SaysResults w rs l → HoldableAll f l →
    SpecsOk f (specs now rs) ∧ heights (specs now rs) ≤ depths l + 1
  | [], [], _, _ => by
    rw [specs, SpecsOk, heights]
    exact ⟨trivial, Nat.zero_le _⟩
  | r :: rs, j :: l, h, hf => by
    rw [SaysResults] at h
    rw [HoldableAll] at hf
    have h1 := result_said hn r j h.1 hf.1
    have h2 := results_said hn rs l h.2 hf.2
    rw [specs, SpecsOk, heights, depths]
    exact ⟨⟨h1.1, h2.1⟩, by have := h1.2; have := h2.2; omega⟩
  | [], _ :: _, h, _ => absurd h (by simp only [SaysResults, not_false_eq_true])
  | _ :: _, [], h, _ => absurd h (by simp only [SaysResults, not_false_eq_true])
end

mutual
theorem tree_said {f : Floats} {w : Form} : ∀ (t : TestOrGroup) (j : Json), SaysTree w t j → Holdable f j → TreeOk f t ∧ treeHeight t ≤ depth j
  | .test id tags m, j, h, hf => by
    rw [SaysTree] at h
    obtain ⟨ms, hw, _, _, hm⟩ := h
    obtain ⟨hf, hd⟩ := variant_under hw hf
    rw [TreeOk, treeHeight]
    have := meta_under hm hf
    exact ⟨this.1, by omega⟩
  | .group name members tags m, j, h, hf => by
    rw [SaysTree] at h
    obtain ⟨ms, hw, _, ⟨l, hl, hs⟩, _, hm⟩ := h
    obtain ⟨hf, hd⟩ := variant_under hw hf
    have h1 := meta_under hm hf
    have h2 := only_under hl hf
    have h3 := forest_said members l hs h2.1
    have h4 := h2.2
    replace h4 : 1 + (1 + depths l) ≤ _ := h4
    rw [TreeOk, treeHeight]
    exact ⟨⟨h3.1, h1.1⟩, by have := h1.2; have := h3.2; omega⟩
theorem forest_said {f : Floats} {w : Form} : ∀ (ts : List TestOrGroup) (l : List Json), SaysForest w ts l → HoldableAll f l →
    ForestOk f ts ∧ forestHeight ts ≤ depths l
  | [], [], _, _ => by
    rw [ForestOk, forestHeight]
    exact ⟨trivial, Nat.zero_le _⟩
  | t :: ts, j :: l, h, hf => by
    rw [SaysForest] at h
    rw [HoldableAll] at hf
    have h1 := tree_said t j h.1 hf.1
    have h2 := forest_said ts l h.2 hf.2
    rw [ForestOk, forestHeight, depths]
    exact ⟨⟨h1.1, h2.1⟩, by have := h1.2; have := h2.2; omega⟩
  | [], _ :: _, h, _ => absurd h (by simp only [SaysForest, not_false_eq_true])
  | _ :: _, [], h, _ => absurd h (by simp only [SaysForest, not_false_eq_true])
end

theorem manifest_said {f : Floats} {w : Form} {m : Manifest} {j : Json} (h : SaysManifest w m j) (hf : Holdable f j) :
    ForestOk f m.members ∧ MetadataOk f m.initMeta ∧ manifestHeight m ≤ depth j := by
  obtain ⟨ms, hw, ⟨l, hl, hs⟩, hm⟩ := h
  obtain ⟨hf, hd⟩ := written_under hw hf
  have h1 := meta_under hm hf
  have h2 := only_under hl hf
  have h3 := forest_said _ l hs h2.1
  have h4 := h2.2
  replace h4 : 1 + (1 + depths l) ≤ _ := h4
  exact ⟨h3.1, h1.1, by have := h1.2; have := h3.2; unfold manifestHeight; omega⟩

theorem specs_mem {f : Floats} {k : Nat} : ∀ (rs : List ResultSpec), SpecsOk f rs → heights rs ≤ k → ∀ r ∈ rs, SpecOk f r ∧ height r ≤ k
  | [], _, _ => by intro r hr; cases hr
  | r :: rs, h, hk => by
    rw [SpecsOk] at h
    rw [heights] at hk
    intro x hx
    rcases List.mem_cons.mp hx with rfl | hx
    · exact ⟨h.1, by omega⟩
    · exact specs_mem rs h.2 (by omega) x hx

theorem specs_map (now : Nat) : ∀ rs : List TestResult, specs now rs = rs.map (·.spec now)
  | [] => by rw [specs]; rfl
  | r :: rs => by rw [specs, specs_map now rs]; rfl

/-- The results of a message are hardly deeper than the message. -/
theorem message_said {S : Type} {f : Floats} {w : Form} {now : Nat} {source : S} (hn : U64 now) {m : ResultMessage} {j : Json}
    (h : SaysResultMessage w m j) (hf : Holdable f j) : ∀ r ∈ resultsIn (m.set now source), SpecOk f r ∧ height r ≤ depth j := by
  have one : ∀ (ms : Members) (name : String) (r : TestResult), Given ms name (SaysResult w) r → Holdable f (.obj ms) ∧ depth (.obj ms) ≤ depth j →
      SpecOk f (r.spec now) ∧ height (r.spec now) ≤ depth j := by
    intro ms name r ⟨i, hi, hs⟩ ⟨hf, hd⟩
    have h1 := only_under hi hf
    have h2 := result_said hn r i hs h1.1
    exact ⟨h2.1, by have := h1.2; have := h2.2; omega⟩
  cases m with
  | incremental m =>
    cases m with
    | one r =>
      obtain ⟨ms, hw, hg⟩ := h
      intro x hx
      rcases List.mem_singleton.mp hx with rfl
      exact one ms _ r hg (variant_under hw hf)
    | done r =>
      cases r with
      | none => intro x hx; cases hx
      | some r =>
        obtain ⟨ms, hw, hg⟩ := h
        intro x hx
        rcases List.mem_singleton.mp hx with rfl
        exact one ms _ r hg (variant_under hw hf)
  | single r =>
    obtain ⟨ms, hw, hg⟩ := h
    intro x hx
    rcases List.mem_singleton.mp hx with rfl
    exact one ms _ r hg (written_under hw hf)
  | multiple rs =>
    obtain ⟨ms, l, hw, hl, hs⟩ := h
    obtain ⟨hf, hd⟩ := written_under hw hf
    have h1 := only_under hl hf
    have h2 := results_said hn rs l hs h1.1
    have h3 := h1.2
    replace h3 : 1 + (1 + depths l) ≤ _ := h3
    intro x hx
    have e : resultsIn (ResultMessage.set now source (.multiple rs)) = specs now rs := by
      rw [specs_map]
      show (rs.map _).map _ = _
      rw [List.map_map]
      rfl
    rw [e] at hx
    have h4 := specs_mem _ h2.1 h2.2 x hx
    exact ⟨h4.1, by have := h4.2; omega⟩

end Abq.Messages
