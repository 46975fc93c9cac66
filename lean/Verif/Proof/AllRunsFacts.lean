import Verif.Proof.AllRunsStep
import Verif.Props.WorkerSet

/-! # Invariants relating the state of a run to its history -/

namespace Abq.Runs
open Spec WorkerSet
variable {T : Type}

/-! ## How runs come into being -/

/-- The command hash kept in a run state. -/
def HashOk (x : Event T) : RunState T → Prop
  | .waiting _ _ _ h => commandOf x = some h
  | .hasWork _ _ _ _ h => commandOf x = some h
  | .done _ _ _ _ h => commandOf x = h
  | .cancelled _ => True

def Origin (rid : RunId) (L : Loc T) : Prop :=
  match L.s with
  | none => ∀ ev ∈ L.evs, beforeCreation ev = true
  | some s => ∃ a x b, L.evs = a ++ x :: b ∧ (∀ ev ∈ a, beforeCreation ev = true) ∧
      (asksToGenerate rid x = true ∨ isLoad rid x = true) ∧
      (∀ ev ∈ b, asksToGenerate rid ev = false ∧ isLoad rid ev = false) ∧ HashOk x s

theorem join_not_generate (s : RunState T) (e : Entity) (h : String) (d : Bool) :
    (s.join e h).2 ≠ .fresh true d := by
  cases s <;> simp only [RunState.join]
  · simp
  · split <;> simp
  · split <;> simp
  · simp

theorem asks_joined {rid : RunId} {p : JoinParams} {a : Assigned} (h : ∀ d, a ≠ .fresh true d) :
    asksToGenerate rid (.joined p a : Event T) = false := by
  cases a with
  | fresh g d =>
    cases g
    · rfl
    · exact absurd rfl (h d)
  | _ => rfl

theorem exec_no_origin (rid rid' : RunId) (s : RunState T) (r : Req T) :
    ∀ ev ∈ (exec rid s r).evs, asksToGenerate rid' ev = false ∧ isLoad rid' ev = false := by
  cases r <;> simp only [exec]
  case nextWork e => split <;> simp [asksToGenerate, isLoad]
  all_goals simp [asksToGenerate, isLoad]

theorem hashOk_change {rid : RunId} {w : Bool} {evs : List (Event T)} {s s' : RunState T} {x : Event T}
    (h : Change rid w (some s) evs (some s')) (hx : HashOk x s) : HashOk x s' := by
  cases h <;> first | exact hx | trivial

theorem step1_origin {rid : RunId} {s s' : Option (RunState T)} {evs : List (Event T)}
    (h : Step1 rid s evs s') :
    (s = none ∧ s' = none ∧ ∀ ev ∈ evs, beforeCreation ev = true) ∨
    (s = none ∧ ∃ st x, s' = some st ∧ evs = [x] ∧ HashOk x st ∧
      (asksToGenerate rid x = true ∨ isLoad rid x = true)) ∨
    (s ≠ none ∧ ∀ ev ∈ evs, asksToGenerate rid ev = false ∧ isLoad rid ev = false) ∨
    (s = none ∧ s' = none ∧ ∃ e items eow, evs = [.delivered rid e items eow] ∨
      evs = [.lost rid e items eow]) := by
  cases h with
  | silent s => cases s <;> simp
  | setPersisted s => cases s <;> simp
  | fatal s p hp => cases s <;> simp [beforeCreation, asksToGenerate, isLoad]
  | create p hp =>
    right; left
    exact ⟨rfl, _, _, rfl, rfl, rfl, Or.inl (by simp [asksToGenerate, hp])⟩
  | load d =>
    right; left
    exact ⟨rfl, _, _, rfl, rfl, rfl, Or.inr (by simp [isLoad])⟩
  | joined s p hp =>
    right; right; left
    refine ⟨by simp, ?_⟩
    simp only [List.mem_singleton, forall_eq]
    exact ⟨asks_joined (fun d => join_not_generate s _ _ d), rfl⟩
  | noRun b => simp [beforeCreation]
  | req s r => exact Or.inr (Or.inr (Or.inl ⟨by simp, exec_no_origin rid rid s r⟩))
  | delivered s e items eow => cases s <;> simp [asksToGenerate, isLoad]
  | lost s e items eow => cases s <;> simp [asksToGenerate, isLoad]
  | _ => simp [asksToGenerate, isLoad]

/-- Nothing is delivered before the run exists. -/
theorem not_delivered_before {rid : RunId} {L L' : Loc T} (hb : Base L) (hs : LStep rid L L')
    (h : L.s = none) (e : Entity) (items : List (WorkerTest T)) (eow : Bool) :
    L'.evs ≠ L.evs ++ [.delivered rid e items eow] ∧ L'.evs ≠ L.evs ++ [.lost rid e items eow] := by
  cases hs with
  | join p hp => simp [Loc.app, joinEff, h]
  | req r hr => simp [Loc.app, reqEff, h]
  | cont p a b ans ok hp hm hr =>
    have hpo := hb.ps p (by rw [hm]; simp)
    simp only [Loc.app, h, ne_eq, List.append_cancel_left_eq]
    rw [h] at hpo
    cases p <;> simp only [contEff]
    case respond r e items eow plan =>
      cases plan <;> simp [PsOk, HasCell] at hpo
    case joinRemote p => cases ans <;> simp [loadRemote, createFresh]
    all_goals first
      | simp
      | (split <;> simp)

theorem origin_step {rid : RunId} {L L' : Loc T} (hb : Base L) (h : Origin rid L)
    (hs : LStep rid L L') : Origin rid L' := by
  obtain ⟨evs, h1, h2⟩ := hs.step1 hb
  obtain ⟨w, evs', hc, he, -⟩ := hs.change
  have : evs' = evs := by
    rw [h2] at he
    exact (List.append_cancel_left he).symm
  subst this
  rcases step1_origin h1 with ⟨a1, a2, a3⟩ | ⟨a1, st, x, a2, a3, a4, a5⟩ | ⟨a1, a2⟩ |
    ⟨a1, a2, e, items, eow, a3⟩
  · unfold Origin at h ⊢
    rw [a1] at h
    rw [a2, h2]
    simp only at h ⊢
    intro ev hev
    rcases List.mem_append.1 hev with hev | hev
    · exact h ev hev
    · exact a3 ev hev
  · unfold Origin at h ⊢
    rw [a1] at h
    rw [a2, h2, a3]
    exact ⟨L.evs, x, [], rfl, h, a5, by simp, a4⟩
  · have hn := isSome_change hc a1
    unfold Origin at h ⊢
    cases hs1 : L.s with
    | none => exact absurd hs1 a1
    | some s =>
      cases hs2 : L'.s with
      | none => exact absurd hs2 hn
      | some s' =>
        rw [hs1] at h
        obtain ⟨a, x, b, e1, e2, e3, e4, e5⟩ := h
        rw [hs1, hs2] at hc
        refine ⟨a, x, b ++ evs', ?_, e2, e3, ?_, hashOk_change hc e5⟩
        · rw [h2, e1]; simp
        · intro ev hev
          rcases List.mem_append.1 hev with hev | hev
          · exact e4 ev hev
          · exact a2 ev hev
  · have hd := not_delivered_before hb hs a1 e items eow
    rcases a3 with rfl | rfl
    · exact absurd h2 hd.1
    · exact absurd h2 hd.2

theorem origin_run (acts : List (RunsAct T)) (rid : RunId) :
    Origin rid (proj ((init : Runs T).run acts) rid) :=
  init_proj_induction' (by simp [Origin, Loc.init]) (fun _ _ hb h hs => origin_step hb h hs) acts

/-! ## Which worker tags a run has recorded -/

/-- The tags recorded in a run state. -/
def recorded : Option (RunState T) → List Tag
  | some (.waiting ws _ _ _) => tags ws
  | some (.hasWork _ _ _ act _) => tags act
  | some (.done _ _ seen _ _) => tags seen
  | _ => []

/-- Whether taking part in the run is recorded. -/
def Recording : Option (RunState T) → Prop
  | some (.done _ _ _ .emptyManifest _) => False
  | some (.cancelled _) => False
  | _ => True

structure Track (rid : RunId) (L : Loc T) : Prop where
  nodup : (recorded L.s).Nodup
  took : Recording L.s → ∀ t, L.evs.any (tookPart rid t) = true → t ∈ recorded L.s
  known : ∀ t ∈ recorded L.s, Spec.known rid t L.evs = true

theorem known_append (rid : RunId) (t : Tag) (a b : List (Event T)) :
    Spec.known rid t (a ++ b) = (Spec.known rid t a || Spec.known rid t b) := by
  simp [Spec.known]

/-- One step on the recorded tags. -/
structure TrackStep (rid : RunId) (s s' : Option (RunState T)) (evs : List (Event T)) : Prop where
  nodup : (recorded s).Nodup → (recorded s').Nodup
  took : Recording s' → ∀ t, (evs.any (tookPart rid t) = true → t ∈ recorded s') ∧
    (t ∈ recorded s → t ∈ recorded s')
  rec' : Recording s' → Recording s
  known : ∀ t ∈ recorded s', t ∈ recorded s ∨ Spec.known rid t evs = true

theorem TrackStep.refl {rid : RunId} {s : Option (RunState T)} {evs : List (Event T)}
    (h : Recording s → ∀ t, evs.any (tookPart rid t) = true → t ∈ recorded s) : TrackStep rid s s evs :=
  ⟨id, fun hr t => ⟨h hr t, id⟩, id, fun _ h => Or.inl h⟩

theorem exec_track (rid : RunId) (s : RunState T) (r : Req T) (hok : StOk (some s)) :
    TrackStep rid (some s) (exec rid s r).state (exec rid s r).evs := by
  cases r <;> simp only [exec]
  case addManifest flat md =>
    cases s
    case waiting ws b st h =>
      simp only [RunState.addManifest]
      refine ⟨?_, ?_, fun _ => trivial, ?_⟩
      · intro _; exact foldl_insert_nodup (f := fun _ => none) ws [] (by simp [tags])
      · intro _ t
        refine ⟨by simp [tookPart], fun ht => ?_⟩
        exact (foldl_insert_tags (f := fun _ => none) ws [] t).2 (Or.inr ht)
      · intro t ht
        rcases (foldl_insert_tags (f := fun _ => none) ws [] t).1 ht with h | h
        · simp [tags] at h
        · exact Or.inl h
    all_goals exact .refl (by simp [tookPart])
  case manifestFailed =>
    cases s
    case waiting => exact ⟨by simp [recorded, RunState.manifestFailed], fun h => h.elim, fun h => h.elim, by simp [recorded, RunState.manifestFailed]⟩
    all_goals exact .refl (by simp [tookPart])
  case emptyManifest =>
    cases s
    case waiting => exact ⟨by simp [recorded, RunState.emptyManifest, tags], fun h => h.elim, fun h => h.elim, by simp [recorded, RunState.emptyManifest, tags]⟩
    all_goals exact .refl (by simp [tookPart])
  case initMetadata e =>
    cases s
    case done x md seen m h =>
      simp only [RunState.initMetadata]
      split
      · rename_i hc
        have hm := containsByTag_iff.1 hc
        have hh : tags (seen.insertByTag e true).1 = tags seen := by
          rw [tags_insertByTag, if_pos hm]
        refine ⟨by simp [recorded, hh], fun _ t => ⟨by simp [tookPart], by simp [recorded, hh]⟩, fun h => by cases m <;> exact h, by simp [recorded, hh]; exact fun t ht => Or.inl ht⟩
      · exact .refl (by simp [tookPart])
    all_goals exact .refl (by simp [tookPart])
  case nextWork e =>
    cases s
    case waiting => exact .refl (by simp [tookPart, RunState.pull])
    case cancelled => exact .refl (by simp [tookPart, RunState.pull])
    case done x md seen m h =>
      simp only [RunState.pull]
      refine ⟨fun hn => nodup_insertByTagIfMissing hn _ _, fun _ t => ⟨by simp [tookPart], fun ht => mem_tags_insertByTagIfMissing.2 (Or.inl ht)⟩, fun h => by cases m <;> exact h, fun t ht => ?_⟩
      rcases mem_tags_insertByTagIfMissing.1 ht with h | rfl
      · exact Or.inl h
      · exact Or.inr (by simp [Spec.known, asked])
    case hasWork q b md act h =>
      simp only [RunState.pull]
      cases hq : q.getWork e.tag b with
      | none =>
        obtain ⟨q', items, hs, -⟩ := JobQueue.getWork_spec (tag := e.tag) hok.2 hok.1
        rw [hs] at hq
        cases hq
      | some r =>
        simp only
        refine ⟨fun hn => nodup_insertByTagIfMissing hn _ _, fun _ t => ⟨?_, fun ht => mem_tags_insertByTagIfMissing.2 (Or.inl ht)⟩, fun h => trivial, fun t ht => ?_⟩
        · simp only [List.any_cons, List.any_nil, Bool.or_false, tookPart, beq_self_eq_true, Bool.true_and, beq_iff_eq]
          rintro rfl
          exact mem_tags_insertByTagIfMissing.2 (Or.inr rfl)
        · rcases mem_tags_insertByTagIfMissing.1 ht with h | rfl
          · exact Or.inl h
          · exact Or.inr (by simp [Spec.known, tookPart])
  case retryManifest e =>
    cases s
    case hasWork q b md act h =>
      refine ⟨fun hn => nodup_insertByTag hn _ _, fun _ t => ⟨by simp [tookPart], fun ht => mem_tags_insertByTag.2 (Or.inl ht)⟩, fun h => trivial, fun t ht => ?_⟩
      rcases mem_tags_insertByTag.1 ht with h | rfl
      · exact Or.inl h
      · exact Or.inr (by simp [Spec.known, asked])
    case done x md seen m h =>
      cases m with
      | cell b =>
        cases b
        · exact .refl (by simp [tookPart])
        · refine ⟨fun hn => nodup_insertByTag hn _ _, fun _ t => ⟨by simp [tookPart], fun ht => mem_tags_insertByTag.2 (Or.inl ht)⟩, fun h => trivial, fun t ht => ?_⟩
          rcases mem_tags_insertByTag.1 ht with h | rfl
          · exact Or.inl h
          · exact Or.inr (by simp [Spec.known, asked])
      | emptyManifest => exact .refl (by simp [tookPart])
    all_goals exact .refl (by simp [tookPart])
  case complete e time =>
    cases s
    case hasWork q b md act h =>
      refine ⟨fun hn => nodup_insertByTag hn _ _, fun _ t => ⟨by simp [tookPart], fun ht => mem_tags_insertByTag.2 (Or.inl ht)⟩, fun h => trivial, fun t ht => ?_⟩
      rcases mem_tags_insertByTag.1 ht with h | rfl
      · exact Or.inl h
      · exact Or.inr (by simp [Spec.known, asked])
    case done x md seen m h =>
      refine ⟨fun hn => nodup_insertByTag hn _ _, fun _ t => ⟨by simp [tookPart], fun ht => mem_tags_insertByTag.2 (Or.inl ht)⟩, fun h => by cases m <;> exact h, fun t ht => ?_⟩
      rcases mem_tags_insertByTag.1 ht with h | rfl
      · exact Or.inl h
      · exact Or.inr (by simp [Spec.known, asked])
    all_goals exact .refl (by simp [tookPart])
  case cancel e reason =>
    cases s
    case done x md seen m h =>
      refine ⟨fun hn => nodup_insertByTag hn _ _, fun _ t => ⟨by simp [tookPart], fun ht => mem_tags_insertByTag.2 (Or.inl ht)⟩, fun h => by cases m <;> exact h, fun t ht => ?_⟩
      rcases mem_tags_insertByTag.1 ht with h | rfl
      · exact Or.inl h
      · exact Or.inr (by simp [Spec.known, asked])
    all_goals exact ⟨by simp [recorded, RunState.cancel], fun h => h.elim, fun h => h.elim, by simp [recorded, RunState.cancel]⟩
  all_goals exact .refl (by simp [tookPart])

theorem join_track (rid : RunId) (s : RunState T) (p : JoinParams) (hp : p.rid = rid) :
    TrackStep rid (some s) (some (s.join p.entity p.hash).1)
      [.joined p (s.join p.entity p.hash).2] := by
  subst hp
  cases s with
  | waiting ws b st h =>
    refine ⟨fun hn => nodup_insertByTag hn _ _, fun _ t => ⟨?_, fun ht => mem_tags_insertByTag.2 (Or.inl ht)⟩, fun h => trivial, fun t ht => ?_⟩
    · simp only [RunState.join, List.any_cons, List.any_nil, Bool.or_false, tookPart, beq_self_eq_true, Bool.true_and, beq_iff_eq]
      rintro rfl
      exact mem_tags_insertByTag.2 (Or.inr rfl)
    · rcases mem_tags_insertByTag.1 ht with h | rfl
      · exact Or.inl h
      · exact Or.inr (by simp [Spec.known, tookPart, RunState.join])
  | hasWork q b md act h =>
    have : ((RunState.hasWork q b md act h).join p.entity p.hash).1 =
        .hasWork q b md (act.insertByTag p.entity none).1 h := by
      simp only [RunState.join]
      split <;> rfl
    have h2 : ∀ t, tookPart p.rid t (.joined p ((RunState.hasWork q b md act h).join p.entity p.hash).2 : Event T) =
        (p.entity.tag == t) := by
      intro t
      simp only [RunState.join]
      split <;> simp [tookPart]
    rw [this]
    refine ⟨fun hn => nodup_insertByTag hn _ _, fun _ t => ⟨?_, fun ht => mem_tags_insertByTag.2 (Or.inl ht)⟩, fun h => trivial, fun t ht => ?_⟩
    · simp only [List.any_cons, List.any_nil, Bool.or_false, h2, beq_iff_eq]
      rintro rfl
      exact mem_tags_insertByTag.2 (Or.inr rfl)
    · rcases mem_tags_insertByTag.1 ht with h | rfl
      · exact Or.inl h
      · exact Or.inr (by simp [Spec.known, h2])
  | done x md seen m h =>
    simp only [RunState.join]
    split
    · rename_i hc
      have hm := containsByTag_iff.1 hc
      refine .refl ?_
      intro _ t
      simp only [List.any_cons, List.any_nil, Bool.or_false, tookPart, beq_self_eq_true, Bool.true_and, beq_iff_eq]
      rintro rfl
      exact hm
    · exact .refl (by simp [tookPart])
  | cancelled r => exact .refl (by simp [tookPart, RunState.join])

theorem step1_track {rid : RunId} {s s' : Option (RunState T)} {evs : List (Event T)}
    (hok : StOk s) (h : Step1 rid s evs s') : TrackStep rid s s' evs := by
  cases h with
  | setPersisted s =>
    cases s with
    | none => exact .refl (by simp)
    | some s =>
      cases s with
      | done x md seen m h => cases m <;> exact ⟨id, fun h t => ⟨by simp, id⟩, fun h => h, fun t h => Or.inl h⟩
      | _ => exact .refl (by simp)
  | create p hp =>
    subst hp
    refine ⟨?_, fun _ t => ⟨?_, by simp [recorded]⟩, fun _ => trivial, fun t ht => ?_⟩
    · intro _; exact nodup_insertByTag (by simp [tags]) _ _
    · simp only [List.any_cons, List.any_nil, Bool.or_false, tookPart, beq_self_eq_true, Bool.true_and, beq_iff_eq]
      rintro rfl
      exact mem_tags_insertByTag.2 (Or.inr rfl)
    · rcases mem_tags_insertByTag.1 ht with h | rfl
      · simp [tags] at h
      · exact Or.inr (by simp [Spec.known, tookPart])
  | load d =>
    have hl := foldl_insert_tags (β := Bool) (α := Bool) (d.seen.map (fun e => (e, false))) [] id
    refine ⟨?_, fun _ t => ⟨by simp [tookPart], by simp [recorded]⟩, fun _ => trivial, fun t ht => ?_⟩
    · intro _; exact foldl_insert_nodup (f := id) (d.seen.map (fun e => (e, false))) [] (by simp [tags])
    · right
      rcases (hl t).1 ht with h | h
      · simp [tags] at h
      · simp only [Spec.known, List.any_cons, List.any_nil, Bool.or_false, tookPart, asked, loadedWith,
          Bool.false_or, beq_self_eq_true, Bool.true_and, List.any_eq_true, beq_iff_eq]
        simpa [tags] using h
  | joined s p hp => exact join_track rid s p hp
  | req s r => exact exec_track rid s r hok
  | mark s e items ho =>
    cases s with
    | hasWork q b md act h =>
      simp only [RunState.markEnd]
      have hl := foldl_insert_tags (β := Option Nat) (α := Bool) act [] (fun o => o.isNone)
      refine ⟨?_, ?_, fun _ => trivial, ?_⟩
      · intro _; exact foldl_insert_nodup (f := fun o => o.isNone) act [] (by simp [tags])
      · intro _ t
        exact ⟨by simp [tookPart], fun ht => (hl t).2 (Or.inr ht)⟩
      · intro t ht
        rcases (hl t).1 ht with h | h
        · simp [tags] at h
        · exact Or.inl h
    | _ => exact .refl (by simp [tookPart])
  | timeout s last =>
    simp only [RunState.timeoutWrite]
    split
    · exact ⟨by simp [recorded], fun h => h.elim, fun h => h.elim, by simp [recorded]⟩
    · exact .refl (by simp [tookPart])
  | _ => exact .refl (by simp [tookPart])

theorem track_step {rid : RunId} {L L' : Loc T} (hb : Base L) (h : Track rid L)
    (hs : LStep rid L L') : Track rid L' := by
  obtain ⟨evs, h1, h2⟩ := hs.step1 hb
  have ht := step1_track hb.st h1
  refine ⟨ht.nodup h.nodup, fun hr t hev => ?_, fun t hm => ?_⟩
  · rw [h2, List.any_append, Bool.or_eq_true] at hev
    rcases hev with hev | hev
    · exact (ht.took hr t).2 (h.took (ht.rec' hr) t hev)
    · exact (ht.took hr t).1 hev
  · rw [h2, known_append, Bool.or_eq_true]
    rcases ht.known t hm with hm | hm
    · exact Or.inl (h.known t hm)
    · exact Or.inr hm

theorem track_run (acts : List (RunsAct T)) (rid : RunId) :
    Track rid (proj ((init : Runs T).run acts) rid) :=
  init_proj_induction' ⟨by simp [recorded, Loc.init], by simp [Loc.init], by simp [recorded, Loc.init]⟩
    (fun _ _ hb h hs => track_step hb h hs) acts

end Abq.Runs
