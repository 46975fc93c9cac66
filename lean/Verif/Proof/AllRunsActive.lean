import Verif.Proof.AllRunsFacts

/-! # Which runners are recorded as active -/

namespace Abq.Runs
open Spec WorkerSet Props
variable {T : Type}

/-- The value recorded for a tag. -/
def val {α : Type} (ws : WorkerSet α) (t : Tag) : Option α := (lookup ws t).map Prod.snd

theorem val_insert {α : Type} (ws : WorkerSet α) (e : Entity) (v : α) (t : Tag) :
    val (ws.insertByTag e v).1 t = if t = e.tag then some v else val ws t := by
  unfold val
  rw [(C30_insert_replaces ws e v).2 t]
  split <;> simp

theorem val_insertIfMissing {α : Type} (ws : WorkerSet α) (e : Entity) (v : α) (t : Tag) :
    val (ws.insertByTagIfMissing e v) t =
      match val ws t with
      | some x => some x
      | none => if t = e.tag then some v else none := by
  unfold val
  rw [C30_insert_if_missing]
  cases lookup ws t with
  | none => simp only [Option.map_none]; split <;> simp
  | some p => simp

theorem val_map {α β : Type} (l : WorkerSet β) (f : β → α) (t : Tag) :
    val (l.map (fun p => (p.1, f p.2))) t = (val l t).map f := by
  unfold val lookup
  rw [List.find?_map]
  simp only [Option.map_map]
  rfl

theorem val_foldl {α β : Type} (l : WorkerSet β) (f : β → α) (h : (tags l).Nodup) (t : Tag) :
    val (l.foldl (fun a p => (insertByTag a p.1 (f p.2)).1) []) t = (val l t).map f := by
  rw [foldl_insert_map l [] f h (by simp [tags]), List.nil_append, val_map]

/-- One step of `owes`. -/
def owesEv (rid : RunId) (t : Tag) (b : Bool) (ev : Event T) : Bool :=
  match ev with
  | .pulled r e items => if r = rid ∧ e.tag = t ∧ items ≠ [] then true else b
  | .retry r e (.manifest items) => if r = rid ∧ e.tag = t ∧ items ≠ [] then true else b
  | .retry r e .fetchFromPersistence => if r = rid ∧ e.tag = t then true else b
  | .complete r e => if r = rid ∧ e.tag = t then false else b
  | .cancel r e true => if r = rid ∧ e.tag = t then false else b
  | _ => b

theorem owes_snoc (rid : RunId) (t : Tag) (evs : List (Event T)) (ev : Event T) :
    owes rid t (evs ++ [ev]) = owesEv rid t (owes rid t evs) ev := by
  unfold owes
  rw [List.foldl_append]
  rfl

/-- One step of `finished`. -/
def finishedEv (rid : RunId) (t : Tag) (b : Bool) (ev : Event T) : Bool :=
  match ev with
  | .complete r e => if r = rid ∧ e.tag = t then true else b
  | .joined _ .fatal => b
  | .joined p _ => if p.rid = rid ∧ p.entity.tag = t then false else b
  | .retry r e _ => if r = rid ∧ e.tag = t then false else b
  | _ => b

theorem finished_snoc (rid : RunId) (t : Tag) (evs : List (Event T)) (ev : Event T) :
    finished rid t (evs ++ [ev]) = finishedEv rid t (finished rid t evs) ev := by
  unfold finished
  rw [List.foldl_append]
  rfl

/-- The runner is recorded as active; in a cancelled run nothing is recorded. -/
def Active (s : Option (RunState T)) (t : Tag) : Prop :=
  match s with
  | some (.hasWork _ _ _ act _) => val act t = some none
  | some (.done _ _ seen _ _) => val seen t = some true
  | some (.cancelled _) => True
  | _ => False

/-- The runner is recorded as complete while the run is serving tests. -/
def Complete (s : Option (RunState T)) (t : Tag) : Prop :=
  match s with
  | some (.hasWork _ _ _ act _) => ∃ n, val act t = some (some n)
  | _ => False

/-- One step on the activity of a runner. -/
theorem step1_active {rid : RunId} {s s' : Option (RunState T)} {ev : Event T} {o f : Bool} {t : Tag}
    (hn : (recorded s).Nodup) (hok : StOk s) (h : Step1 rid s [ev] s')
    (ho : o = true → Active s t) (hf : Complete s t → f = true)
    (hno : ∀ e items, ev = .pulled rid e items → items ≠ [] → e.tag = t → f = false) :
    (owesEv rid t o ev = true → Active s' t) ∧ (Complete s' t → finishedEv rid t f ev = true) := by
  generalize hx : [ev] = evs at h
  cases h with
  | silent => cases hx
  | setPersisted => cases hx
  | fatal s p hp => cases hx; exact ⟨ho, hf⟩
  | create p hp => cases hx; exact ⟨ho, fun h => h.elim⟩
  | load d => cases hx; exact ⟨fun h => (ho h).elim, fun h => h.elim⟩
  | joined s p hp =>
    cases hx
    subst hp
    cases s with
    | waiting ws b st h => exact ⟨ho, fun h => h.elim⟩
    | done x md seen m h =>
      simp only [RunState.join]
      split <;> exact ⟨ho, fun h => h.elim⟩
    | cancelled r => exact ⟨ho, fun h => h.elim⟩
    | hasWork q b md act h =>
      have h1 : ((RunState.hasWork q b md act h).join p.entity p.hash).1 =
          .hasWork q b md (act.insertByTag p.entity none).1 h := by
        simp only [RunState.join]; split <;> rfl
      have h2 : finishedEv p.rid t f (.joined p ((RunState.hasWork q b md act h).join p.entity p.hash).2 : Event T) =
          if p.entity.tag = t then false else f := by
        simp only [RunState.join]; split <;> simp [finishedEv]
      rw [h1, h2]
      simp only [owesEv, Active, Complete, val_insert] at ho hf ⊢
      by_cases ht : t = p.entity.tag
      · subst ht; simp
      · rw [if_neg ht, if_neg (fun h => ht h.symm)]
        exact ⟨ho, hf⟩
  | noRun b => cases hx; exact ⟨ho, hf⟩
  | work q b md act h e items hq => cases hx; exact ⟨ho, hf⟩
  | mark s e items hover =>
    cases hx
    cases s with
    | hasWork q b md act h =>
      simp only [RunState.markEnd, owesEv, Active, Complete] at ho ⊢
      rw [val_foldl act (fun o => o.isNone) hn]
      refine ⟨fun h => ?_, fun h => h.elim⟩
      rw [ho h]; rfl
    | _ => exact ⟨ho, hf⟩
  | delivered s e items eow => cases hx; exact ⟨ho, hf⟩
  | lost s e items eow => cases hx; exact ⟨ho, hf⟩
  | progress s last h => cases hx; exact ⟨ho, hf⟩
  | storeFailed s => cases hx; exact ⟨ho, hf⟩
  | timeout s last =>
    cases hx
    simp only [RunState.timeoutWrite]
    split
    · exact ⟨fun _ => trivial, fun h => h.elim⟩
    · exact ⟨ho, hf⟩
  | req s r =>
    cases r <;> simp only [exec] at hx ⊢
    case nextWork e =>
      cases s with
      | waiting => simp only [RunState.pull] at hx ⊢; cases hx; exact ⟨ho, hf⟩
      | cancelled => simp only [RunState.pull] at hx ⊢; cases hx; exact ⟨ho, hf⟩
      | done x md seen m h =>
        simp only [RunState.pull] at hx ⊢
        cases hx
        refine ⟨fun h => ?_, fun h => h.elim⟩
        have := ho h
        simp only [Active] at this ⊢
        rw [val_insertIfMissing, this]
      | hasWork q b md act h =>
        obtain ⟨q', items, hq, -⟩ := JobQueue.getWork_spec hok.2 e.tag hok.1
        simp only [RunState.pull, hq] at hx ⊢
        cases hx
        simp only [owesEv, finishedEv, Active, Complete, val_insertIfMissing, true_and] at ho hf ⊢
        constructor
        · intro hh
          by_cases hi : e.tag = t ∧ items ≠ []
          · have hff := hno e items rfl hi.2 hi.1
            cases hv : val act t with
            | none => simp [hi.1]
            | some v =>
              cases v with
              | none => rfl
              | some n => 
                have := hf ⟨n, hv⟩
                rw [hff] at this
                cases this
          · rw [if_neg hi] at hh
            rw [ho hh]
        · rintro ⟨n, hh⟩
          cases hv : val act t with
          | none =>
            rw [hv] at hh
            simp only at hh
            split at hh <;> simp at hh
          | some v =>
            rw [hv] at hh
            exact hf ⟨n, by rw [hv]; exact hh⟩
    case addManifest flat md =>
      cases hx
      cases s with
      | waiting ws b st h =>
        simp only [RunState.addManifest, owesEv, finishedEv, Active, Complete] at ho ⊢
        rw [val_foldl ws (fun _ => (none : Option Nat)) hn]
        refine ⟨fun h => (ho h).elim, ?_⟩
        rintro ⟨n, hh⟩
        simp only [Option.map_eq_some_iff] at hh
        obtain ⟨_, _, hh⟩ := hh
        cases hh
      | _ => exact ⟨ho, hf⟩
    case manifestFailed =>
      cases hx
      cases s with
      | waiting ws b st h => exact ⟨fun _ => trivial, fun h => h.elim⟩
      | _ => exact ⟨ho, hf⟩
    case emptyManifest =>
      cases hx
      cases s with
      | waiting ws b st h => exact ⟨fun h => (ho h).elim, fun h => h.elim⟩
      | _ => exact ⟨ho, hf⟩
    case initMetadata e =>
      cases hx
      cases s with
      | done x md seen m h =>
        simp only [RunState.initMetadata]
        split
        · refine ⟨fun h => ?_, fun h => h.elim⟩
          have := ho h
          simp only [Active] at this ⊢
          rw [val_insert]
          split
          · rfl
          · exact this
        · exact ⟨ho, hf⟩
      | _ => exact ⟨ho, hf⟩
    case retryManifest e =>
      cases hx
      cases s with
      | hasWork q b md act h =>
        simp only [RunState.retryManifest, owesEv, finishedEv, Active, Complete, val_insert, true_and] at ho hf ⊢
        by_cases ht : t = e.tag
        · subst ht; simp
        · rw [if_neg ht, if_neg (fun h => ht h.1.symm), if_neg (fun h => ht h.symm)]
          exact ⟨ho, hf⟩
      | done x md seen m h =>
        refine ⟨?_, fun h => by cases m with
          | cell b => cases b <;> exact h.elim
          | emptyManifest => exact h.elim⟩
        cases m with
        | emptyManifest =>
          simp only [RunState.retryManifest, owesEv]
          simpa using ho
        | cell b =>
          cases b
          · exact ho
          · simp only [RunState.retryManifest, owesEv, Active, val_insert, true_and] at ho ⊢
            by_cases ht : t = e.tag
            · subst ht; simp
            · rw [if_neg ht, if_neg (fun h => ht h.symm)]
              exact ho
      | _ => exact ⟨ho, fun h => h.elim⟩
    case complete e time =>
      cases hx
      simp only [owesEv, finishedEv, true_and]
      cases s with
      | hasWork q b md act h =>
        simp only [RunState.complete, Active, Complete, val_insert] at ho hf ⊢
        by_cases ht : t = e.tag
        · subst ht; simp
        · rw [if_neg ht, if_neg (fun h => ht h.symm), if_neg (fun h => ht h.symm)]
          exact ⟨ho, hf⟩
      | done x md seen m h =>
        simp only [RunState.complete, Active, Complete, val_insert] at ho hf ⊢
        refine ⟨?_, fun h => h.elim⟩
        by_cases ht : t = e.tag
        · subst ht; simp
        · rw [if_neg ht, if_neg (fun h => ht h.symm)]
          exact ho
      | waiting ws b st h =>
        refine ⟨?_, fun h => h.elim⟩
        split
        · simp
        · exact ho
      | cancelled r => exact ⟨fun _ => trivial, fun h => h.elim⟩
    case cancel e reason =>
      cases hx
      cases s with
      | done x md seen m h =>
        simp only [RunState.cancel, Bool.not_false, owesEv, Active, Complete, val_insert, true_and] at ho ⊢
        refine ⟨?_, fun h => h.elim⟩
        by_cases ht : t = e.tag
        · subst ht; simp
        · rw [if_neg ht, if_neg (fun h => ht h.symm)]
          exact ho
      | _ => exact ⟨fun _ => trivial, fun h => h.elim⟩
    all_goals cases hx; exact ⟨ho, hf⟩

theorem step1_active_nil {rid : RunId} {s s' : Option (RunState T)} {t : Tag}
    (h : Step1 rid s [] s') : (Active s t → Active s' t) ∧ (Complete s' t → Complete s t) := by
  generalize hx : ([] : List (Event T)) = evs at h
  cases h with
  | silent => exact ⟨id, id⟩
  | setPersisted s =>
    cases s with
    | none => exact ⟨id, id⟩
    | some s =>
      cases s with
      | done x md seen m h => cases m <;> exact ⟨id, id⟩
      | _ => exact ⟨id, id⟩
  | req s r =>
    cases r <;> simp only [exec] at hx
    case nextWork => split at hx <;> cases hx
    all_goals cases hx
  | _ => cases hx

/-- Whether one runner is recorded as active, in terms of the history. -/
structure ActInv (rid : RunId) (t : Tag) (L : Loc T) : Prop where
  owes : owes rid t L.evs = true → Active L.s t
  fin : Complete L.s t → finished rid t L.evs = true

theorem noFetch_prefix {rid : RunId} {t : Tag} {a b : List (Event T)}
    (h : NoFetchAfterCompletion rid t (a ++ b)) : NoFetchAfterCompletion rid t a := by
  intro x e items y hy he hi
  exact h x e items (y ++ b) (by rw [hy]; simp) he hi

theorem actInv_run (acts : List (RunsAct T)) (rid : RunId) (t : Tag)
    (h : NoFetchAfterCompletion rid t (proj ((init : Runs T).run acts) rid).evs) :
    ActInv rid t (proj ((init : Runs T).run acts) rid) := by
  refine (init_proj_induction' (I := fun L => Track rid L ∧
    (NoFetchAfterCompletion rid t L.evs → ActInv rid t L)) ?_ ?_ acts).2 h
  · refine ⟨⟨by simp [recorded, Loc.init], by simp [Loc.init], by simp [recorded, Loc.init]⟩,
      fun _ => ⟨?_, ?_⟩⟩ <;> simp [Loc.init, owes, Complete]
  · intro L L' hb ⟨htr, hi⟩ hs
    refine ⟨track_step hb htr hs, fun hno => ?_⟩
    obtain ⟨evs, h1, h2⟩ := hs.step1 hb
    have hi' := hi (noFetch_prefix (h2 ▸ hno))
    rcases h1.one with rfl | ⟨ev, rfl⟩
    · rw [List.append_nil] at h2
      refine ⟨fun ht => ?_, fun ht => ?_⟩
      · rw [h2] at ht
        exact (step1_active_nil h1).1 (hi'.owes ht)
      · rw [h2]
        exact hi'.fin ((step1_active_nil h1).2 ht)
    · have key := step1_active (t := t) htr.nodup hb.st h1 hi'.owes hi'.fin (by
        rintro e items rfl hne rfl
        exact hno L.evs e items [] h2 rfl hne)
      refine ⟨fun ht => ?_, fun ht => ?_⟩
      · rw [h2, owes_snoc] at ht
        exact key.1 ht
      · rw [h2, finished_snoc]
        exact key.2 ht

/-! ## Only runners that are not gone are recorded as active -/

/-- If the runner is not recorded as complete, it is not gone. -/
def Fine (s : Option (RunState T)) (t : Tag) (g : Bool) : Prop :=
  match s with
  | none => g = false
  | some (.hasWork _ _ _ act _) => (∃ n, val act t = some (some n)) ∨ g = false
  | some (.done _ _ seen _ _) => val seen t = some false ∨ g = false
  | _ => True

/-- One step of `gone`. -/
def goneEv (rid : RunId) (t : Tag) (b : Bool) (ev : Event T) : Bool :=
  match ev with
  | .complete r e => if r = rid ∧ e.tag = t then true else b
  | .cancel r e true => if r = rid ∧ e.tag = t then true else b
  | .manifest r _ true => if r = rid then false else b
  | .emptyManifest r true => if r = rid then false else b
  | .joined p (.fresh ..) => if p.rid = rid ∧ p.entity.tag = t then false else b
  | .joined p (.retry _) => if p.rid = rid ∧ p.entity.tag = t then false else b
  | .retry r e (.manifest _) => if r = rid ∧ e.tag = t then false else b
  | .retry r e .fetchFromPersistence => if r = rid ∧ e.tag = t then false else b
  | .initMeta r e (.metadata _) => if r = rid ∧ e.tag = t then false else b
  | _ => b

theorem gone_snoc (rid : RunId) (t : Tag) (evs : List (Event T)) (ev : Event T) :
    gone rid t (evs ++ [ev]) = goneEv rid t (gone rid t evs) ev := by
  unfold gone
  rw [List.foldl_append]
  rfl

/-- One step on who is gone. -/
theorem step1_fine {rid : RunId} {s s' : Option (RunState T)} {ev : Event T} {g : Bool} {t : Tag}
    (hn : (recorded s).Nodup) (hok : StOk s) (h : Step1 rid s [ev] s') (hg : Fine s t g) :
    Fine s' t (goneEv rid t g ev) := by
  generalize hx : [ev] = evs at h
  cases h with
  | silent => cases hx
  | setPersisted => cases hx
  | fatal s p hp => cases hx; exact hg
  | create p hp => cases hx; trivial
  | load d => cases hx; exact .inr hg
  | joined s p hp =>
    cases hx
    subst hp
    cases s with
    | waiting ws b st h => trivial
    | done x md seen m h =>
      simp only [RunState.join]
      split
      · simp only [Fine, goneEv, true_and] at hg ⊢
        split
        · exact .inr rfl
        · exact hg
      · exact hg
    | cancelled r => trivial
    | hasWork q b md act h =>
      have h1 : ((RunState.hasWork q b md act h).join p.entity p.hash).1 =
          .hasWork q b md (act.insertByTag p.entity none).1 h := by
        simp only [RunState.join]; split <;> rfl
      have h2 : goneEv p.rid t g (.joined p ((RunState.hasWork q b md act h).join p.entity p.hash).2 : Event T) =
          if p.entity.tag = t then false else g := by
        simp only [RunState.join]; split <;> simp [goneEv]
      rw [h1, h2]
      simp only [Fine, val_insert] at hg ⊢
      by_cases ht : t = p.entity.tag
      · subst ht; simp
      · rw [if_neg ht, if_neg (fun h => ht h.symm)]
        exact hg
  | noRun b => cases hx; exact hg
  | work q b md act h e items hq => cases hx; exact hg
  | mark s e items hover =>
    cases hx
    cases s with
    | hasWork q b md act h =>
      simp only [RunState.markEnd, goneEv, Fine] at hg ⊢
      rw [val_foldl act (fun o => o.isNone) hn]
      rcases hg with ⟨n, hg⟩ | hg
      · left; rw [hg]; rfl
      · exact .inr hg
    | _ => exact hg
  | delivered s e items eow => cases hx; exact hg
  | lost s e items eow => cases hx; exact hg
  | progress s last h => cases hx; exact hg
  | storeFailed s => cases hx; exact hg
  | timeout s last =>
    cases hx
    simp only [RunState.timeoutWrite]
    split
    · trivial
    · exact hg
  | req s r =>
    cases r <;> simp only [exec] at hx ⊢
    case nextWork e =>
      cases s with
      | waiting => simp only [RunState.pull] at hx ⊢; cases hx; exact hg
      | cancelled => simp only [RunState.pull] at hx ⊢; cases hx; exact hg
      | done x md seen m h =>
        simp only [RunState.pull] at hx ⊢
        cases hx
        simp only [Fine, goneEv, val_insertIfMissing] at hg ⊢
        rcases hg with hg | hg
        · left; rw [hg]
        · exact .inr hg
      | hasWork q b md act h =>
        obtain ⟨q', items, hq, -⟩ := JobQueue.getWork_spec hok.2 e.tag hok.1
        simp only [RunState.pull, hq] at hx ⊢
        cases hx
        simp only [Fine, goneEv, val_insertIfMissing] at hg ⊢
        rcases hg with ⟨n, hg⟩ | hg
        · left; exact ⟨n, by rw [hg]⟩
        · exact .inr hg
    case addManifest flat md =>
      cases hx
      cases s with
      | waiting ws b st h =>
        simp only [RunState.addManifest, goneEv, Fine, if_true]
        exact .inr trivial
      | _ => exact hg
    case manifestFailed =>
      cases hx
      cases s with
      | waiting ws b st h => trivial
      | _ => exact hg
    case emptyManifest =>
      cases hx
      cases s with
      | waiting ws b st h =>
        simp only [RunState.emptyManifest, goneEv, Fine, if_true]
        exact .inr trivial
      | _ => exact hg
    case initMetadata e =>
      cases hx
      cases s with
      | waiting => trivial
      | cancelled => trivial
      | hasWork q b md act h =>
        simp only [RunState.initMetadata, Fine, goneEv, true_and] at hg ⊢
        split
        · exact .inr rfl
        · exact hg
      | done x md seen m h =>
        simp only [RunState.initMetadata]
        split
        · simp only [Fine, goneEv, true_and, val_insert] at hg ⊢
          by_cases ht : t = e.tag
          · subst ht; simp
          · rw [if_neg ht, if_neg (fun h => ht h.symm)]
            exact hg
        · exact hg
    case retryManifest e =>
      cases hx
      cases s with
      | hasWork q b md act h =>
        simp only [RunState.retryManifest, Fine, goneEv, val_insert, true_and] at hg ⊢
        by_cases ht : t = e.tag
        · subst ht; simp
        · rw [if_neg ht, if_neg (fun h => ht h.symm)]
          exact hg
      | done x md seen m h =>
        cases m with
        | emptyManifest =>
          simp only [RunState.retryManifest, Fine, goneEv, true_and] at hg ⊢
          split
          · exact .inr rfl
          · exact hg
        | cell b =>
          cases b
          · exact hg
          · simp only [RunState.retryManifest, Fine, goneEv, val_insert, true_and] at hg ⊢
            by_cases ht : t = e.tag
            · subst ht; simp
            · rw [if_neg ht, if_neg (fun h => ht h.symm)]
              exact hg
      | _ => trivial
    case complete e time =>
      cases hx
      cases s with
      | hasWork q b md act h =>
        simp only [RunState.complete, Fine, goneEv, val_insert, true_and] at hg ⊢
        by_cases ht : t = e.tag
        · subst ht; simp
        · rw [if_neg ht, if_neg (fun h => ht h.symm)]
          exact hg
      | done x md seen m h =>
        simp only [RunState.complete, Fine, goneEv, val_insert, true_and] at hg ⊢
        by_cases ht : t = e.tag
        · subst ht; simp
        · rw [if_neg ht, if_neg (fun h => ht h.symm)]
          exact hg
      | _ => trivial
    case cancel e reason =>
      cases hx
      cases s with
      | done x md seen m h =>
        simp only [RunState.cancel, Bool.not_false, Fine, goneEv, val_insert, true_and] at hg ⊢
        by_cases ht : t = e.tag
        · subst ht; simp
        · rw [if_neg ht, if_neg (fun h => ht h.symm)]
          exact hg
      | _ => trivial
    all_goals cases hx; exact hg

theorem step1_fine_nil {rid : RunId} {s s' : Option (RunState T)} {t : Tag} {g : Bool}
    (h : Step1 rid s [] s') (hg : Fine s t g) : Fine s' t g := by
  generalize hx : ([] : List (Event T)) = evs at h
  cases h with
  | silent => exact hg
  | setPersisted s =>
    cases s with
    | none => exact hg
    | some s =>
      cases s with
      | done x md seen m h => cases m <;> exact hg
      | _ => exact hg
  | req s r =>
    cases r <;> simp only [exec] at hx
    case nextWork => split at hx <;> cases hx
    all_goals cases hx
  | _ => cases hx

theorem fine_run (acts : List (RunsAct T)) (rid : RunId) (t : Tag) :
    Fine (proj ((init : Runs T).run acts) rid).s t (gone rid t (proj ((init : Runs T).run acts) rid).evs) := by
  refine (init_proj_induction' (I := fun L => Track rid L ∧ Fine L.s t (gone rid t L.evs)) ?_ ?_ acts).2
  · exact ⟨⟨by simp [recorded, Loc.init], by simp [Loc.init], by simp [recorded, Loc.init]⟩, rfl⟩
  · intro L L' hb ⟨htr, hi⟩ hs
    refine ⟨track_step hb htr hs, ?_⟩
    obtain ⟨evs, h1, h2⟩ := hs.step1 hb
    rcases h1.one with rfl | ⟨ev, rfl⟩
    · rw [h2, List.append_nil]
      exact step1_fine_nil h1 hi
    · rw [h2, gone_snoc]
      exact step1_fine htr.nodup hb.st h1 hi

end Abq.Runs
