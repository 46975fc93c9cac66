import Verif.Proof.AllRunsActive
import Verif.Spec.Seen

/-!
# Which worker runners a run has seen
-/

namespace Abq.Runs
open Spec WorkerSet
variable {T : Type}

/-- What is taken from the queue and not answered yet is in the history. -/
def TookPs (rid : RunId) (L : Loc T) : Prop :=
  ∀ e items, (.pulled rid e items ∈ L.ps ∨ .markEnd rid e items ∈ L.ps) → .pulled rid e items ∈ L.evs

theorem took_step {rid : RunId} {L L' : Loc T} (h : TookPs rid L) (hs : LStep rid L L') : TookPs rid L' := by
  have key : ∀ (ps : List (Pending T)) (x : Eff T), (∀ p ∈ ps, p ∈ L.ps) →
      (∀ e items, (.pulled rid e items ∈ x.next ∨ .markEnd rid e items ∈ x.next) → .pulled rid e items ∈ L.evs ++ x.evs) →
      TookPs rid ({ L with ps := ps }.app x) := by
    intro ps x hps hx e items hm
    simp only [Loc.app, List.mem_append] at hm ⊢
    rcases hm with (hm | hm) | (hm | hm)
    · exact .inl (h e items (.inl (hps _ hm)))
    · exact List.mem_append.1 (hx e items (.inl hm))
    · exact .inl (h e items (.inr (hps _ hm)))
    · exact List.mem_append.1 (hx e items (.inr hm))
  cases hs with
  | join p hp =>
    refine key L.ps _ (fun _ h => h) ?_
    intro e items
    unfold joinEff
    split <;> simp
  | req r hr =>
    refine key L.ps _ (fun _ h => h) ?_
    intro e items
    unfold reqEff
    split
    · simp
    · cases r with
      | nextWork e =>
        simp only [exec]
        split <;> simp
        intro h1 h2; simp [h1, h2]
      | _ => simp [exec, subIf] <;> (try split) <;> simp
  | cont p a b ans ok hp hm hr =>
    have hmem : p ∈ L.ps := by rw [hm]; simp
    refine key (a ++ b) _ (fun q hq => by rw [hm]; simp only [List.mem_append, List.mem_cons] at hq ⊢; exact hq.imp id .inr) ?_
    intro e items
    generalize L.s = s
    cases p with
    | joinRemote p =>
      simp only [contEff, loadRemote, createFresh]
      repeat' split
      all_goals simp
    | joinRead p =>
      simp only [contEff]
      split <;> simp
    | pulled r e' items' =>
      simp only [Pending.rid] at hp
      subst hp
      have := h _ _ (.inl hmem)
      simp only [contEff]
      split <;> simp
      rintro rfl rfl
      exact this
    | markEnd r e' items' =>
      simp only [contEff]
      split <;> simp [subIf]
    | respond r e' items' eow plan =>
      simp only [contEff]
      split
      · cases plan <;> simp [planTasks]
      · simp
    | sub _ => simp [contEff]
    | dumpManifest r view => simp only [contEff]; split <;> simp
    | setPersisted _ => simp [contEff]
    | dumpState r doc => simp only [contEff]; split <;> simp
    | timer r last =>
      simp only [contEff, timerEff, rearm]
      repeat' split
      all_goals simp
    | timeoutWrite r last =>
      simp only [contEff, rearm, subIf]
      repeat' split
      all_goals simp

/-- What is recorded for a runner fits what the history says. -/
structure Look {α : Type} (k : Attendance) (o : Option α) (f : α → Bool) : Prop where
  seen : k.seen = o.isSome
  active : k.active = o.any f

/-- What a state says about a runner fits what the history says. -/
def Stands (t : Tag) (k : Attendance) : Option (RunState T) → Prop
  | none => k = ⟨false, false, false, false, false⟩
  | some (.waiting ws _ _ _) =>
    (k.received = false ∧ k.empty = false ∧ k.exhausted = false) ∧ Look k (val ws t) (fun _ => true)
  | some (.hasWork _ _ _ act _) =>
    (k.received = true ∧ k.empty = false ∧ k.exhausted = false) ∧ Look k (val act t) Option.isNone
  | some (.done _ _ seen m _) =>
    (k.received = true ∧ (k.empty = true ↔ m = .emptyManifest) ∧ k.exhausted = true) ∧ Look k (val seen t) id
  | some (.cancelled _) => True

/-- The runner is recorded after it was answered, once the tests are known. -/
def Noted (e : Entity) : Option (RunState T) → Prop
  | some (.hasWork _ _ _ act _) => e.tag ∈ tags act
  | some (.done _ _ seen _ _) => e.tag ∈ tags seen
  | _ => True

theorem val_isSome {α : Type} (ws : WorkerSet α) (t : Tag) : (val ws t).isSome = true ↔ t ∈ tags ws := by
  simp [val, Props.lookup, tags, List.find?_isSome]

/-- One runner comes. -/
theorem look_comes {α : Type} {k : Attendance} {ws : WorkerSet α} {f : α → Bool} {t : Tag} (h : Look k (val ws t) f) (e : Entity)
    (v : α) (hv : f v = true) {c : Prop} [Decidable c] (hc : c ↔ e.tag = t) :
    Look (if c then k.comes else k) (val (ws.insertByTag e v).1 t) f := by
  rw [val_insert]
  by_cases ht : t = e.tag
  · rw [if_pos ht, if_pos (hc.2 ht.symm)]
    exact ⟨rfl, by simp [Attendance.comes, hv]⟩
  · rw [if_neg ht, if_neg (fun h => ht (hc.1 h).symm)]
    exact h

/-- One runner leaves. -/
theorem look_leaves {α : Type} {k : Attendance} {ws : WorkerSet α} {f : α → Bool} {t : Tag} (h : Look k (val ws t) f) (e : Entity)
    (v : α) (hv : f v = false) {c : Prop} [Decidable c] (hc : c ↔ e.tag = t) :
    Look (if c then k.leaves else k) (val (ws.insertByTag e v).1 t) f := by
  rw [val_insert]
  by_cases ht : t = e.tag
  · rw [if_pos ht, if_pos (hc.2 ht.symm)]
    exact ⟨rfl, by simp [Attendance.leaves, hv]⟩
  · rw [if_neg ht, if_neg (fun h => ht (hc.1 h).symm)]
    exact h

/-- One runner asks. -/
theorem look_asks {α : Type} {k : Attendance} {ws : WorkerSet α} {f : α → Bool} {t : Tag} (h : Look k (val ws t) f) (e : Entity)
    (v : α) (hv : f v = true) {c : Prop} [Decidable c] (hc : c ↔ e.tag = t) :
    Look (if c then k.asks else k) (val (ws.insertByTagIfMissing e v) t) f := by
  rw [val_insertIfMissing]
  by_cases ht : t = e.tag
  · rw [if_pos (hc.2 ht.symm), if_pos ht]
    cases ho : val ws t with
    | none =>
      have h1 := h.seen
      rw [ho] at h1
      exact ⟨rfl, by simp [Attendance.asks, hv, h1]⟩
    | some x =>
      have h1 := h.seen
      have h2 := h.active
      rw [ho] at h1 h2
      exact ⟨rfl, by simp [Attendance.asks, h2, h1]⟩
  · rw [if_neg (fun h => ht (hc.1 h).symm), if_neg ht]
    cases ho : val ws t <;> (rw [ho] at h; exact h)

/-- A runner that is recorded asks. -/
theorem look_again {α : Type} {k : Attendance} {o : Option α} {f : α → Bool} (h : Look k o f)
    {c : Prop} [Decidable c] (hc : c → o.isSome = true) :
    (if c then k.asks else k) = k := by
  split
  · next h' =>
    have := h.seen
    rw [hc h'] at this
    cases k
    simp_all [Attendance.asks]
  · rfl

theorem comes_same (k : Attendance) (c : Prop) [Decidable c] :
    (if c then k.comes else k).received = k.received ∧ (if c then k.comes else k).empty = k.empty ∧
      (if c then k.comes else k).exhausted = k.exhausted := by
  split <;> exact ⟨rfl, rfl, rfl⟩

theorem leaves_same (k : Attendance) (c : Prop) [Decidable c] :
    (if c then k.leaves else k).received = k.received ∧ (if c then k.leaves else k).empty = k.empty ∧
      (if c then k.leaves else k).exhausted = k.exhausted := by
  split <;> exact ⟨rfl, rfl, rfl⟩

theorem asks_same (k : Attendance) (c : Prop) [Decidable c] :
    (if c then k.asks else k).received = k.received ∧ (if c then k.asks else k).empty = k.empty ∧
      (if c then k.asks else k).exhausted = k.exhausted := by
  split <;> exact ⟨rfl, rfl, rfl⟩

theorem step1_stands {rid : RunId} {s s' : Option (RunState T)} {ev : Event T} {k : Attendance} {t : Tag}
    (hn : (recorded s).Nodup) (hok : StOk s) (h : Step1 rid s [ev] s')
    (hw : ∀ e items eow, ev = .work rid e items eow → Noted e s') (hk : Stands t k s) : Stands t (k.after rid t ev) s' := by
  generalize hx : [ev] = evs at h
  cases h with
  | silent => cases hx
  | setPersisted => cases hx
  | fatal s p hp => cases hx; exact hk
  | create p hp =>
    cases hx
    subst hp
    cases hk
    have h1 := comes_same ⟨false, false, false, false, false⟩ (p.rid = p.rid ∧ p.entity.tag = t)
    exact ⟨h1, look_comes (ws := []) (f := fun _ => true) ⟨rfl, rfl⟩ p.entity () rfl (by simp)⟩
  | load d =>
    cases hx
    simp only [Attendance.after, if_pos, RunState.loaded, Stands]
    refine ⟨⟨trivial, by simp, trivial⟩, ?_⟩
    have hl := foldl_insert_tags (β := Bool) (α := Bool) (d.seen.map (fun e => (e, false))) [] id t
    have hs : (val (WorkerSet.ofList (d.seen.map (fun e => (e, false)))) t).isSome =
        d.seen.any (fun e => e.tag == t) := by
      rw [Bool.eq_iff_iff, val_isSome]
      refine Iff.trans hl ?_
      simp [tags]
    refine ⟨hs.symm, ?_⟩
    have hall : ∀ (l : List Entity) (ws : WorkerSet Bool), (∀ x, val ws t = some x → x = false) →
        ∀ x, val ((l.map (fun e => (e, false))).foldl (fun ws p => (insertByTag ws p.1 p.2).1) ws) t = some x → x = false := by
      intro l
      induction l with
      | nil => exact fun ws h => h
      | cons e l ih =>
        intro ws h
        rw [List.map_cons, List.foldl_cons]
        refine ih _ ?_
        intro x
        rw [val_insert]
        split
        · intro h; cases h; rfl
        · exact h x
    have := hall d.seen [] (by simp [val, Props.lookup])
    cases ho : val (WorkerSet.ofList (d.seen.map (fun e => (e, false)))) t with
    | none => rfl
    | some x => rw [this x ho]; rfl
  | joined s p hp =>
    cases hx
    subst hp
    cases s with
    | waiting ws b st h =>
      have h1 := comes_same k (p.rid = p.rid ∧ p.entity.tag = t)
      exact ⟨⟨h1.1.trans hk.1.1, h1.2.1.trans hk.1.2.1, h1.2.2.trans hk.1.2.2⟩, look_comes hk.2 p.entity () rfl (by simp)⟩
    | done x md seen m h =>
      simp only [RunState.join]
      split
      · simp only [Attendance.after, hk.1.2.2]
        rw [if_neg (by simp)]
        exact hk
      · exact hk
    | cancelled r => trivial
    | hasWork q b md act h =>
      have h1 : ((RunState.hasWork q b md act h).join p.entity p.hash).1 =
          .hasWork q b md (act.insertByTag p.entity none).1 h := by
        simp only [RunState.join]; split <;> rfl
      have h2 : Attendance.after p.rid t k (.joined p ((RunState.hasWork q b md act h).join p.entity p.hash).2 : Event T) =
          if p.entity.tag = t then k.comes else k := by
        simp only [RunState.join]; split <;> simp [Attendance.after, hk.1.2.2]
      rw [h1, h2]
      have h1 := comes_same k (p.entity.tag = t)
      exact ⟨⟨h1.1.trans hk.1.1, h1.2.1.trans hk.1.2.1, h1.2.2.trans hk.1.2.2⟩, look_comes hk.2 p.entity none rfl Iff.rfl⟩
  | noRun b => cases hx; exact hk
  | work q b md act h e items hq =>
    cases hx
    simp only [Attendance.after, hk.1.1, and_self, if_true]
    rw [look_again hk.2 (fun he => by rw [← he, val_isSome]; exact hw _ _ _ rfl)]
    exact ⟨⟨hk.1.1, hk.1.2.1, by simp [hk.1.2.2]⟩, hk.2.seen, hk.2.active⟩
  | mark s e items hover =>
    cases hx
    have hw := hw _ _ _ rfl
    cases s with
    | hasWork q b md act h =>
      have hv := val_foldl act (fun o : Option Nat => o.isNone) hn t
      have hnoted : e.tag = t → (val act t).isSome = true := by
        intro he
        have : (val (act.foldl (fun a p => (insertByTag a p.1 p.2.isNone).1) []) t).isSome = true := by
          rw [val_isSome, ← he]; exact hw
        rw [hv] at this
        simpa using this
      simp only [Attendance.after, hk.1.1, and_self, if_true]
      rw [look_again hk.2 hnoted]
      refine ⟨⟨hk.1.1, by simp [hk.1.2.1], by simp⟩, ?_, ?_⟩
      · show k.seen = _
        rw [hv, hk.2.seen]; simp
      · show k.active = _
        rw [hv, hk.2.active, Option.any_map]; rfl
    | done x md seen m h =>
      simp only [Attendance.after, hk.1.1, and_self, if_true]
      rw [look_again hk.2 (fun he => by rw [← he, val_isSome]; exact hw)]
      exact ⟨⟨hk.1.1, hk.1.2.1, by simp⟩, hk.2.seen, hk.2.active⟩
    | waiting => exact absurd hover (by simp [Over])
    | cancelled => trivial
  | delivered s e items eow => cases hx; exact hk
  | lost s e items eow => cases hx; exact hk
  | progress s last h => cases hx; exact hk
  | storeFailed s => cases hx; exact hk
  | timeout s last =>
    cases hx
    simp only [RunState.timeoutWrite]
    split
    · trivial
    · exact hk
  | req s r =>
    cases r <;> simp only [exec] at hx ⊢
    case nextWork e =>
      cases s with
      | waiting ws b st h =>
        simp only [RunState.pull] at hx ⊢
        cases hx
        simp only [Attendance.after, hk.1.1]
        rw [if_neg (by simp)]
        exact hk
      | cancelled => simp only [RunState.pull] at hx ⊢; cases hx; trivial
      | done x md seen m h =>
        simp only [RunState.pull] at hx ⊢
        cases hx
        simp only [Attendance.after, hk.1.1, and_self, if_true]
        have h1 := asks_same k (e.tag = t)
        have h2 := look_asks hk.2 e true rfl (c := e.tag = t) Iff.rfl
        exact ⟨⟨h1.1.trans hk.1.1, (Bool.eq_iff_iff.1 h1.2.1).trans hk.1.2.1, by simp⟩, h2.seen, h2.active⟩
      | hasWork q b md act h =>
        obtain ⟨q', items, hq, -⟩ := JobQueue.getWork_spec hok.2 e.tag hok.1
        simp only [RunState.pull, hq] at hx ⊢
        cases hx
        have h1 := asks_same k (rid = rid ∧ e.tag = t)
        exact ⟨⟨h1.1.trans hk.1.1, h1.2.1.trans hk.1.2.1, h1.2.2.trans hk.1.2.2⟩, look_asks hk.2 e none rfl (by simp)⟩
    case addManifest flat md =>
      cases hx
      cases s with
      | waiting ws b st h =>
        have hv := val_foldl ws (fun _ => (none : Option Nat)) hn t
        simp only [RunState.addManifest, Attendance.after, Stands, if_true]
        refine ⟨⟨trivial, hk.1.2.1, hk.1.2.2⟩, ?_, ?_⟩
        · rw [hv]
          simp [hk.2.seen]
        · rw [hv, Option.any_map]
          exact hk.2.active
      | _ => exact hk
    case manifestFailed =>
      cases hx
      cases s with
      | waiting ws b st h => trivial
      | _ => exact hk
    case emptyManifest =>
      cases hx
      cases s with
      | waiting ws b st h =>
        simp only [RunState.emptyManifest, Attendance.after, Stands, if_true]
        exact ⟨⟨trivial, by simp, trivial⟩, rfl, rfl⟩
      | _ => exact hk
    case initMetadata e =>
      cases hx
      cases s with
      | done x md seen m h =>
        simp only [RunState.initMetadata]
        split
        · have h1 := comes_same k (rid = rid ∧ e.tag = t ∧ k.exhausted = true)
          exact ⟨⟨h1.1.trans hk.1.1, (Bool.eq_iff_iff.1 h1.2.1).trans hk.1.2.1, h1.2.2.trans hk.1.2.2⟩,
            look_comes hk.2 e true rfl (by simp [hk.1.2.2])⟩
        · exact hk
      | hasWork q b md act h =>
        simp only [RunState.initMetadata, Attendance.after, hk.1.2.2]
        rw [if_neg (by simp)]
        exact hk
      | _ => exact hk
    case retryManifest e =>
      cases hx
      cases s with
      | hasWork q b md act h =>
        have h1 := comes_same k (rid = rid ∧ e.tag = t ∧ k.empty = false)
        exact ⟨⟨h1.1.trans hk.1.1, h1.2.1.trans hk.1.2.1, h1.2.2.trans hk.1.2.2⟩,
          look_comes hk.2 e none rfl (by simp [hk.1.2.1])⟩
      | done x md seen m h =>
        cases m with
        | emptyManifest =>
          simp only [RunState.retryManifest, Attendance.after, hk.1.2.1.2 rfl]
          rw [if_neg (by simp)]
          exact hk
        | cell b =>
          cases b
          · exact hk
          · have h1 := comes_same k (rid = rid ∧ e.tag = t)
            exact ⟨⟨h1.1.trans hk.1.1, (Bool.eq_iff_iff.1 h1.2.1).trans hk.1.2.1, h1.2.2.trans hk.1.2.2⟩,
              look_comes hk.2 e true rfl (by simp)⟩
      | _ => exact hk
    case complete e time =>
      cases hx
      cases s with
      | hasWork q b md act h =>
        have h1 := leaves_same k (rid = rid ∧ e.tag = t ∧ k.received = true)
        exact ⟨⟨h1.1.trans hk.1.1, h1.2.1.trans hk.1.2.1, h1.2.2.trans hk.1.2.2⟩,
          look_leaves hk.2 e (some time) rfl (by simp [hk.1.1])⟩
      | done x md seen m h =>
        have h1 := leaves_same k (rid = rid ∧ e.tag = t ∧ k.received = true)
        exact ⟨⟨h1.1.trans hk.1.1, (Bool.eq_iff_iff.1 h1.2.1).trans hk.1.2.1, h1.2.2.trans hk.1.2.2⟩,
          look_leaves hk.2 e false rfl (by simp [hk.1.1])⟩
      | waiting =>
        simp only [RunState.complete, Attendance.after, hk.1.1]
        rw [if_neg (by simp)]
        exact hk
      | cancelled => trivial
    case cancel e reason =>
      cases hx
      cases s with
      | done x md seen m h =>
        have h1 := leaves_same k (rid = rid ∧ e.tag = t)
        exact ⟨⟨h1.1.trans hk.1.1, (Bool.eq_iff_iff.1 h1.2.1).trans hk.1.2.1, h1.2.2.trans hk.1.2.2⟩,
          look_leaves hk.2 e false rfl (by simp)⟩
      | _ => trivial
    all_goals cases hx; exact hk

theorem step1_stands_nil {rid : RunId} {s s' : Option (RunState T)} {t : Tag} {k : Attendance}
    (h : Step1 rid s [] s') (hk : Stands t k s) : Stands t k s' := by
  generalize hx : ([] : List (Event T)) = evs at h
  cases h with
  | silent => exact hk
  | setPersisted s =>
    cases s with
    | none => exact hk
    | some s =>
      cases s with
      | done x md seen m h =>
        cases m with
        | emptyManifest => exact hk
        | cell b =>
          refine ⟨⟨hk.1.1, ?_, hk.1.2.2⟩, hk.2⟩
          rw [hk.1.2.1]
          simp
      | _ => exact hk
  | req s r =>
    cases r <;> simp only [exec] at hx
    case nextWork => split at hx <;> cases hx
    all_goals cases hx
  | _ => cases hx

/-- The run has, or had, tests to hand out, or was cancelled. -/
def Had : Option (RunState T) → Prop
  | some (.hasWork ..) => True
  | some (.done _ _ _ (.cell _) _) => True
  | some (.cancelled _) => True
  | _ => False

theorem step1_had {rid : RunId} {s s' : Option (RunState T)} {evs : List (Event T)} (h : Step1 rid s evs s')
    (hs : Had s ∨ ∃ e items, .pulled rid e items ∈ evs) : Had s' := by
  cases h with
  | req s r =>
    cases s with
    | hasWork q b md act hh =>
      cases r <;> simp only [exec] <;> try trivial
      next e =>
      simp only [RunState.pull]
      cases q.getWork e.tag b <;> trivial
    | done x md seen m hh =>
      cases m with
      | emptyManifest =>
        cases r <;> simp [exec, RunState.pull, Had] at hs
      | cell b =>
        cases r <;> simp only [exec] <;> try trivial
        · simp only [RunState.initMetadata]; split <;> trivial
        · cases b <;> trivial
    | cancelled r' => cases r <;> trivial
    | waiting ws b st hh => cases r <;> simp [exec, RunState.pull, Had] at hs
  | setPersisted s =>
    rcases hs with hs | ⟨_, _, hs⟩
    · cases s with
      | none => exact hs
      | some s =>
        cases s with
        | done x md seen m h => cases m <;> first | exact hs | trivial
        | _ => exact hs
    · cases hs
  | joined s p hp =>
    rcases hs with hs | ⟨_, _, hs⟩
    · cases s with
      | hasWork q b md act h =>
        simp only [RunState.join]; split <;> trivial
      | done x md seen m h => simp only [RunState.join]; split <;> exact hs
      | _ => exact hs
    · simp at hs
  | mark s e items ho =>
    rcases hs with hs | ⟨_, _, hs⟩
    · cases s with
      | hasWork q b md act h => trivial
      | _ => exact hs
    · simp at hs
  | timeout s last =>
    simp only [RunState.timeoutWrite]
    split
    · trivial
    · rcases hs with hs | ⟨_, _, hs⟩
      · exact hs
      · simp at hs
  | _ =>
    rcases hs with hs | ⟨_, _, hs⟩
    · first | exact hs | cases hs
    · simp at hs

/-- Whoever is answered with tests is recorded. -/
theorem noted_step {rid : RunId} {L L' : Loc T} (hb : Base L) (htr : Track rid L) (ht : TookPs rid L)
    (hh : ∀ e items, .pulled rid e items ∈ L.evs → Had L.s) (hs : LStep rid L L')
    (e : Entity) (items : List (WorkerTest T)) (eow : Bool) (hev : L'.evs = L.evs ++ [.work rid e items eow]) :
    Noted e L'.s := by
  have hL := track_step hb htr hs
  have mem : .pulled rid e items ∈ L.evs → Noted e L'.s := by
    intro hm
    obtain ⟨evs, h1, -⟩ := hs.step1 hb
    have hhad := step1_had h1 (.inl (hh _ _ hm))
    have hany : L'.evs.any (tookPart rid e.tag) = true := by
      rw [List.any_eq_true, hev]
      exact ⟨_, List.mem_append.2 (.inl hm), by simp [tookPart]⟩
    have htook := hL.took
    revert hhad htook
    generalize L'.s = s
    intro hhad htook
    match s, hhad with
    | some (.hasWork ..), _ => exact htook trivial _ hany
    | some (.done _ _ _ (.cell _) _), _ => exact htook trivial _ hany
    | some (.cancelled _), _ => trivial
  cases hs with
  | join p hp =>
    simp only [Loc.app, List.append_cancel_left_eq] at hev
    unfold joinEff at hev
    split at hev <;> simp at hev
  | req r hr =>
    simp only [Loc.app, List.append_cancel_left_eq] at hev ⊢
    clear mem hL
    revert hev
    cases hs : L.s with
    | none => simp [reqEff]
    | some s =>
      have hok := hb.st
      rw [hs] at hok
      cases r <;> simp only [reqEff, exec] <;> intro hev <;> try (cases hev)
      case nextWork e' =>
        cases s with
        | waiting => simp only [RunState.pull] at hev ⊢; trivial
        | cancelled => simp only [RunState.pull] at hev ⊢; trivial
        | done x md seen m h =>
          simp only [RunState.pull] at hev ⊢
          cases hev
          exact mem_tags_insertByTagIfMissing.2 (.inr rfl)
        | hasWork q b md act h =>
          obtain ⟨q', items, hq, -⟩ := JobQueue.getWork_spec hok.2 e'.tag hok.1
          simp only [RunState.pull, hq] at hev
          cases hev
  | cont p a b ans ok hp hm hr =>
    have hmem : p ∈ L.ps := by rw [hm]; simp
    simp only [Loc.app, List.append_cancel_left_eq] at hev
    have hx : (∃ i, p = .pulled rid e i ∧ i = items) ∨ ∃ i, p = .markEnd rid e i ∧ i = items := by
      clear hL mem
      revert hev
      generalize L.s = s
      cases p with
      | joinRemote p =>
        simp only [contEff, loadRemote, createFresh]
        repeat' split
        all_goals simp
      | joinRead p =>
        simp only [contEff]
        split <;> simp
      | pulled r e' items' =>
        simp only [contEff]
        split <;> simp
        intro h1 h2 h3 _
        exact ⟨h1, h2, h3⟩
      | markEnd r e' items' =>
        simp only [contEff]
        split <;> simp
        intro h1 h2 h3 _
        exact ⟨h1, h2, h3⟩
      | respond r e' items' eow plan =>
        simp only [contEff]
        split <;> simp
      | sub _ => simp [contEff]
      | dumpManifest r view => simp only [contEff]; split <;> simp
      | setPersisted _ => simp [contEff]
      | dumpState r doc => simp only [contEff]; split <;> simp
      | timer r last =>
        simp only [contEff, timerEff]
        repeat' split
        all_goals simp
      | timeoutWrite r last =>
        simp only [contEff]
        repeat' split
        all_goals simp
    refine mem ?_
    rcases hx with ⟨i, rfl, rfl⟩ | ⟨i, rfl, rfl⟩
    · exact ht _ _ (.inl hmem)
    · exact ht _ _ (.inr hmem)

theorem attendance_snoc (rid : RunId) (t : Tag) (evs : List (Event T)) (ev : Event T) :
    attendance rid t (evs ++ [ev]) = (attendance rid t evs).after rid t ev := by
  unfold attendance
  rw [List.foldl_append]
  rfl

structure SeenInv (rid : RunId) (t : Tag) (L : Loc T) : Prop where
  track : Track rid L
  took : TookPs rid L
  had : ∀ e items, .pulled rid e items ∈ L.evs → Had L.s
  stands : Stands t (attendance rid t L.evs) L.s

theorem seenInv_run (acts : List (RunsAct T)) (rid : RunId) (t : Tag) :
    SeenInv rid t (proj ((init : Runs T).run acts) rid) := by
  refine init_proj_induction' ?_ ?_ acts
  · exact ⟨⟨by simp [recorded, Loc.init], by simp [Loc.init], by simp [recorded, Loc.init]⟩, by simp [TookPs, Loc.init],
      by simp [Loc.init], rfl⟩
  · intro L L' hb hi hs
    obtain ⟨evs, h1, h2⟩ := hs.step1 hb
    refine ⟨track_step hb hi.track hs, took_step hi.took hs, ?_, ?_⟩
    · intro e items hm
      rw [h2] at hm
      rcases List.mem_append.1 hm with hm | hm
      · exact step1_had h1 (.inl (hi.had _ _ hm))
      · exact step1_had h1 (.inr ⟨_, _, hm⟩)
    · rcases h1.one with rfl | ⟨ev, rfl⟩
      · rw [h2, List.append_nil]
        exact step1_stands_nil h1 hi.stands
      · rw [h2, attendance_snoc]
        refine step1_stands hi.track.nodup hb.st h1 ?_ hi.stands
        rintro e items eow rfl
        exact noted_step hb hi.track hi.took hi.had hs e items eow h2

theorem attendance_filter (rid : RunId) (t : Tag) (evs : List (Event T)) :
    attendance rid t (evs.filter (fun p => p.rid == rid)) = attendance rid t evs := by
  unfold attendance
  refine foldl_filter _ rid ?_ evs _
  intro k ev hne
  cases ev <;> simp only [Event.rid, ne_eq] at hne <;> simp only [Attendance.after] <;> (try split) <;> simp_all

end Abq.Runs
