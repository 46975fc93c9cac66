import Verif.Spec.Results

/-! # Invariants of the results machine -/

namespace Abq.Results
open Spec

/-- Where everything written so far is. -/
def Content (fd : Option Fd) (disk : Bytes) (remote : Option Bytes) (evs : List Ev) : Prop :=
  match fd with
  | none => bases evs = [] ∧ content [] evs = []
  | some .opened => ∃ base, bases evs = [base] ∧ disk = content base evs
  | some .offloaded => ∃ base, bases evs = [base] ∧ ∀ r, remote = some r → r = content base evs

/-- An observation that is neither a write nor the opening of the file. -/
def Mute : Ev → Prop
  | .wrote .. => False
  | .opened _ => False
  | _ => True

theorem writes_append (a b : List Ev) : writes (a ++ b) = writes a ++ writes b := by
  simp [writes]

theorem bases_append (a b : List Ev) : bases (a ++ b) = bases a ++ bases b := by
  simp [bases]

theorem planned_append (a b : List Ev) : planned (a ++ b) = planned a ++ planned b := by
  simp [planned]

theorem written_append (a b : List Ev) : written (a ++ b) = written a ++ written b := by
  simp [written, writes]

theorem content_append (base : Bytes) (a b : List Ev) :
    content base (a ++ b) = content base a ++ ((writes b).map (·.2.1)).flatten := by
  simp [content, writes_append]

theorem content_mute (base : Bytes) (evs : List Ev) (ev : Ev) (h : Mute ev) :
    content base (evs ++ [ev]) = content base evs := by
  cases ev <;> simp_all [content_append, writes, Mute]

theorem bases_mute (evs : List Ev) (ev : Ev) (h : Mute ev) : bases (evs ++ [ev]) = bases evs := by
  cases ev <;> simp_all [bases, Mute]

theorem Content.mute {fd : Option Fd} {disk : Bytes} {remote : Option Bytes} {evs : List Ev}
    {ev : Ev} (h : Content fd disk remote evs) (hm : Mute ev) :
    Content fd disk remote (evs ++ [ev]) := by
  unfold Content at *
  rw [bases_mute _ _ hm]
  simpa only [content_mute _ _ _ hm] using h

theorem content_wrote (base : Bytes) (evs : List Ev) (id : Nat) (c : Bytes) (ok : Bool) :
    content base (evs ++ [.wrote id c ok]) = content base evs ++ c := by
  simp [content_append, writes]

theorem bases_wrote (evs : List Ev) (id : Nat) (c : Bytes) (ok : Bool) :
    bases (evs ++ [.wrote id c ok]) = bases evs := by
  simp [bases]

theorem Content.failed {fd : Option Fd} {disk : Bytes} {remote : Option Bytes} {evs : List Ev}
    (h : Content fd disk remote evs) (o : Op) : Content fd disk remote (evs ++ [failed o]) := by
  cases o with
  | dump id line =>
    unfold Content at *
    simpa only [Results.failed, bases_wrote, content_wrote, List.append_nil] using h
  | toRemote => exact h.mute trivial
  | read r => exact h.mute trivial

/-- An operation on the open file. -/
theorem content_runOp (noop : Bool) (disk : Bytes) (remote : Option Bytes) (io : IoOut) (o : Op)
    (evs : List Ev) (base : Bytes) (hb : bases evs = [base]) (hd : disk = content base evs) :
    Content (some .opened) (runOp noop disk remote io o).1 (runOp noop disk remote io o).2.1
      (evs ++ [(runOp noop disk remote io o).2.2]) := by
  have hm : ∀ ev, Mute ev → ∃ base, bases (evs ++ [ev]) = [base] ∧ disk = content base (evs ++ [ev]) :=
    fun ev h => ⟨base, by rw [bases_mute _ _ h, hb], by rw [content_mute _ _ _ h, hd]⟩
  cases o <;> cases io
  case dump.ok => exact ⟨base, by rw [runOp, bases_wrote, hb], by simp only [runOp, content_wrote, hd]⟩
  case dump.cut => exact ⟨base, by rw [runOp, bases_wrote, hb], by simp only [runOp, content_wrote, hd]⟩
  all_goals exact hm _ trivial

theorem content_fastPath {σ τ : Res} {o : Op} {out : Out} {ev : Ev}
    (h : Content σ.fd σ.disk σ.remote σ.events) (hf : fastPath σ o out = some (τ, ev)) :
    Content τ.fd τ.disk τ.remote (τ.events ++ [ev]) ∧ τ.events = σ.events ∧ τ.tasks = σ.tasks ∧
      τ.processing = σ.processing ∧ τ.nextId = σ.nextId ∧ τ.nextRead = σ.nextRead ∧
      τ.noop = σ.noop := by
  unfold fastPath at hf
  cases hfd : σ.fd with
  | none => simp [hfd] at hf
  | some fd =>
    cases fd with
    | opened =>
      simp only [hfd, Option.some.injEq, Prod.mk.injEq] at hf
      obtain ⟨rfl, rfl⟩ := hf
      refine ⟨?_, rfl, rfl, rfl, rfl, rfl, rfl⟩
      simp only [Content, hfd] at h
      obtain ⟨base, hb, hd⟩ := h
      simpa only [hfd] using content_runOp σ.noop σ.disk σ.remote out.io o σ.events base hb hd
    | offloaded =>
      simp only [hfd] at hf
      simp only [Content, hfd] at h
      obtain ⟨base, hb, hr⟩ := h
      split at hf
      · rename_i hc
        simp only [Option.some.injEq, Prod.mk.injEq] at hf
        obtain ⟨rfl, rfl⟩ := hf
        refine ⟨?_, rfl, rfl, rfl, rfl, rfl, rfl⟩
        have hd : (load σ.remote σ.disk out.load).2 = content base σ.events := by
          cases hrem : σ.remote <;> cases hl : out.load <;> simp_all [load]
        exact content_runOp σ.noop _ σ.remote out.io o σ.events base hb hd
      · simp only [Option.some.injEq, Prod.mk.injEq] at hf
        obtain ⟨rfl, rfl⟩ := hf
        refine ⟨?_, rfl, rfl, rfl, rfl, rfl, rfl⟩
        have : Content σ.fd (load σ.remote σ.disk out.load).2 σ.remote σ.events := by
          simp only [Content, hfd]
          exact ⟨base, hb, hr⟩
        simpa only [hfd] using this.failed o

/-- The observations an operation can end with. -/
def EvOf : Op → Ev → Prop
  | .dump id line, ev => ∃ chunk ok, ev = .wrote id chunk ok ∧ (ok = true → chunk = packed line)
  | .toRemote, ev => ∃ ok, ev = .stored ok
  | .read r, ev => (∃ b, ev = .stream r b) ∨ ev = .readFailed r

theorem failed_ev (o : Op) : EvOf o (failed o) := by
  cases o <;> simp [failed, EvOf]

theorem runOp_ev (noop : Bool) (disk : Bytes) (remote : Option Bytes) (io : IoOut) (o : Op) :
    EvOf o (runOp noop disk remote io o).2.2 := by
  cases o <;> cases io <;> simp [runOp, EvOf]

/-- What a file operation may be observed to do. -/
theorem fastPath_ev {σ τ : Res} {o : Op} {out : Out} {ev : Ev}
    (hf : fastPath σ o out = some (τ, ev)) : EvOf o ev := by
  unfold fastPath at hf
  split at hf
  · simp at hf
  · simp only [Option.some.injEq, Prod.mk.injEq] at hf
    rw [← hf.2]
    exact runOp_ev ..
  · dsimp only at hf
    split at hf <;> simp only [Option.some.injEq, Prod.mk.injEq] at hf <;> rw [← hf.2]
    · exact runOp_ev ..
    · exact failed_ev o

/-- A stream is what is in the open file. -/
theorem fastPath_stream {σ τ : Res} {o : Op} {out : Out} {r : Nat} {b : Bytes}
    (h : Content σ.fd σ.disk σ.remote σ.events)
    (hf : fastPath σ o out = some (τ, .stream r b)) :
    ∃ base, bases σ.events = [base] ∧ b = content base σ.events := by
  obtain ⟨hc, hev, -⟩ := content_fastPath h hf
  have ho : ∃ r', o = .read r' := by
    have := fastPath_ev hf
    cases o <;> simp [EvOf] at this ⊢
  obtain ⟨r', rfl⟩ := ho
  have hopen : τ.fd = some .opened ∧ τ.disk = b := by
    unfold fastPath at hf
    split at hf
    · simp at hf
    · rename_i hfd
      simp only [Option.some.injEq, Prod.mk.injEq] at hf
      obtain ⟨rfl, he⟩ := hf
      refine ⟨hfd, ?_⟩
      cases hio : out.io <;> simp [runOp, hio] at he ⊢
      exact he.2
    · dsimp only at hf
      split at hf <;> simp only [Option.some.injEq, Prod.mk.injEq] at hf
      · obtain ⟨rfl, he⟩ := hf
        refine ⟨rfl, ?_⟩
        cases hio : out.io <;> simp [runOp, hio] at he ⊢
        exact he.2
      · simp [failed] at hf
  rw [hopen.1, hopen.2, hev] at hc
  obtain ⟨base, hb, hd⟩ := hc
  rw [bases_mute _ _ (by trivial)] at hb
  rw [content_mute _ _ _ (by trivial)] at hd
  exact ⟨base, hb, hd⟩

theorem content_slowPath {σ : Res} {out : Out} (h : Content σ.fd σ.disk σ.remote σ.events) :
    Content (slowPath σ out).1.fd (slowPath σ out).1.disk (slowPath σ out).1.remote
      (slowPath σ out).1.events := by
  unfold slowPath
  cases hfd : σ.fd with
  | some fd => simpa [hfd] using h
  | none =>
    simp only [Content, hfd] at h
    by_cases ho : out.openOk = true <;> simp only [ho, if_true]
    · refine ⟨(load σ.remote σ.disk out.load).2, ?_, ?_⟩
      · rw [bases_append, h.1]; simp [bases]
      · rw [content_append]
        have := h.2
        simp only [content, List.nil_append] at this
        have hw : writes [Ev.opened (load σ.remote σ.disk out.load).2] = [] := rfl
        simp only [content, this, hw, List.append_nil, List.map_nil, List.flatten_nil]
    · simpa [Content, hfd] using h

theorem content_offload {σ : Res} {c : OffloadConfig} {now accessed : Nat} {o : OffloadOut}
    (h : Content σ.fd σ.disk σ.remote σ.events) (hno : σ.noop = true → σ.remote = none)
    (hs : Safe (.offload c now accessed o)) :
    Content (offload σ c now accessed o).fd (offload σ c now accessed o).disk (offload σ c now accessed o).remote
      (offload σ c now accessed o).events := by
  unfold offload
  split
  · rename_i hc
    simp only [Content, hc.1] at h
    obtain ⟨base, hb, hd⟩ := h
    have hb' : ∀ b, bases (σ.events ++ [.offload b]) = [base] := by
      intro b
      rw [bases_mute _ _ (by trivial), hb]
    have hd' : ∀ b, content base (σ.events ++ [.offload b]) = content base σ.events :=
      fun b => content_mute _ _ _ (by trivial)
    cases o with
    | ok =>
      refine ⟨base, hb' _, ?_⟩
      simp only [Res.add, store, hd']
      intro r hr
      cases hn : σ.noop <;> simp [hn] at hr
      · rw [← hr, hd]
      · rw [hno hn] at hr
        simp at hr
    | storeFails =>
      simp only [Res.add, hc.1, Content]
      exact ⟨base, hb' _, by rw [hd', hd]⟩
    | truncateFails =>
      simp only [Res.add, hc.1, Content]
      exact ⟨base, hb' _, by rw [hd', hd]⟩
    | syncFails => exact hs.elim
  · exact Content.mute h (by trivial)

/-! ## Accounting of the batches -/

/-- The line a task is still to write. -/
def taskLine : Task → Option (Nat × Bytes)
  | .ack id line _ => some (id, line)
  | .op (.dump id line) _ _ => some (id, line)
  | _ => none

/-- Whether a task is that of a plan not yet accounted as done. -/
def isPlan : Task → Bool
  | .ack _ _ _ => true
  | .op (.dump _ _) _ _ => true
  | .finish _ _ => true
  | _ => false

/-- The batches that are still to be written. -/
def toWrite (ts : List Task) : List (Nat × Bytes) := ts.filterMap taskLine

/-- The plans that are not yet accounted as done. -/
def unfinished (ts : List Task) : Nat := ts.countP isPlan

theorem toWrite_cons (t : Task) (ts : List Task) : toWrite (t :: ts) = (taskLine t).toList ++ toWrite ts := by
  unfold toWrite
  cases h : taskLine t <;> simp [h]

theorem unfinished_cons (t : Task) (ts : List Task) :
    unfinished (t :: ts) = (isPlan t).toNat + unfinished ts := by
  unfold unfinished
  cases h : isPlan t <;> simp [h] <;> omega

theorem toWrite_nil : toWrite [] = [] := rfl

theorem unfinished_nil : unfinished [] = 0 := rfl

theorem toWrite_append (a b : List Task) : toWrite (a ++ b) = toWrite a ++ toWrite b := by
  simp [toWrite]

theorem unfinished_append (a b : List Task) : unfinished (a ++ b) = unfinished a + unfinished b := by
  simp [unfinished]

theorem perm_eraseIdx {α : Type} {l : List α} {i : Nat} {t : α} (h : l[i]? = some t) :
    l.Perm (t :: l.eraseIdx i) := by
  induction l generalizing i with
  | nil => simp at h
  | cons x xs ih =>
    cases i with
    | zero => simp at h; subst h; exact .refl _
    | succ i =>
      simp only [List.getElem?_cons_succ] at h
      exact ((ih h).cons x).trans (.swap ..)

theorem toWrite_perm {a b : List Task} (h : a.Perm b) : (toWrite a).Perm (toWrite b) :=
  h.filterMap _

theorem unfinished_perm {a b : List Task} (h : a.Perm b) : unfinished a = unfinished b :=
  h.countP_eq _

theorem unfinished_zero {ts : List Task} (h : unfinished ts = 0) : toWrite ts = [] := by
  simp only [unfinished, List.countP_eq_zero] at h
  simp only [toWrite, List.filterMap_eq_nil_iff]
  intro t ht
  have := h t ht
  cases t with
  | op o e st => cases o <;> simp_all [isPlan, taskLine]
  | _ => simp_all [isPlan, taskLine]

/-- Every planned line is either written or still to be written, once. -/
structure Acc (nextId : Nat) (tasks : List Task) (evs : List Ev) : Prop where
  planned : (planned evs).map (·.1) = List.range nextId
  ids : (written evs ++ (toWrite tasks).map (·.1)).Perm (List.range nextId)
  lines : ∀ p ∈ toWrite tasks, p ∈ Spec.planned evs
  chunks : ∀ w ∈ writes evs, w.2.2 = true → ∃ line, (w.1, line) ∈ Spec.planned evs ∧ w.2.1 = packed line
  acked : ∀ id ∈ Spec.acked evs, id < nextId

theorem acc_of_same {n : Nat} {ts ts' : List Task} {evs : List Ev} {ev : Ev} (h : Acc n ts evs)
    (hw : (toWrite ts').Perm (toWrite ts))
    (hp : Spec.planned [ev] = []) (hwr : writes [ev] = [])
    (ha : ∀ id ∈ Spec.acked [ev], id < n) : Acc n ts' (evs ++ [ev]) where
  planned := by rw [planned_append, hp, List.append_nil, h.planned]
  ids := by
    rw [written_append]
    have : written [ev] = [] := by rw [written, hwr]; rfl
    rw [this, List.append_nil]
    exact ((hw.map _).append_left _).trans h.ids
  lines := by
    intro p hpm
    rw [planned_append, hp, List.append_nil]
    exact h.lines p (hw.mem_iff.mp hpm)
  chunks := by
    intro w hwm hok
    rw [planned_append, hp, List.append_nil]
    rw [writes_append, hwr, List.append_nil] at hwm
    exact h.chunks w hwm hok
  acked := by
    intro id hid
    simp only [Spec.acked, List.filterMap_append, List.mem_append] at hid
    rcases hid with hid | hid
    · exact h.acked id hid
    · exact ha id hid

theorem acc_tasks {n : Nat} {ts ts' : List Task} {evs : List Ev} (h : Acc n ts evs)
    (hw : (toWrite ts').Perm (toWrite ts)) : Acc n ts' evs where
  planned := h.planned
  ids := ((hw.map _).append_left _).trans h.ids
  lines p hp := h.lines p (hw.mem_iff.mp hp)
  chunks := h.chunks
  acked := h.acked

theorem acc_wrote {n : Nat} {ts ts' : List Task} {evs : List Ev} {id : Nat} {line chunk : Bytes}
    {ok : Bool} (h : Acc n ts evs) (hw : (toWrite ts).Perm ((id, line) :: toWrite ts'))
    (hc : ok = true → chunk = packed line) : Acc n ts' (evs ++ [.wrote id chunk ok]) where
  planned := by rw [planned_append]; simp [Spec.planned]; simpa [Spec.planned] using h.planned
  ids := by
    rw [written_append]
    refine List.Perm.trans ?_ h.ids
    simp only [List.append_assoc]
    refine List.Perm.append_left _ ?_
    have := (hw.map (·.1)).symm
    simpa [written, writes] using this
  lines := by
    intro p hp
    rw [planned_append]
    exact List.mem_append_left _ (h.lines p (hw.mem_iff.mpr (List.mem_cons_of_mem _ hp)))
  chunks := by
    intro w hwm hok
    rw [planned_append]
    rw [writes_append, List.mem_append] at hwm
    rcases hwm with hwm | hwm
    · obtain ⟨l, hl, he⟩ := h.chunks w hwm hok
      exact ⟨l, List.mem_append_left _ hl, he⟩
    · have hwm : w = (id, chunk, ok) := by simpa [writes] using hwm
      subst hwm
      exact ⟨line, List.mem_append_left _ (h.lines _ (hw.mem_iff.mpr List.mem_cons_self)), hc hok⟩
  acked := by
    intro i hi
    simp only [Spec.acked, List.filterMap_append, List.mem_append] at hi
    rcases hi with hi | hi
    · exact h.acked i hi
    · simp at hi

theorem acc_plan {n : Nat} {ts ts' : List Task} {evs : List Ev} {line : Bytes} (h : Acc n ts evs)
    (hw : toWrite ts' = toWrite ts ++ [(n, line)]) : Acc (n + 1) ts' (evs ++ [.planned n line]) where
  planned := by
    rw [planned_append, List.map_append, h.planned, List.range_succ]
    simp [Spec.planned]
  ids := by
    rw [written_append, hw, List.range_succ]
    simp only [written, writes, List.filterMap_cons_none, List.filterMap_nil, List.map_nil,
      List.append_nil, List.map_append, List.map_cons]
    rw [← List.append_assoc]
    exact h.ids.append_right _
  lines := by
    intro p hp
    rw [hw, List.mem_append] at hp
    rw [planned_append, List.mem_append]
    rcases hp with hp | hp
    · exact Or.inl (h.lines p hp)
    · exact Or.inr (by simpa [Spec.planned] using hp)
  chunks := by
    intro w hwm hok
    rw [planned_append]
    rw [writes_append, List.mem_append] at hwm
    rcases hwm with hwm | hwm
    · obtain ⟨l, hl, he⟩ := h.chunks w hwm hok
      exact ⟨l, List.mem_append_left _ hl, he⟩
    · simp [writes] at hwm
  acked := by
    intro i hi
    simp only [Spec.acked, List.filterMap_append, List.mem_append] at hi
    rcases hi with hi | hi
    · have := h.acked i hi; omega
    · simp at hi

/-! ## One step -/

/-- What holds of every state. -/
structure Inv (σ : Res) : Prop where
  content : Content σ.fd σ.disk σ.remote σ.events
  acc : Acc σ.nextId σ.tasks σ.events
  processing : σ.processing = unfinished σ.tasks

/-- What is known of an observation when it is made, given the history before it. -/
def Known (evs : List Ev) : Ev → Prop
  | .asked _ => (written evs).Perm ((planned evs).map (·.1))
  | .stream _ bytes => ∃ base, bases evs = [base] ∧ bytes = content base evs
  | .acked id => id ∈ (planned evs).map (·.1)
  | .wrote id chunk ok => ok = true → ∃ line, (id, line) ∈ planned evs ∧ chunk = packed line
  | _ => True

/-- A step adds at most one observation, keeping the invariant. -/
def StepOk (σ τ : Res) : Prop :=
  Inv τ ∧ τ.noop = σ.noop ∧ (τ.events = σ.events ∨ ∃ ev, τ.events = σ.events ++ [ev] ∧ Known σ.events ev)

theorem toWrite_after (o : Op) (e : Bool) : toWrite (after o e) = [] := by
  cases o <;> rfl

theorem known_op {σ τ : Res} {o : Op} {out : Out} {ev : Ev}
    (h : Content σ.fd σ.disk σ.remote σ.events)
    (hl : ∀ id line, o = .dump id line → (id, line) ∈ planned σ.events)
    (hf : fastPath σ o out = some (τ, ev)) : Known σ.events ev := by
  have := fastPath_ev hf
  cases o with
  | dump id line =>
    obtain ⟨_, _, rfl, hc⟩ := this
    exact fun hok => ⟨line, hl id line rfl, hc hok⟩
  | toRemote => obtain ⟨_, rfl⟩ := this; trivial
  | read r =>
    rcases this with ⟨b, rfl⟩ | rfl
    · exact fastPath_stream h hf
    · trivial

theorem inv_done {σ : Res} {o : Op} {e : Bool} {st : Stage} {ts : List Task} {fd : Option Fd}
    {disk : Bytes} {remote : Option Bytes} {ev : Ev}
    (h : Inv { σ with tasks := .op o e st :: ts })
    (hc : Content fd disk remote (σ.events ++ [ev]))
    (hev : EvOf o ev) :
    Inv ({ σ with fd, disk, remote, tasks := ts }.add [ev] (after o e)) := by
  refine ⟨hc, ?_, ?_⟩
  · have ha := h.acc
    simp only [Res.add] at ha ⊢
    cases o with
    | dump id line =>
      obtain ⟨chunk, ok, rfl, hok⟩ := hev
      refine acc_wrote ha ?_ hok
      rw [toWrite_append, toWrite_after, List.append_nil]
      exact .refl _
    | toRemote =>
      obtain ⟨ok, rfl⟩ := hev
      refine acc_of_same ha ?_ rfl rfl (by simp [Spec.acked])
      rw [toWrite_append, toWrite_after, List.append_nil]
      exact .refl _
    | read r =>
      refine acc_of_same ha ?_ ?_ ?_ ?_
      · rw [toWrite_append, toWrite_after, List.append_nil]
        exact .refl _
      all_goals rcases hev with ⟨b, rfl⟩ | rfl <;> simp [Spec.planned, writes, Spec.acked]
  · have hp := h.processing
    simp only [Res.add] at hp ⊢
    rw [unfinished_append]
    cases o <;> simp [after, unfinished_cons, unfinished_nil, isPlan, Bool.toNat_true, Bool.toNat_false] at hp ⊢ <;> omega

theorem known_failed (evs : List Ev) (o : Op) : Known evs (failed o) := by
  cases o <;> simp [Known, failed]

theorem stepTask_ok {σ : Res} {t : Task} {ts : List Task} (out : Out)
    (h : Inv { σ with tasks := t :: ts }) :
    StepOk σ (stepTask { σ with tasks := ts } out t) := by
  cases t with
  | ack id line e =>
    simp only [stepTask]
    have hid : id < σ.nextId := by
      have := h.acc.ids.mem_iff (a := id)
      have h2 : id ∈ List.range σ.nextId := this.mp (by simp [toWrite_cons, toWrite_nil, taskLine, Option.toList_some, Option.toList_none, List.append_nil, List.nil_append])
      simpa using h2
    have hpl : id ∈ (planned σ.events).map (·.1) :=
      List.mem_map.mpr ⟨(id, line), h.acc.lines _ (by simp [toWrite, taskLine]), rfl⟩
    cases out.io with
    | ok =>
      refine ⟨⟨h.content.mute (by trivial), ?_, ?_⟩, rfl, Or.inr ⟨_, rfl, hpl⟩⟩
      · refine acc_of_same h.acc ?_ rfl rfl (by simpa [Spec.acked, Res.add] using hid)
        simp only [Res.add, toWrite_append, toWrite_cons, toWrite_nil, taskLine, Option.toList_some, Option.toList_none, List.append_nil, List.nil_append]
        exact List.perm_append_comm
      · have := h.processing
        simp only [Res.add, unfinished_append, unfinished_cons, unfinished_nil, isPlan, Bool.toNat_true, Bool.toNat_false] at this ⊢
        omega
    | cut k =>
      refine ⟨⟨by simpa [Res.add] using h.content, ?_, ?_⟩, rfl, Or.inl (by simp [Res.add])⟩
      · simp only [Res.add, List.append_nil]
        refine acc_tasks h.acc ?_
        simp only [Res.add, toWrite_append, toWrite_cons, toWrite_nil, taskLine, Option.toList_some, Option.toList_none, List.append_nil, List.nil_append]
        exact List.perm_append_comm
      · have := h.processing
        simp only [Res.add, unfinished_append, unfinished_cons, unfinished_nil, isPlan, Bool.toNat_true, Bool.toNat_false] at this ⊢
        omega
  | finish id e =>
    simp only [stepTask]
    have htw : ∀ c : Prop, [Decidable c] →
        toWrite (if c then [Task.op .toRemote false .fast] else []) = [] := by
      intro c _
      split <;> rfl
    have hun : ∀ c : Prop, [Decidable c] →
        unfinished (if c then [Task.op .toRemote false .fast] else []) = 0 := by
      intro c _
      split <;> rfl
    refine ⟨⟨h.content.mute (by trivial), ?_, ?_⟩, rfl, Or.inr ⟨_, rfl, trivial⟩⟩
    · refine acc_of_same h.acc ?_ rfl rfl (by simp [Spec.acked])
      simp only [Res.add, toWrite_append, htw, List.append_nil, toWrite_cons, toWrite_nil, taskLine, Option.toList_some, Option.toList_none, List.append_nil, List.nil_append]
      exact .refl _
    · have := h.processing
      simp only [Res.add, unfinished_append, hun, unfinished_cons, unfinished_nil, isPlan, Bool.toNat_true, Bool.toNat_false] at this ⊢
      omega
  | op o e st =>
    have hcont : Content σ.fd σ.disk σ.remote σ.events := h.content
    have hlines : ∀ id line, o = .dump id line → (id, line) ∈ planned σ.events := by
      rintro id line rfl
      exact h.acc.lines _ (by simp [toWrite, taskLine])
    have hmove : ∀ st', Inv ({ σ with tasks := ts }.add [] [.op o e st']) := by
      intro st'
      refine ⟨by simpa [Res.add] using hcont, ?_, ?_⟩
      · simp only [Res.add, List.append_nil]
        refine acc_tasks h.acc ?_
        rw [toWrite_append, toWrite_cons]
        have : taskLine (Task.op o e st') = taskLine (Task.op o e st) := by cases o <;> rfl
        rw [toWrite_cons, this, toWrite_nil, List.append_nil]
        exact List.perm_append_comm
      · have := h.processing
        simp only [Res.add] at this ⊢
        rw [unfinished_append]
        rw [unfinished_cons] at this
        have h2 : unfinished [Task.op o e st'] = (isPlan (Task.op o e st)).toNat := by cases o <;> rfl
        omega
    have hfp : ∀ τ ev, fastPath { σ with tasks := ts } o out = some (τ, ev) →
        StepOk σ (τ.add [ev] (after o e)) := by
      intro τ ev hf
      have hc := content_fastPath (σ := { σ with tasks := ts }) hcont hf
      obtain ⟨hc1, hevs, htasks, hproc, hnid, hnr, hnoop⟩ := hc
      have hτ : τ = { σ with fd := τ.fd, disk := τ.disk, remote := τ.remote, tasks := ts } := by
        cases τ; simp_all
      rw [hevs] at hc1
      have := inv_done (σ := σ) (fd := τ.fd) (disk := τ.disk) (remote := τ.remote) h hc1
        (fastPath_ev hf)
      rw [hτ]
      exact ⟨this, rfl, Or.inr ⟨ev, rfl, known_op (σ := { σ with tasks := ts }) hcont hlines hf⟩⟩
    cases st with
    | fast =>
      simp only [stepTask]
      cases hf : fastPath { σ with tasks := ts } o out with
      | none => exact ⟨hmove .slow, rfl, Or.inl (by simp [Res.add])⟩
      | some x => exact hfp _ _ hf
    | second =>
      simp only [stepTask]
      cases hf : fastPath { σ with tasks := ts } o out with
      | none =>
        exact ⟨inv_done h (hcont.failed o) (failed_ev o), rfl,
          Or.inr ⟨_, rfl, known_failed _ o⟩⟩
      | some x => exact hfp _ _ hf
    | slow =>
      simp only [stepTask]
      have hcs := content_slowPath (σ := { σ with tasks := ts }) (out := out) hcont
      unfold slowPath at hcs ⊢
      cases hfd : σ.fd with
      | some fd =>
        simp only [if_true]
        exact ⟨hfd ▸ hmove .second, rfl, Or.inl (by simp [Res.add])⟩
      | none =>
        by_cases ho : out.openOk = true
        · simp only [hfd, ho, if_true] at hcs ⊢
          refine ⟨⟨by simpa [Res.add] using hcs, ?_, ?_⟩, rfl, Or.inr ⟨.opened (load σ.remote σ.disk out.load).2, by simp [Res.add], trivial⟩⟩
          · have := (hmove .second).acc
            simp only [Res.add, List.append_nil] at this ⊢
            exact acc_of_same this (.refl _) rfl rfl (by simp [Spec.acked])
          · simpa [Res.add] using (hmove .second).processing
        · simp only [hfd, ho] at hcs ⊢
          exact ⟨inv_done h (Content.failed hcs o) (failed_ev o), rfl, Or.inr ⟨_, rfl, known_failed _ o⟩⟩

/-- The remote copy: there is none under the `NoopPersister`, and one of every offloaded file
otherwise. -/
structure Rem (σ : Res) : Prop where
  noop : σ.noop = true → σ.remote = none
  offloaded : σ.noop = false → σ.fd = some .offloaded → σ.remote ≠ none

theorem runOp_remote (noop : Bool) (disk : Bytes) (remote : Option Bytes) (io : IoOut) (o : Op) :
    (runOp noop disk remote io o).2.1 = remote ∨
      (runOp noop disk remote io o).2.1 = store noop remote disk := by
  cases o <;> cases io <;> first | exact .inl rfl | exact .inr rfl | skip
  simp only [runOp]
  split
  · exact .inl rfl
  · exact .inr rfl

theorem store_noop {noop : Bool} {remote : Option Bytes} (disk : Bytes)
    (h : noop = true → remote = none) (hn : noop = true) : store noop remote disk = none := by
  simp [store, hn, h hn]

theorem rem_fastPath {σ τ : Res} {o : Op} {out : Out} {ev : Ev} (h : Rem σ)
    (hf : fastPath σ o out = some (τ, ev)) : Rem τ := by
  have key : ∀ disk, σ.noop = true → (runOp σ.noop disk σ.remote out.io o).2.1 = none := by
    intro disk hn
    rcases runOp_remote σ.noop disk σ.remote out.io o with h' | h' <;> rw [h']
    · exact h.noop hn
    · exact store_noop disk h.noop hn
  unfold fastPath at hf
  split at hf
  · simp at hf
  · rename_i hfd
    simp only [Option.some.injEq, Prod.mk.injEq] at hf
    obtain ⟨rfl, -⟩ := hf
    exact ⟨fun hn => key _ hn, fun _ h' => by simp [hfd] at h'⟩
  · dsimp only at hf
    split at hf <;> simp only [Option.some.injEq, Prod.mk.injEq] at hf <;> obtain ⟨rfl, -⟩ := hf
    · exact ⟨fun hn => key _ hn, fun _ h' => by simp at h'⟩
    · exact ⟨h.noop, h.offloaded⟩

theorem rem_slowPath {σ : Res} {out : Out} (h : Rem σ) : Rem (slowPath σ out).1 := by
  unfold slowPath
  split
  · exact h
  · split
    · exact ⟨h.noop, fun _ h' => by simp at h'⟩
    · exact ⟨h.noop, h.offloaded⟩

theorem rem_add {σ : Res} (h : Rem σ) (evs : List Ev) (ts : List Task) : Rem (σ.add evs ts) :=
  ⟨h.noop, h.offloaded⟩

theorem rem_step {σ : Res} (h : Rem σ) (a : Act) : Rem (step σ a) := by
  cases a with
  | results line e => exact ⟨h.noop, h.offloaded⟩
  | summary line e => exact ⟨h.noop, h.offloaded⟩
  | request =>
    simp only [step]
    split <;> exact ⟨h.noop, h.offloaded⟩
  | resume i out =>
    simp only [step]
    cases ht : σ.tasks[i]? with
    | none => exact h
    | some t =>
      have h' : Rem { σ with tasks := σ.tasks.eraseIdx i } := ⟨h.noop, h.offloaded⟩
      simp only
      generalize { σ with tasks := σ.tasks.eraseIdx i } = σ' at h'
      cases t with
      | ack id line e => simp only [stepTask]; split <;> exact rem_add h' _ _
      | finish id e => exact ⟨h'.noop, h'.offloaded⟩
      | op o e st =>
        cases st <;> simp only [stepTask]
        case slow => split <;> exact rem_add (rem_slowPath h') _ _
        all_goals
          split
          · rename_i hf
            exact rem_add (rem_fastPath h' hf) _ _
          · exact rem_add h' _ _
  | offload c now accessed o =>
    simp only [step, offload]
    split
    · have hs := store_noop σ.disk h.noop
      rename_i hc
      cases o
      case ok =>
        refine ⟨hs, fun hn _ => ?_⟩
        simp only [Res.add] at hn ⊢
        simp [store, hn]
      all_goals exact ⟨by first | exact hs | exact h.noop, fun _ h' => by simp [Res.add, hc.1] at h'⟩
    · exact ⟨h.noop, h.offloaded⟩

theorem rem_init (noop : Bool) (disk : Bytes) (remote : Option Bytes) :
    Rem (init noop disk remote) :=
  ⟨fun h => by simp only [init] at h ⊢; simp [h], fun _ h => by simp [init] at h⟩

theorem rem_foldl {σ : Res} (h : Rem σ) (acts : List Act) : Rem (run σ acts) := by
  induction acts generalizing σ with
  | nil => exact h
  | cons a acts ih => exact ih (rem_step h a)

theorem rem_run (noop : Bool) (disk : Bytes) (remote : Option Bytes) (acts : List Act) :
    Rem (run (init noop disk remote) acts) := rem_foldl (rem_init ..) acts

theorem step_ok {σ : Res} (h : Inv σ) (hrem : Rem σ) (a : Act) (hs : Safe a) : StepOk σ (step σ a) := by
  cases a with
  | results line e =>
    refine ⟨⟨h.content.mute (by trivial), ?_, ?_⟩, rfl, Or.inr ⟨_, rfl, trivial⟩⟩
    · exact acc_plan h.acc (by simp [step, Res.add, toWrite_append, toWrite_cons, toWrite_nil, taskLine, Option.toList_some, Option.toList_none, List.append_nil, List.nil_append])
    · simp [step, Res.add, unfinished_append, unfinished_cons, unfinished_nil, isPlan, Bool.toNat_true, Bool.toNat_false, h.processing]
  | summary line e =>
    refine ⟨⟨h.content.mute (by trivial), ?_, ?_⟩, rfl, Or.inr ⟨_, rfl, trivial⟩⟩
    · exact acc_plan h.acc (by simp [step, Res.add, toWrite_append, toWrite_cons, toWrite_nil, taskLine, Option.toList_some, Option.toList_none, List.append_nil, List.nil_append])
    · simp [step, Res.add, unfinished_append, unfinished_cons, unfinished_nil, isPlan, Bool.toNat_true, Bool.toNat_false, h.processing]
  | request =>
    simp only [step]
    by_cases hp : σ.processing = 0 <;> simp only [hp, if_true, if_false]
    · refine ⟨⟨h.content.mute (by trivial), ?_, ?_⟩, rfl, Or.inr ⟨_, rfl, ?_⟩⟩
      · exact acc_of_same h.acc (by simp [Res.add, toWrite_append, toWrite_cons, toWrite_nil, taskLine, Option.toList_some, Option.toList_none, List.append_nil, List.nil_append]) rfl rfl
          (by simp [Spec.acked])
      · simp [Res.add, unfinished_append, unfinished_cons, unfinished_nil, isPlan, Bool.toNat_true, Bool.toNat_false, ← h.processing, hp]
      · have := h.acc.ids
        rw [unfinished_zero (h.processing ▸ hp)] at this
        simp only [List.map_nil, List.append_nil] at this
        simp only [Known, h.acc.planned]
        exact this
    · refine ⟨⟨h.content.mute (by trivial), ?_, ?_⟩, rfl, Or.inr ⟨_, rfl, trivial⟩⟩
      · exact acc_of_same h.acc (by simp [Res.add]) rfl rfl (by simp [Spec.acked])
      · simp [Res.add, h.processing]
  | resume i out =>
    simp only [step]
    cases ht : σ.tasks[i]? with
    | none => exact ⟨h, rfl, Or.inl rfl⟩
    | some t =>
      have hperm := perm_eraseIdx ht
      refine stepTask_ok (σ := σ) out ⟨h.content, ?_, ?_⟩
      · exact acc_tasks h.acc (toWrite_perm hperm.symm)
      · simp [h.processing, unfinished_perm hperm]
  | offload c now accessed o =>
    have hc := content_offload h.content hrem.noop hs
    have hev : ∃ b, (offload σ c now accessed o).events = σ.events ++ [.offload b] ∧
        (offload σ c now accessed o).tasks = σ.tasks ∧ (offload σ c now accessed o).nextId = σ.nextId ∧
        (offload σ c now accessed o).processing = σ.processing ∧ (offload σ c now accessed o).noop = σ.noop := by
      unfold offload
      split
      · cases o <;> simp [Res.add]
      · simp [Res.add]
    obtain ⟨b, he, ht, hn, hp, hno⟩ := hev
    refine ⟨⟨hc, ?_, ?_⟩, hno, Or.inr ⟨_, he, trivial⟩⟩
    · simp only [step]
      rw [he, ht, hn]
      exact acc_of_same h.acc (.refl _) rfl rfl (by simp [Spec.acked])
    · simp only [step]
      rw [ht, hp]
      exact h.processing

theorem inv_init (noop : Bool) (disk : Bytes) (remote : Option Bytes) :
    Inv (init noop disk remote) where
  content := by simp [init, Content, bases, content, writes]
  acc :=
    { planned := by simp [init, planned]
      ids := by simp [init, written, writes, toWrite_cons, toWrite_nil, taskLine, Option.toList_some, Option.toList_none, List.append_nil, List.nil_append]
      lines := by simp [init, toWrite_cons, toWrite_nil, taskLine, Option.toList_some, Option.toList_none, List.append_nil, List.nil_append]
      chunks := by simp [init, writes]
      acked := by simp [init, acked] }
  processing := rfl

/-- Everything known of every state and every observation of a safe schedule. -/
theorem run_ok (noop : Bool) (disk : Bytes) (remote : Option Bytes) (acts : List Act)
    (hs : ∀ a ∈ acts, Safe a) :
    Inv (run (init noop disk remote) acts) ∧ (run (init noop disk remote) acts).noop = noop ∧
      ∀ pre ev post, (run (init noop disk remote) acts).events = pre ++ ev :: post → Known pre ev := by
  induction hn : acts.length generalizing acts with
  | zero =>
    obtain rfl := List.length_eq_zero_iff.mp hn
    exact ⟨inv_init _ _ _, rfl, by simp [run, init]⟩
  | succ n ih =>
    rcases List.eq_nil_or_concat acts with rfl | ⟨acts, a, rfl⟩
    · simp at hn
    replace ih := fun hs => ih acts hs (by simpa using hn)
    clear hn
    simp only [List.concat_eq_append] at hs ⊢
    obtain ⟨hi, hn, hk⟩ := ih (fun b hb => hs b (by simp [hb]))
    have hstep := step_ok hi (rem_run ..) a (hs a (by simp))
    rw [run, List.foldl_append, List.foldl_cons, List.foldl_nil, ← run]
    obtain ⟨h1, h2, h3⟩ := hstep
    refine ⟨h1, h2.trans hn, ?_⟩
    intro pre ev post heq
    rcases h3 with h3 | ⟨ev', h3, hkn⟩
    · exact hk pre ev post (by rw [← h3, heq])
    · rw [h3] at heq
      rcases List.eq_nil_or_concat post with rfl | ⟨post', x, rfl⟩
      · obtain ⟨rfl, h⟩ := List.append_inj' (t₁ := [ev']) (t₂ := [ev]) heq rfl
        simp only [List.cons.injEq, and_true] at h
        exact h ▸ hkn
      · refine hk pre ev post' ?_
        have h4 : (run (init noop disk remote) acts).events ++ [ev'] = (pre ++ ev :: post') ++ [x] := by
          simpa using heq
        exact (List.append_inj' h4 rfl).1

/-- A batch is planned before it is acknowledged. -/
theorem ack_planned (noop : Bool) (disk : Bytes) (remote : Option Bytes) (acts : List Act)
    (hs : ∀ a ∈ acts, Safe a) {a b : List Ev}
    (h : (run (init noop disk remote) acts).events = a ++ b) {id : Nat} (hid : id ∈ acked a) :
    id ∈ (planned a).map (·.1) := by
  simp only [acked, List.mem_filterMap] at hid
  obtain ⟨ev, hev, he⟩ := hid
  have hev : Ev.acked id ∈ a := by
    cases ev <;> simp at he
    exact he ▸ hev
  obtain ⟨a1, a2, rfl⟩ := List.append_of_mem hev
  have := (run_ok noop disk remote acts hs).2.2 a1 (.acked id) (a2 ++ b) (by simpa using h)
  rw [planned_append, List.map_append]
  exact List.mem_append_left _ this

/-- A successful write puts the line of its plan in the file. -/
theorem write_planned (noop : Bool) (disk : Bytes) (remote : Option Bytes) (acts : List Act)
    (hs : ∀ a ∈ acts, Safe a) {a b : List Ev}
    (h : (run (init noop disk remote) acts).events = a ++ b) {w : Nat × Bytes × Bool}
    (hw : w ∈ writes a) (hok : w.2.2 = true) :
    ∃ line, (w.1, line) ∈ planned a ∧ w.2.1 = packed line := by
  simp only [writes, List.mem_filterMap] at hw
  obtain ⟨ev, hev, he⟩ := hw
  have hev : Ev.wrote w.1 w.2.1 w.2.2 ∈ a := by
    cases ev <;> simp at he
    exact he ▸ hev
  obtain ⟨a1, a2, rfl⟩ := List.append_of_mem hev
  obtain ⟨line, hl, hc⟩ := (run_ok noop disk remote acts hs).2.2 a1 (.wrote w.1 w.2.1 w.2.2) (a2 ++ b)
    (by simpa using h) hok
  exact ⟨line, by rw [planned_append]; exact List.mem_append_left _ hl, hc⟩

end Abq.Results
