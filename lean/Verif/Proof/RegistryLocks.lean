import Verif.Spec.RegistryLocks

namespace Abq.RegistryLocksProof
open Abq.RegistryLocks Abq.Spec.RegistryLocks
open Abq.RegistryLocks.Op Abq.RegistryLocks.Lock Abq.RegistryLocks.Mode

/-- The order in which locks are taken. -/
def level : Lock → Nat
  | .runs => 0
  | .run _ => 1
  | _ => 2

theorem level_le (l : Lock) : level l ≤ 2 := by cases l <;> simp [level]

/-- Locks are taken upwards, given back, and none is kept over a wait for the storage. -/
def Ok : List (Lock × Mode) → List Op → Prop
  | held, [] => held = []
  | held, .acquire l m :: rest => (∀ h ∈ held, level h.1 < level l) ∧ Ok ((l, m) :: held) rest
  | held, .release l :: rest => (∃ m, (l, m) ∈ held) ∧ Ok (held.filter fun h => h.1 ≠ l) rest
  | held, .storage :: rest => held = [] ∧ Ok held rest

theorem Ok.append {held : List (Lock × Mode)} {a b : List Op} (ha : Ok held a) (hb : Ok [] b) : Ok held (a ++ b) := by
  induction a generalizing held with
  | nil => cases ha; exact hb
  | cons op a ih =>
    cases op with
    | acquire l m => exact ⟨ha.1, ih ha.2⟩
    | release l => exact ⟨ha.1, ih ha.2⟩
    | storage => exact ⟨ha.1, ih ha.2⟩

/-- A body that leaves the locks as they are. -/
def Neutral (held : List (Lock × Mode)) (body : List Op) : Prop := ∀ rest, Ok held rest → Ok held (body ++ rest)

theorem neutral_nil (held : List (Lock × Mode)) : Neutral held [] := fun _ h => h

theorem Neutral.append {held : List (Lock × Mode)} {a b : List Op} (ha : Neutral held a) (hb : Neutral held b) :
    Neutral held (a ++ b) := by
  intro rest h
  rw [List.append_assoc]
  exact ha _ (hb _ h)

theorem neutral_guarded {held : List (Lock × Mode)} {l : Lock} {m : Mode} {body : List Op}
    (hl : ∀ h ∈ held, level h.1 < level l) (hb : Neutral ((l, m) :: held) body) : Neutral held (guarded l m body) := by
  intro rest h
  unfold guarded
  rw [List.append_assoc, List.cons_append]
  refine ⟨hl, ?_⟩
  refine hb _ ⟨⟨m, List.mem_cons_self⟩, ?_⟩
  have : (((l, m) :: held).filter fun h => h.1 ≠ l) = held := by
    rw [List.filter_cons, if_neg (by simp)]
    rw [List.filter_eq_self]
    intro a ha
    have := hl a ha
    simp only [ne_eq, decide_not, Bool.not_eq_eq_eq_not, Bool.not_true, decide_eq_false_iff_not]
    intro e
    rw [e] at this
    omega
  rw [this]
  exact h

theorem neutral_withRun {rid : RunId} {m : Mode} {found : Option Kind} {body : Kind → List Op}
    (hb : ∀ k, Neutral [(run rid, m), (runs, read)] (body k)) : Neutral [] (withRun rid m found body) := by
  unfold withRun
  refine neutral_guarded (by simp) ?_
  cases found with
  | none => exact neutral_nil _
  | some k => exact neutral_guarded (by simp [level]) (hb k)

theorem inner {rid : RunId} {m m' : Mode} {l : Lock} (hl : level l = 2) : Neutral [(run rid, m), (runs, read)] (guarded l m' []) :=
  neutral_guarded (by
    intro h hh
    simp only [List.mem_cons, List.not_mem_nil, or_false] at hh
    rcases hh with rfl | rfl <;> rw [hl] <;> simp [level]) (neutral_nil _)

theorem neutral_join (rid : RunId) (found : Option Kind) : Neutral [] (joinRun rid found) := by
  refine neutral_withRun fun k => ?_
  cases k
  · exact inner rfl
  · exact inner rfl
  · exact inner rfl
  · exact neutral_nil _

theorem neutral_runs (m : Mode) : Neutral [] (guarded runs m []) := neutral_guarded (by simp) (neutral_nil _)

theorem neutral_script (c : Call) (e : Eyes) : Neutral [] (script c e) := by
  cases c with
  | findOrCreate rid =>
    refine (neutral_runs _).append ?_
    split
    · exact neutral_join _ _
    · intro rest h
      refine ⟨rfl, ?_⟩
      revert rest
      show Neutral [] _
      split
      · exact neutral_nil _
      · exact (neutral_runs _).append (neutral_join _ _)
      · refine (neutral_runs _).append ?_
        split
        · exact neutral_nil _
        · exact neutral_join _ _
  | addManifest rid => exact neutral_withRun fun k => neutral_nil _
  | initMetadata rid =>
    refine neutral_withRun fun k => ?_
    cases k
    · exact neutral_nil _
    · exact neutral_nil _
    · refine (inner rfl).append ?_
      split
      · exact inner rfl
      · exact neutral_nil _
    · exact neutral_nil _
  | nextWork rid =>
    refine Neutral.append (neutral_withRun fun k => ?_) ?_
    · cases k
      · exact neutral_nil _
      · exact inner rfl
      · exact inner rfl
      · exact neutral_nil _
    · split
      · split
        · exact neutral_withRun fun k => neutral_nil _
        · exact neutral_nil _
      · exact neutral_nil _
  | writeCell rid => exact neutral_withRun fun k => neutral_nil _
  | readCell rid =>
    refine neutral_withRun fun k => ?_
    cases k
    · exact neutral_nil _
    · exact inner rfl
    · exact inner rfl
    · exact neutral_nil _
  | retryManifest rid =>
    refine neutral_withRun fun k => ?_
    cases k
    · exact neutral_nil _
    · exact inner rfl
    · show Neutral _ (if e.persisted = true then _ else _)
      split
      · exact inner rfl
      · exact neutral_nil _
    · exact neutral_nil _
  | workerComplete rid =>
    refine neutral_withRun fun k => ?_
    cases k
    · exact neutral_nil _
    · exact inner rfl
    · exact inner rfl
    · exact neutral_nil _
  | manifestFailed rid => exact neutral_withRun fun k => neutral_nil _
  | manifestEmpty rid => exact neutral_withRun fun k => neutral_nil _
  | cancel rid =>
    refine neutral_withRun fun k => ?_
    cases k
    · exact neutral_nil _
    · exact neutral_nil _
    · exact inner rfl
    · exact neutral_nil _
  | status rid =>
    refine neutral_withRun fun k => ?_
    cases k
    · exact neutral_nil _
    · exact neutral_nil _
    · exact inner rfl
    · exact neutral_nil _
  | progressTimeout rid =>
    refine neutral_guarded (by simp) ?_
    split
    · exact neutral_nil _
    · refine Neutral.append (neutral_guarded (by simp [level]) (neutral_nil _)) ?_
      split
      · exact neutral_guarded (by simp [level]) (neutral_nil _)
      · exact neutral_nil _
  | numActive => exact neutral_nil _

theorem ok_script (c : Call) (e : Eyes) : Ok [] (script c e) := by
  have := neutral_script c e [] rfl
  rwa [List.append_nil] at this

theorem length_guarded (l : Lock) (m : Mode) (b : List Op) : (guarded l m b).length = b.length + 2 := by
  simp [guarded]

theorem length_withRun (rid : RunId) (m : Mode) (found : Option Kind) (body : Kind → List Op) (n : Nat)
    (h : ∀ k, (body k).length ≤ n) : (withRun rid m found body).length ≤ n + 4 := by
  unfold withRun
  rw [length_guarded]
  cases found with
  | none => simp
  | some k => simp only [length_guarded]; have := h k; omega

theorem length_join (rid : RunId) (found : Option Kind) : (joinRun rid found).length ≤ 6 := by
  refine length_withRun _ _ _ _ 2 fun k => ?_
  cases k <;> simp [guarded]

theorem length_script (c : Call) (e : Eyes) : (script c e).length ≤ 11 := by
  have w : ∀ (rid m) (body : Kind → List Op), (∀ k, (body k).length ≤ 4) → (withRun rid m (e.look 0) body).length ≤ 11 := by
    intro rid m body h
    have := length_withRun rid m (e.look 0) body 4 h
    omega
  cases c with
  | findOrCreate rid =>
    have := length_join rid
    show (findOrCreate rid e).length ≤ 11
    unfold findOrCreate
    rw [List.length_append, length_guarded]
    split
    · have := this (e.look 1); simp only [List.length_nil]; omega
    · rw [List.length_cons]
      split
      · simp
      · rw [List.length_append, length_guarded]; have := this (e.look 1); simp only [List.length_nil]; omega
      · rw [List.length_append, length_guarded]
        split
        · simp
        · have := this (e.look 2); simp only [List.length_nil]; omega
  | addManifest rid => exact w _ _ _ fun k => by simp
  | initMetadata rid => exact w _ _ _ fun k => by cases k <;> simp [guarded]; split <;> simp
  | nextWork rid =>
    show (nextWork rid e).length ≤ 11
    unfold nextWork
    rw [List.length_append]
    have key : ∀ a b : Nat, a ≤ 6 → b ≤ 4 → a + b ≤ 11 := by omega
    refine key _ _ (length_withRun _ _ _ _ 2 fun k => by cases k <;> simp [guarded]) ?_
    split
    · split
      · exact length_withRun _ _ _ _ 0 fun k => by simp
      · simp
    · simp
  | writeCell rid => exact w _ _ _ fun k => by simp
  | readCell rid => exact w _ _ _ fun k => by cases k <;> simp [guarded]
  | retryManifest rid => exact w _ _ _ fun k => by cases k <;> simp [guarded]; split <;> simp
  | workerComplete rid => exact w _ _ _ fun k => by cases k <;> simp [guarded]
  | manifestFailed rid => exact w _ _ _ fun k => by simp
  | manifestEmpty rid => exact w _ _ _ fun k => by simp
  | cancel rid => exact w _ _ _ fun k => by cases k <;> simp [guarded]
  | status rid => exact w _ _ _ fun k => by cases k <;> simp [guarded]
  | progressTimeout rid =>
    show (progressTimeout rid e).length ≤ 11
    unfold progressTimeout
    rw [length_guarded]
    split
    · simp
    · rw [List.length_append, length_guarded]; split <;> simp [guarded]
  | numActive => simp [script]

/-! ## Turns -/

theorem free_read (ts : List Thread) (b : Bool) (l : Lock) : free ts b l .read = true ↔
    (∀ u ∈ ts, (l, Mode.write) ∉ u.held) ∧ (b = true ∨ ∀ u ∈ ts, ¬ InLine u l) := by
  have h1 : heldBy ts l (· == .write) = false ↔ ∀ u ∈ ts, (l, Mode.write) ∉ u.held := by
    unfold heldBy
    rw [List.any_eq_false]
    constructor
    · intro h u hu hm
      refine h u hu ?_
      rw [List.any_eq_true]
      exact ⟨_, hm, by simp⟩
    · intro h u hu hm
      rw [List.any_eq_true] at hm
      obtain ⟨⟨l', m'⟩, h1, h2⟩ := hm
      simp only [Bool.and_eq_true, beq_iff_eq] at h2
      obtain ⟨rfl, rfl⟩ := h2
      exact h u hu h1
  have h2 : writerQueued ts l = false ↔ ∀ u ∈ ts, ¬ InLine u l := by
    unfold writerQueued InLine
    rw [List.any_eq_false]
    constructor
    · rintro h u hu ⟨hq, rest, ht⟩
      refine h u hu ?_
      rw [hq, ht]; simp
    · intro h u hu hm
      simp only [Bool.and_eq_true, beq_iff_eq] at hm
      refine h u hu ⟨hm.1, ?_⟩
      cases ht : u.todo with
      | nil => rw [ht] at hm; simp at hm
      | cons a rest =>
        rw [ht] at hm
        simp only [List.head?_cons, Option.some.injEq] at hm
        exact ⟨rest, by rw [hm.2]⟩
  unfold free
  rw [Bool.and_eq_true, Bool.not_eq_true', h1, Bool.or_eq_true, Bool.not_eq_true', h2]

theorem free_write (ts : List Thread) (b : Bool) (l : Lock) : free ts b l .write = true ↔ ∀ u ∈ ts, ¬ Has u l := by
  unfold free heldBy Has
  rw [Bool.not_eq_true', List.any_eq_false]
  constructor
  · rintro h u hu (hm | hm)
    all_goals
      refine h u hu ?_
      rw [List.any_eq_true]
      exact ⟨_, hm, by simp⟩
  · intro h u hu hm
    rw [List.any_eq_true] at hm
    obtain ⟨⟨l', m'⟩, h1, h2⟩ := hm
    simp only [Bool.and_eq_true, beq_iff_eq] at h2
    obtain ⟨rfl, -⟩ := h2
    cases m' with
    | read => exact h u hu (.inl h1)
    | write => exact h u hu (.inr h1)

/-- Nobody has a lock that another one writes. -/
def Excl (ts : List Thread) : Prop :=
  ∀ (i j : Nat) (t u : Thread), ts[i]? = some t → ts[j]? = some u → i ≠ j → ∀ l, (l, Mode.write) ∈ t.held → ¬ Has u l

structure Inv (ts : List Thread) : Prop where
  ok : ∀ t ∈ ts, Ok t.held t.todo
  line : ∀ t ∈ ts, t.queued = true → ∃ l rest, t.todo = .acquire l .write :: rest
  excl : Excl ts

theorem next_ok {ts : List Thread} {b a : Bool} {t : Thread} (h : Ok t.held t.todo) :
    Ok (t.next ts b a).held (t.next ts b a).todo := by
  unfold Thread.next
  split
  · exact h
  · next l m rest e =>
    rw [e] at h
    split
    · exact h.2
    · split
      · show Ok t.held t.todo; rw [e]; exact h
      · rw [e]; exact h
  · next l rest e => rw [e] at h; exact h.2
  · next rest e =>
    split
    · rw [e] at h; exact h.2
    · exact h

theorem next_line {ts : List Thread} {b a : Bool} {t : Thread} (h : t.queued = true → ∃ l rest, t.todo = .acquire l .write :: rest)
    (hq : (t.next ts b a).queued = true) : ∃ l rest, (t.next ts b a).todo = .acquire l .write :: rest := by
  unfold Thread.next at hq ⊢
  split at hq
  · next e => simp only [e] at hq ⊢; rw [e] at h; obtain ⟨_, _, h⟩ := h hq; cases h
  · next l m rest e =>
    simp only [e] at hq ⊢
    split at hq
    · cases hq
    · next hf =>
      rw [if_neg hf]
      split at hq
      · next hm => subst hm; rw [if_pos rfl]; exact ⟨l, rest, rfl⟩
      · next hm => rw [if_neg hm]; exact h hq
  · cases hq
  · next rest e =>
    split at hq
    · obtain ⟨_, _, h⟩ := h hq; rw [e] at h; cases h
    · obtain ⟨_, _, h⟩ := h hq; rw [e] at h; cases h

/-- What a thread has after its turn that it had not before. -/
theorem next_held {ts : List Thread} {b a : Bool} {t : Thread} {l : Lock} {m : Mode} (h : (l, m) ∈ (t.next ts b a).held) :
    (l, m) ∈ t.held ∨ free ts b l m = true := by
  unfold Thread.next at h
  split at h
  · exact .inl h
  · split at h
    · next hf =>
      rcases List.mem_cons.1 h with e | h
      · cases e; exact .inr hf
      · exact .inl h
    · split at h
      · exact .inl h
      · exact .inl h
  · exact .inl (List.mem_filter.1 h).1
  · split at h <;> exact .inl h

theorem turn_length (an : Nat → Bool) (ts : List Thread) (c : Nat × Bool) : (turn an ts c).length = ts.length := by
  unfold turn; split <;> simp

theorem turn_get (an : Nat → Bool) (ts : List Thread) (c : Nat × Bool) (i : Nat) (t : Thread) (h : (turn an ts c)[i]? = some t) :
    ∃ u, ts[i]? = some u ∧ (t = u ∨ (i = c.1 ∧ t = u.next ts c.2 (an c.1))) := by
  unfold turn at h
  split at h
  · exact ⟨t, h, .inl rfl⟩
  · next u hu =>
    rw [List.getElem?_set] at h
    split at h
    · next e =>
      subst e
      split at h
      · cases h; exact ⟨u, hu, .inr ⟨rfl, rfl⟩⟩
      · cases h
    · exact ⟨t, h, .inl rfl⟩

theorem Inv.turn {ts : List Thread} (h : Inv ts) (an : Nat → Bool) (c : Nat × Bool) : Inv (turn an ts c) := by
  have mem : ∀ t ∈ RegistryLocks.turn an ts c, t ∈ ts ∨ ∃ u ∈ ts, t = u.next ts c.2 (an c.1) := by
    intro t ht
    obtain ⟨i, hi⟩ := List.mem_iff_getElem?.1 ht
    obtain ⟨u, hu, e | ⟨-, e⟩⟩ := turn_get an ts c i t hi
    · subst e; exact .inl (List.mem_of_getElem? hu)
    · exact .inr ⟨u, List.mem_of_getElem? hu, e⟩
  refine ⟨?_, ?_, ?_⟩
  · intro t ht
    rcases mem t ht with ht | ⟨u, hu, rfl⟩
    · exact h.ok t ht
    · exact next_ok (h.ok u hu)
  · intro t ht hq
    rcases mem t ht with ht | ⟨u, hu, rfl⟩
    · exact h.line t ht hq
    · exact next_line (h.line u hu) hq
  · intro i j t u hi hj hne l hw hr
    obtain ⟨t', ht', et⟩ := turn_get an ts c i t hi
    obtain ⟨u', hu', eu⟩ := turn_get an ts c j u hj
    have old := h.excl i j t' u' ht' hu' hne l
    rcases et with rfl | ⟨ei, rfl⟩
    · rcases eu with rfl | ⟨ej, rfl⟩
      · exact old hw hr
      · -- the other one has got it
        have key : ∀ m, (l, m) ∈ (u'.next ts c.2 (an c.1)).held → False := by
          intro m hm
          rcases next_held hm with hm | hf
          · exact old hw (by cases m <;> simp [Has, hm])
          · cases m with
            | read => exact ((free_read ..).1 hf).1 t (List.mem_of_getElem? ht') hw
            | write => exact (free_write ..).1 hf t (List.mem_of_getElem? ht') (.inr hw)
        exact hr.elim (key _) (key _)
    · rcases eu with rfl | ⟨ej, rfl⟩
      · rcases next_held hw with hw | hf
        · exact old hw hr
        · exact (free_write ..).1 hf u (List.mem_of_getElem? hu') hr
      · exact hne (ei.trans ej.symm)

theorem inv_start (calls : List (Call × Eyes)) : Inv (start calls) := by
  unfold start
  refine ⟨?_, ?_, ?_⟩
  · intro t ht
    obtain ⟨c, -, rfl⟩ := List.mem_map.1 ht
    exact ok_script _ _
  · intro t ht hq
    obtain ⟨c, -, rfl⟩ := List.mem_map.1 ht
    cases hq
  · intro i j t u hi _ _ l hw _
    rw [List.getElem?_map] at hi
    obtain ⟨c, -, rfl⟩ := Option.map_eq_some_iff.1 hi
    cases hw

theorem Inv.run {ts : List Thread} (h : Inv ts) (an : Nat → Bool) (sched : List (Nat × Bool)) : Inv (run an ts sched) := by
  induction sched generalizing ts with
  | nil => exact h
  | cons c sched ih => exact ih (h.turn an c)

/-! ## Somebody can go on -/

/-- The level of what a thread wants; above all locks if it wants none. -/
def want (t : Thread) : Nat :=
  match t.todo with
  | .acquire l _ :: _ => level l
  | _ => 3

/-- It is in a call, and does not wait for storage that does not answer. -/
def Busy (answered : Bool) (t : Thread) : Prop := t.todo ≠ [] ∧ ¬ ((∃ rest, t.todo = .storage :: rest) ∧ answered = false)

theorem holder_busy {t : Thread} {an : Bool} (h : Ok t.held t.todo) {l : Lock} (hl : Has t l) : Busy an t ∧ level l < want t := by
  have hne : t.held ≠ [] := by rintro e; simp [Has, e] at hl
  unfold Busy want
  have hmem : ∃ m, (l, m) ∈ t.held := hl.elim (fun h => ⟨_, h⟩) (fun h => ⟨_, h⟩)
  obtain ⟨m, hm⟩ := hmem
  cases ht : t.todo with
  | nil => rw [ht] at h; exact absurd h hne
  | cons op rest =>
    rw [ht] at h
    cases op with
    | acquire l' m' =>
      refine ⟨⟨by simp, ?_⟩, h.1 _ hm⟩
      rintro ⟨⟨_, e⟩, -⟩; cases e
    | release l' =>
      refine ⟨⟨by simp, ?_⟩, ?_⟩
      · rintro ⟨⟨_, e⟩, -⟩; cases e
      · have := level_le l; show level l < 3; omega
    | storage => exact absurd h.1 hne

theorem progress {ts : List Thread} (h : Inv ts) (an : Nat → Bool) (k : Nat) :
    ∀ i t, ts[i]? = some t → Busy (an i) t → 3 - want t ≤ k → ∃ j u, ts[j]? = some u ∧ CanGo ts (an j) u := by
  induction k with
  | zero =>
    intro i t hi hb hk
    refine ⟨i, t, hi, ?_⟩
    unfold want at hk
    cases ht : t.todo with
    | nil => exact absurd ht hb.1
    | cons op rest =>
      rw [ht] at hk
      cases op with
      | acquire l m => have := level_le l; simp only at hk; omega
      | release l => exact .inl ⟨l, rest, ht⟩
      | storage =>
        refine .inr (.inl ⟨⟨rest, ht⟩, ?_⟩)
        cases ha : an i with
        | true => rfl
        | false => exact absurd ⟨⟨rest, ht⟩, ha⟩ hb.2
  | succ k ih =>
    intro i t hi hb hk
    -- a holder of the lock goes on, or waits for one further up
    have up : ∀ l, want t = level l → (∃ u ∈ ts, Has u l) → ∃ j u, ts[j]? = some u ∧ CanGo ts (an j) u := by
      rintro l hw ⟨u, hu, hl⟩
      obtain ⟨j, hj⟩ := List.mem_iff_getElem?.1 hu
      obtain ⟨hb', hlt⟩ := holder_busy (an := an j) (h.ok u hu) hl
      exact ih j u hj hb' (by omega)
    cases ht : t.todo with
    | nil => exact absurd ht hb.1
    | cons op rest =>
      cases op with
      | release l => exact ⟨i, t, hi, .inl ⟨l, rest, ht⟩⟩
      | storage =>
        refine ⟨i, t, hi, .inr (.inl ⟨⟨rest, ht⟩, ?_⟩)⟩
        cases ha : an i with
        | true => rfl
        | false => exact absurd ⟨⟨rest, ht⟩, ha⟩ hb.2
      | acquire l m =>
        have hw : want t = level l := by unfold want; rw [ht]
        by_cases hh : ∃ u ∈ ts, Has u l
        · exact up l hw hh
        · have hno : ∀ u ∈ ts, ¬ Has u l := fun u hu hl => hh ⟨u, hu, hl⟩
          cases m with
          | write => exact ⟨i, t, hi, .inr (.inr (.inr ⟨l, rest, ht, hno⟩))⟩
          | read =>
            by_cases hq : ∃ u ∈ ts, InLine u l
            · obtain ⟨u, hu, -, rest', e⟩ := hq
              obtain ⟨j, hj⟩ := List.mem_iff_getElem?.1 hu
              exact ⟨j, u, hj, .inr (.inr (.inr ⟨l, rest', e, hno⟩))⟩
            · refine ⟨i, t, hi, .inr (.inr (.inl ⟨l, rest, ht, fun u hu => ⟨fun hm => hno u hu (.inr hm), fun hl => hq ⟨u, hu, hl⟩⟩⟩))⟩

/-! ## They all return -/

/-- What a thread has yet to do. -/
def effort (t : Thread) : Nat := 2 * t.todo.length - (if t.queued then 1 else 0)

def efforts (ts : List Thread) : Nat := (ts.map effort).sum

theorem next_effort {ts : List Thread} {b a : Bool} {t : Thread} (hl : t.queued = true → ∃ l rest, t.todo = .acquire l .write :: rest) :
    t.next ts b a = t ∨ effort (t.next ts b a) < effort t := by
  unfold Thread.next effort
  split
  · exact .inl rfl
  · next l m rest e =>
    split
    · refine .inr ?_
      simp only [e, List.length_cons, Bool.false_eq_true, if_false]
      split <;> omega
    · split
      · cases hq : t.queued with
        | true => left; cases t; simp_all
        | false => right; simp only [e, List.length_cons]; simp; omega
      · exact .inl rfl
  · next l rest e =>
    refine .inr ?_
    simp only [e, List.length_cons, Bool.false_eq_true, if_false]
    split <;> omega
  · next rest e =>
    split
    · refine .inr ?_
      cases hq : t.queued with
      | true => obtain ⟨_, _, h⟩ := hl hq; rw [e] at h; cases h
      | false => simp only [e, List.length_cons, Bool.false_eq_true, if_false]; omega
    · exact .inl rfl

theorem sum_set (l : List Nat) (i x y : Nat) (h : l[i]? = some x) : (l.set i y).sum + x = l.sum + y := by
  induction l generalizing i with
  | nil => simp at h
  | cons a l ih =>
    cases i with
    | zero => simp at h; subst h; simp; omega
    | succ i =>
      simp at h
      have := ih i (by simpa using h)
      simp only [List.set_cons_succ, List.sum_cons]; omega

theorem turn_effort {ts : List Thread} (h : Inv ts) (an : Nat → Bool) (c : Nat × Bool) :
    turn an ts c = ts ∨ efforts (turn an ts c) < efforts ts := by
  unfold turn
  split
  · exact .inl rfl
  · next t ht =>
    rcases next_effort (ts := ts) (b := c.2) (a := an c.1) (h.line t (List.mem_of_getElem? ht)) with e | hlt
    · left
      rw [e]
      apply List.ext_getElem?
      intro i
      rw [List.getElem?_set]
      split
      · next e => subst e; split
                  · exact ht.symm
                  · next hn => rw [List.getElem?_eq_none (by omega)]
      · rfl
    · right
      unfold efforts
      rw [List.map_set]
      have := sum_set (ts.map effort) c.1 (effort t) (effort (t.next ts c.2 (an c.1))) (by rw [List.getElem?_map, ht]; rfl)
      omega

theorem run_effort {ts : List Thread} (h : Inv ts) (an : Nat → Bool) (sched : List (Nat × Bool)) :
    (run an ts sched = ts ∧ ∀ c ∈ sched, turn an ts c = ts) ∨ efforts (run an ts sched) < efforts ts := by
  induction sched generalizing ts with
  | nil => exact .inl ⟨rfl, by simp⟩
  | cons c sched ih =>
    have e : run an ts (c :: sched) = run an (turn an ts c) sched := rfl
    rcases turn_effort h an c with hc | hc
    · rw [e, hc]
      rcases ih h with ⟨h1, h2⟩ | h1
      · left
        refine ⟨h1, ?_⟩
        intro d hd
        rcases List.mem_cons.1 hd with rfl | hd
        · exact hc
        · exact h2 d hd
      · exact .inr h1
    · right
      rw [e]
      rcases ih (h.turn an c) with ⟨h1, -⟩ | h1
      · rw [h1]; exact hc
      · omega

theorem canGo_turn {ts : List Thread} (h : Inv ts) (an : Nat → Bool) {i : Nat} {t : Thread} (hi : ts[i]? = some t)
    (hc : CanGo ts (an i) t) (b : Bool) : turn an ts (i, b) ≠ ts := by
  intro e
  have hn : t.next ts b (an i) = t := by
    have : (turn an ts (i, b))[i]? = some (t.next ts b (an i)) := by
      unfold turn
      simp only [hi]
      rw [List.getElem?_set, if_pos rfl, if_pos (by have := (List.getElem?_eq_some_iff.1 hi).1; exact this)]
    rw [e, hi] at this
    exact (Option.some.inj this).symm
  have hlen : (t.next ts b (an i)).todo.length = t.todo.length := by rw [hn]
  unfold Thread.next at hlen
  rcases hc with ⟨l, rest, ht⟩ | ⟨⟨rest, ht⟩, ha⟩ | ⟨l, rest, ht, hf⟩ | ⟨l, rest, ht, hf⟩
  · simp only [ht, List.length_cons] at hlen; omega
  · simp only [ht, ha, if_true, List.length_cons] at hlen; omega
  · simp only [ht] at hlen
    rw [if_pos ((free_read ..).2 ⟨fun u hu => (hf u hu).1, .inr fun u hu => (hf u hu).2⟩)] at hlen
    simp only [List.length_cons] at hlen; omega
  · simp only [ht] at hlen
    rw [if_pos ((free_write ..).2 hf)] at hlen
    simp only [List.length_cons] at hlen; omega

theorem run_length (an : Nat → Bool) (ts : List Thread) (sched : List (Nat × Bool)) : (run an ts sched).length = ts.length := by
  induction sched generalizing ts with
  | nil => rfl
  | cons c sched ih => exact (ih _).trans (turn_length an ts c)

/-- A round in which somebody is busy gets on. -/
theorem round_effort {ts : List Thread} (h : Inv ts) (an : Nat → Bool) (seg : List (Nat × Bool)) (hr : Round ts.length seg)
    {i : Nat} {t : Thread} (hi : ts[i]? = some t) (hb : Busy (an i) t) : efforts (run an ts seg) < efforts ts := by
  rcases run_effort h an seg with ⟨-, h2⟩ | h1
  · obtain ⟨j, u, hj, hc⟩ := progress h an 3 i t hi hb (by omega)
    obtain ⟨b, hm⟩ := hr j (List.getElem?_eq_some_iff.1 hj).1
    exact absurd (h2 _ hm) (canGo_turn h an hj hc b)
  · exact h1

theorem run_append (an : Nat → Bool) (ts : List Thread) (a b : List (Nat × Bool)) : run an ts (a ++ b) = run an (run an ts a) b :=
  List.foldl_append ..

theorem rounds_end {ts : List Thread} (h : Inv ts) (an : Nat → Bool) (rounds : List (List (Nat × Bool)))
    (hr : ∀ seg ∈ rounds, Round ts.length seg) (hn : efforts ts ≤ rounds.length) :
    ∀ i t, (run an ts rounds.flatten)[i]? = some t → ¬ Busy (an i) t := by
  induction rounds generalizing ts with
  | nil =>
    intro i t hi hb
    have h0 : efforts ts = 0 := by simpa using hn
    have : effort t = 0 := by
      have hm : effort t ∈ ts.map effort := List.mem_map.2 ⟨t, List.mem_of_getElem? hi, rfl⟩
      have : ∀ (l : List Nat) (x : Nat), x ∈ l → x ≤ l.sum := by
        intro l x hx
        induction l with
        | nil => cases hx
        | cons a l ih =>
          rcases List.mem_cons.1 hx with rfl | hx
          · simp
          · have := ih hx; simp; omega
      have := this _ _ hm
      unfold efforts at h0
      omega
    unfold effort at this
    cases ht : t.todo with
    | nil => exact hb.1 ht
    | cons op rest =>
      rw [ht] at this
      simp only [List.length_cons] at this
      split at this <;> omega
  | cons seg rounds ih =>
    rw [List.flatten_cons, run_append]
    by_cases hb : ∃ i t, ts[i]? = some t ∧ Busy (an i) t
    · obtain ⟨i, t, hi, hb⟩ := hb
      have := round_effort h an seg (hr seg List.mem_cons_self) hi hb
      refine ih (h.run an seg) ?_ ?_
      · intro s hs; rw [run_length]; exact hr s (List.mem_cons_of_mem _ hs)
      · simp only [List.length_cons] at hn; omega
    · -- nothing moves any more
      have still : ∀ sched, run an ts sched = ts := by
        intro sched
        induction sched with
        | nil => rfl
        | cons c sched ih =>
          have : turn an ts c = ts := by
            unfold turn
            split
            · rfl
            · next t ht =>
              have hnb : ¬ Busy (an c.1) t := fun hbt => hb ⟨_, _, ht, hbt⟩
              have hs : t.next ts c.2 (an c.1) = t := by
                unfold Thread.next
                cases htd : t.todo with
                | nil => rfl
                | cons op rest =>
                  cases op with
                  | acquire l m => exact absurd ⟨by simp [htd], by rintro ⟨⟨_, e⟩, -⟩; rw [htd] at e; cases e⟩ hnb
                  | release l => exact absurd ⟨by simp [htd], by rintro ⟨⟨_, e⟩, -⟩; rw [htd] at e; cases e⟩ hnb
                  | storage =>
                    cases ha : an c.1 with
                    | false => rfl
                    | true => exact absurd ⟨by simp [htd], by rintro ⟨-, e⟩; rw [ha] at e; cases e⟩ hnb
              rw [hs]
              exact List.ext_getElem? fun i => by
                rw [List.getElem?_set]
                split
                · next e => subst e; split
                            · exact ht.symm
                            · next hn => rw [List.getElem?_eq_none (by omega)]
                · rfl
          show run an (turn an ts c) sched = ts
          rw [this]; exact ih
      rw [still, still]
      intro i t hi hbt
      exact hb ⟨i, t, hi, hbt⟩

theorem efforts_start (calls : List (Call × Eyes)) : efforts (start calls) ≤ 22 * calls.length := by
  unfold efforts start
  induction calls with
  | nil => simp
  | cons c calls ih =>
    simp only [List.map_cons, List.sum_cons, List.length_cons]
    have : effort { todo := script c.1 c.2 } ≤ 22 := by
      unfold effort
      have := length_script c.1 c.2
      simp only [Bool.false_eq_true, if_false]
      omega
    omega

end Abq.RegistryLocksProof
